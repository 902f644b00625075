import Verif.Tock.UpgradeLemmas

/-!
# Lemmas about booting
-/
namespace Verif.Tock

theorem pages_read (m : Mem) (a k n : Nat) :
    ((List.range n).flatMap fun i => m.read (a + i * k) k) = m.read a (n * k) := by
  induction n with
  | zero => simp [Mem.read]
  | succ n ih =>
    rw [List.range_succ, List.flatMap_append, ih, Nat.succ_mul, read_append]
    simp

theorem computeUpgradeHash_eq (c : Crypto) (p : BootPartition) (m : Mem) :
    p.computeUpgradeHash c m (m.read p.metadataAddress metadataLen) = c.hash (contents m p) := by
  unfold BootPartition.computeUpgradeHash contents
  rw [drop_read, pages_read]
  rfl

theorem readVersion_iff {c : Crypto} {p : BootPartition} {m : Mem} {v : Nat} :
    p.readVersion c m = some v ↔ ValidImage c m p v := by
  unfold BootPartition.readVersion ValidImage
  rw [computeUpgradeHash_eq]
  have hl : (m.read p.metadataAddress 0x1000).length = 0x1000 := read_length _ _ _
  have hml : metadataLen = 0x1000 := rfl
  rw [hml]
  generalize m.read p.metadataAddress 0x1000 = page at hl ⊢
  generalize c.hash (contents m p) = h
  constructor
  · intro h
    split at h
    · simp at h
    · rename_i h1
      split at h
      · simp at h
      · rename_i h2
        cases h
        exact ⟨_, (metadata_iff hl).2 ⟨Classical.not_not.1 h2, rfl, rfl, Classical.not_not.1 h1⟩⟩
  · rintro ⟨sig, hm⟩
    obtain ⟨h1, -, h2, h3⟩ := (metadata_iff hl).1 hm
    rw [if_neg fun hc => hc h3, if_neg fun hc => hc h1, h2]

theorem validImage_congr {c : Crypto} {m m' : Mem} {p : BootPartition} {v : Nat}
    (h : ∀ x, inImage p x → m' x = m x) : ValidImage c m' p v ↔ ValidImage c m p v := by
  have e1 : m'.read p.metadataAddress 0x1000 = m.read p.metadataAddress 0x1000 :=
    read_congr fun x h1 h2 => h x (.inl ⟨h1, h2⟩)
  have e2 : contents m' p = contents m p := by
    unfold contents
    rw [read_congr (m := m) fun x h1 h2 => h x (.inl ⟨by omega, by omega⟩),
      read_congr (m := m) (a := p.firmwareAddress) fun x h1 h2 => h x (.inr ⟨h1, h2⟩)]
  unfold ValidImage
  rw [e1, e2]

theorem validImage_unique {c : Crypto} {m : Mem} {p : BootPartition} {v w : Nat} (h1 : ValidImage c m p v)
    (h2 : ValidImage c m p w) : v = w := by
  have h1 := readVersion_iff.2 h1
  rw [readVersion_iff.2 h2] at h1
  exact (Option.some.inj h1).symm

/-- The other partition. -/
def Side.other : Side → Side
  | .a => .b
  | .b => .a

theorem storageOf_eq (s : Side) :
    storageOf s = some ⟨0x1000, [⟨(bootPartition s.other).metadataAddress, 0x1000⟩,
        ⟨(bootPartition s.other).firmwareAddress, 0x40000⟩],
      ⟨(bootPartition s.other).metadataAddress, 0x1000⟩, ⟨(bootPartition s).metadataAddress, 0x1000⟩,
      (bootPartition s.other).firmwareAddress⟩ := by
  cases s <;> decide +kernel

theorem storageOf_wf {s : Side} {u : Upgrade} (h : storageOf s = some u) : u.Wf := by
  rw [storageOf_eq] at h
  cases h
  refine ⟨by show 0 < 0x1000; decide, ?_, ?_, ?_, rfl⟩
  · intro r hr
    simp at hr
    rcases hr with rfl | rfl <;> cases s <;> decide
  · intro r hr
    simp at hr
    unfold ModRange.Inside
    rcases hr with rfl | rfl <;> cases s <;> decide
  · cases s <;> decide

theorem storageOf_addresses {s : Side} {u : Upgrade} (h : storageOf s = some u) {x : Nat} :
    x ∈ addressesOf u.partition ↔ inImage (bootPartition s.other) x := by
  rw [storageOf_eq] at h
  cases h
  rw [mem_addressesOf]
  simp [inImage, ModRange.mem_iff]

theorem images_disjoint (s : Side) (x : Nat) (h : inImage (bootPartition s) x) : ¬ inImage (bootPartition s.other) x := by
  cases s <;> simp only [inImage, bootPartition, Side.other] at * <;> omega

theorem after_running {c : Crypto} {key : List UInt8} {s : Side} {u : Upgrade} (h : storageOf s = some u) (m : Mem)
    (r : Request) {x : Nat} (hx : inImage (bootPartition s) x) : after c key u m r x = m x :=
  writeBundle_confined (storageOf_wf h) fun hc => images_disjoint s x hx ((storageOf_addresses h).1 hc)

theorem boot_spec (c : Crypto) (m : Mem) :
    (∀ s, boot c m = some s → ∃ v, ValidImage c m (bootPartition s) v ∧
      ∀ t w, ValidImage c m (bootPartition t) w → w ≤ v ∧ (w = v → t = s ∨ s = .a)) ∧
    (boot c m = none → ∀ t w, ¬ ValidImage c m (bootPartition t) w) := by
  unfold boot
  cases ha : (bootPartition .a).readVersion c m with
  | none =>
    cases hb : (bootPartition .b).readVersion c m with
    | none =>
      refine ⟨fun s hs => by simp at hs, fun _ t w hv => ?_⟩
      have hv := readVersion_iff.2 hv
      cases t
      · rw [ha] at hv; cases hv
      · rw [hb] at hv; cases hv
    | some t2 =>
      refine ⟨fun s hs => ?_, fun hn => by simp at hn⟩
      obtain rfl := Option.some.inj hs
      refine ⟨t2, readVersion_iff.1 hb, fun t w hv => ?_⟩
      have hv := readVersion_iff.2 hv
      cases t
      · rw [ha] at hv; cases hv
      · rw [hb] at hv; cases hv; simp
  | some t1 =>
    cases hb : (bootPartition .b).readVersion c m with
    | none =>
      refine ⟨fun s hs => ?_, fun hn => by simp at hn⟩
      obtain rfl := Option.some.inj hs
      refine ⟨t1, readVersion_iff.1 ha, fun t w hv => ?_⟩
      have hv := readVersion_iff.2 hv
      cases t
      · rw [ha] at hv; cases hv; simp
      · rw [hb] at hv; cases hv
    | some t2 =>
      dsimp only
      by_cases hc : t1 ≥ t2
      · rw [if_pos hc]
        refine ⟨fun s hs => ?_, fun hn => by simp at hn⟩
        obtain rfl := Option.some.inj hs
        refine ⟨t1, readVersion_iff.1 ha, fun t w hv => ?_⟩
        have hv := readVersion_iff.2 hv
        cases t
        · rw [ha] at hv; cases hv; simp
        · rw [hb] at hv; cases hv; exact ⟨hc, fun _ => .inr rfl⟩
      · rw [if_neg hc]
        refine ⟨fun s hs => ?_, fun hn => by simp at hn⟩
        obtain rfl := Option.some.inj hs
        refine ⟨t2, readVersion_iff.1 hb, fun t w hv => ?_⟩
        have hv := readVersion_iff.2 hv
        cases t
        · rw [ha] at hv; cases hv; exact ⟨by omega, fun h => by omega⟩
        · rw [hb] at hv; cases hv; simp

end Verif.Tock
