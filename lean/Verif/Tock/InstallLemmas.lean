import Verif.Tock.InstallSpec
import Verif.Tock.PropsUpgrade

/-!
# Lemmas about installing an upgrade
-/
namespace Verif.Tock

/-- The next page boundary. -/
def up (x : Nat) : Nat := (x + 0xfff) / 0x1000 * 0x1000

theorem read_of_bytes {m : Mem} {a : Nat} {l : List UInt8}
    (h : ∀ x, a ≤ x → x < a + l.length → m x = l.getD (x - a) 0xff) : m.read a l.length = l := by
  apply List.ext_getElem?
  intro i
  by_cases hi : i < l.length
  · have e1 := read_get m (a := a) (n := l.length) (x := a + i) (by omega) (by omega)
    have e2 := h (a + i) (by omega) (by omega)
    rw [Nat.add_sub_cancel_left] at e1 e2
    rw [e1, e2, List.getD_eq_getElem?_getD, List.getElem?_eq_getElem hi]
    rfl
  · rw [List.getElem?_eq_none (by rw [read_length]; omega), List.getElem?_eq_none (by omega)]

theorem bytes_of_read {m : Mem} {a n : Nat} {l : List UInt8} (h : m.read a n = l) {x : Nat} (h1 : a ≤ x) (h2 : x < a + n) :
    m x = l.getD (x - a) 0xff := by
  rw [← h, List.getD_eq_getElem?_getD, read_get m h1 h2]
  rfl

/-- Programming a piece whose bytes up to the next page are erased. -/
theorem program_piece {c : Crypto} {u : Upgrade} (hps : u.pageSize = 0x1000) {m : Mem} {o a : Nat} {data : List UInt8}
    (hd : data ≠ []) (ha : a + data.length ≤ usizeSize) (hb : ∀ x, a ≤ x → x < up a → m x = 0xff) :
    ∃ m', (∀ x, a ≤ x → x < a + data.length → m' x = data.getD (x - a) 0xff) ∧
      (∀ x, a + data.length ≤ x → x < up (a + data.length) → m' x = 0xff) ∧
      (∀ x, x < a ∨ up (a + data.length) ≤ x → m' x = m x) ∧
      u.program c m [] o a data = (if data.length = Partition.length u.partition - o then
        u.checkPartitionHash c m' (m'.read u.metadata.start u.metadata.length) else .ok (), m') := by
  have hpos : 0 < data.length := List.length_pos_iff.2 hd
  have hpages := fun p => (C49_pages ⟨a, data.length⟩ u.pageSize (by rw [hps]; decide)).1 p
  rw [hps] at hpages
  have hk := erasePages_clean (ps := u.pageSize) (as := ModRange.alignedIter ⟨a, data.length⟩ u.pageSize) (m := m)
    (fates := []) (by simp)
  have he := fun x hx => erasePages_erased (x := x) hk.1 hx
  have ho := fun x hx => erasePages_outside (ps := u.pageSize) (as := ModRange.alignedIter ⟨a, data.length⟩ u.pageSize)
    (m := m) (fates := []) (x := x) hx
  rw [hps] at hk he ho
  have hsame : ∀ x, up (a + data.length) ≤ x ∨ x < a →
      (erasePages 0x1000 (ModRange.alignedIter ⟨a, data.length⟩ 0x1000) m []).2.1 x = m x := by
    intro x hx
    apply ho
    intro p hp hc
    obtain ⟨hp1, ⟨k, hk⟩, -⟩ := (hpages p).1 hp
    rw [ModRange.mem_iff] at hp1
    dsimp only at hp1
    unfold up at hx
    omega
  have hff : ∀ x, a ≤ x → x < up (a + data.length) →
      (erasePages 0x1000 (ModRange.alignedIter ⟨a, data.length⟩ 0x1000) m []).2.1 x = 0xff := by
    intro x h1 h2
    apply he
    by_cases hx : x < up a
    · exact .inl (hb x h1 hx)
    · right
      refine ⟨x / 0x1000 * 0x1000, (hpages _).2 ⟨?_, ⟨x / 0x1000, Nat.mul_comm _ _⟩, ?_⟩, by omega, by omega⟩
      · rw [ModRange.mem_iff]; dsimp only; unfold up at *; omega
      · unfold up at *; omega
  unfold Upgrade.program
  rw [hps]
  generalize erasePages 0x1000 (ModRange.alignedIter ⟨a, data.length⟩ 0x1000) m [] = q at *
  obtain ⟨ok, m1, fs⟩ := q
  dsimp only at hk hsame hff
  obtain ⟨rfl, hf⟩ := hk
  have hhd := headD_clean hf
  have hw : ∀ x, a ≤ x → x < a + data.length → m1.write a data .ok x = data.getD (x - a) 0xff := by
    intro x h1 h2
    simp only [Mem.write]
    rw [if_pos ⟨h1, h2⟩, hff x h1 (by unfold up; omega), and_ff]
  refine ⟨m1.write a data .ok, hw, ?_, ?_, ?_⟩
  · intro x h1 h2
    rw [write_outside (by omega)]
    exact hff x (by omega) h2
  · intro x hx
    rw [write_outside (by unfold up at hx; omega)]
    exact hsame x hx.symm
  · dsimp only
    rw [if_neg (by rw [hhd]; decide), if_neg (by rw [read_of_bytes hw]; simp)]
    split <;> rfl

/-- The address of a piece of firmware. -/
theorem find_piece {s : Side} {u : Upgrade} (hu : storageOf s = some u) {off n : Nat} (hn : 0 < n) (h : off + n ≤ 0x40000) :
    Partition.findAddress u.partition (0x1000 + off) n = some ((bootPartition s.other).firmwareAddress + off) ∧
    u.containsMetadata ⟨(bootPartition s.other).firmwareAddress + off, n⟩ = .ok false := by
  have e := storageOf_eq s
  rw [hu] at e
  have e := Option.some.inj e
  constructor
  · rw [e]
    simp only [Partition.findAddress]
    rw [if_neg (by omega), if_pos (by omega), if_pos (by omega)]
    have : (bootPartition s.other).firmwareAddress ≤ 0x60000 := by cases s <;> decide
    rw [Nat.add_sub_cancel_left, Nat.mod_eq_of_lt (by unfold usizeSize; omega)]
  · unfold Upgrade.containsMetadata
    rw [if_neg]
    intro hc
    rw [e] at hc
    obtain ⟨x, h1, h2⟩ := (C49_intersects_partial _ _ (by dsimp only; omega) (by simp)).1 hc
    rw [ModRange.mem_iff] at h1 h2
    cases s <;> simp only [bootPartition, Side.other] at h1 h2 <;> omega

/-- The check of the hash at the end. -/
theorem check_complete {c : Crypto} {s : Side} {u : Upgrade} (hu : storageOf s = some u) {m : Mem}
    (h : (m.read (bootPartition s.other).metadataAddress 0x1000).take 32 = c.hash (contents m (bootPartition s.other))) :
    u.checkPartitionHash c m (m.read u.metadata.start u.metadata.length) = .ok () := by
  have e := storageOf_eq s
  rw [hu] at e
  have e := Option.some.inj e
  have hmd : u.metadata = ⟨(bootPartition s.other).metadataAddress, 0x1000⟩ := by rw [e]
  have hpart : Partition.rangesFrom u.partition (u.metadata.start + signOffset)
      = [⟨(bootPartition s.other).metadataAddress + 0x800, 0x800⟩, ⟨(bootPartition s.other).firmwareAddress, 0x40000⟩] := by
    rw [e]; cases s <;> decide
  unfold Upgrade.checkPartitionHash
  rw [hpart, hmd]
  dsimp only
  rw [if_neg (by rw [read_length]; decide), if_neg]
  unfold parseMetadataHash
  rw [h]
  simp only [List.flatMap_cons, List.flatMap_nil, List.append_nil]
  exact fun hc => hc rfl

theorem contents_eq {m : Mem} {p : BootPartition} {page firmware : List UInt8}
    (h1 : m.read p.metadataAddress 0x1000 = page) (h2 : m.read p.firmwareAddress 0x40000 = firmware) :
    contents m p = page.drop 0x800 ++ firmware := by
  unfold contents
  rw [← h1, ← h2, drop_read]

/-- The rest of the firmware. -/
theorem execute_pieces {c : Crypto} {key : List UInt8} {s : Side} {u : Upgrade} (hu : storageOf s = some u)
    {page firmware : List UInt8} (hf : firmware.length = 0x40000)
    (hh : page.take 32 = c.hash (page.drop 0x800 ++ firmware)) (pieces : List (List UInt8)) :
    ∀ (done : List UInt8) (m : Mem), firmware = done ++ pieces.flatten → (∀ p ∈ pieces, p ≠ []) →
      m.read (bootPartition s.other).metadataAddress 0x1000 = page →
      m.read (bootPartition s.other).firmwareAddress done.length = done →
      (∀ x, (bootPartition s.other).firmwareAddress + done.length ≤ x →
        x < up ((bootPartition s.other).firmwareAddress + done.length) → m x = 0xff) →
      (∀ st ∈ (execute c key u (offsets (0x1000 + done.length) pieces) m).1, st = .success) ∧
      (execute c key u (offsets (0x1000 + done.length) pieces) m).2.read (bootPartition s.other).metadataAddress 0x1000
        = page ∧
      (execute c key u (offsets (0x1000 + done.length) pieces) m).2.read (bootPartition s.other).firmwareAddress 0x40000
        = firmware ∧
      ∀ x, ¬ inImage (bootPartition s.other) x →
        (execute c key u (offsets (0x1000 + done.length) pieces) m).2 x = m x := by
  have e := storageOf_eq s
  rw [hu] at e
  have e := Option.some.inj e
  have hps : u.pageSize = 0x1000 := by rw [e]
  have hpl : Partition.length u.partition = 0x41000 := by rw [e]; cases s <;> decide
  have hfa : (bootPartition s.other).firmwareAddress = 0x20000 ∨ (bootPartition s.other).firmwareAddress = 0x60000 := by
    cases s <;> decide
  have hma : (bootPartition s.other).metadataAddress = 0x4000 ∨ (bootPartition s.other).metadataAddress = 0x5000 := by
    cases s <;> decide
  generalize hF : (bootPartition s.other).firmwareAddress = F at *
  generalize hM : (bootPartition s.other).metadataAddress = A at *
  induction pieces with
  | nil =>
    intro done m h1 _ h2 h3 _
    simp only [List.flatten_nil, List.append_nil] at h1
    subst h1
    rw [hf] at h3
    exact ⟨by simp [offsets, execute], h2, h3, fun _ _ => rfl⟩
  | cons p ps ih =>
    intro done m h1 hne h2 h3 h4
    have hp := hne p (by simp)
    have hpos : 0 < p.length := List.length_pos_iff.2 hp
    have hlen : done.length + (p.length + ps.flatten.length) = 0x40000 := by
      rw [← hf, h1]; simp
    obtain ⟨hfind, hcm⟩ := find_piece hu hpos (off := done.length) (n := p.length) (by omega)
    rw [hF] at hfind hcm
    obtain ⟨m', g1, g2, g3, g4⟩ := program_piece (c := c) hps (m := m) (o := 0x1000 + done.length) (a := F + done.length)
      hp (by unfold usizeSize; omega) h4
    have hup : up (F + done.length + p.length) ≤ F + 0x40000 := by unfold up; omega
    have k1 : m'.read A 0x1000 = page := by
      rw [← h2]
      apply read_congr
      intro x hx1 hx2
      apply g3
      omega
    have k2 : m'.read F (done ++ p).length = done ++ p := by
      rw [List.length_append, read_append]
      congr 1
      · rw [read_congr (m := m) fun x hx1 hx2 => g3 x (by omega)]
        exact h3
      · exact read_of_bytes g1
    have k3 : ∀ x, F + (done ++ p).length ≤ x → x < up (F + (done ++ p).length) → m' x = 0xff := by
      rw [List.length_append, ← Nat.add_assoc]
      exact g2
    have hout : ∀ x, ¬ inImage (bootPartition s.other) x → m' x = m x := by
      intro x hx
      apply g3
      unfold inImage at hx
      rw [hF, hM] at hx
      omega
    have hwb : u.writeBundle c key m [] (0x1000 + done.length) p = (.ok (), m') := by
      unfold Upgrade.writeBundle
      rw [if_neg (by cases p <;> simp at hp ⊢), hfind]
      dsimp only
      rw [hcm]
      dsimp only
      rw [g4]
      split
      · rename_i hlast
        rw [hpl] at hlast
        have hnil : ps.flatten = [] := List.length_eq_zero_iff.1 (by omega)
        have hall : m'.read F 0x40000 = firmware := by
          have : (done ++ p).length = 0x40000 := by rw [List.length_append]; omega
          rw [← this, k2, h1]
          simp [hnil]
        rw [check_complete hu]
        rw [contents_eq (page := page) (firmware := firmware) (by rw [hM]; exact k1) (by rw [hF]; exact hall),
          hM, k1]
        exact hh
      · rfl
    have hproc : processVendorUpgrade c key (some u) m [] (0x1000 + done.length) p (c.hash p) = (.success, m') := by
      unfold processVendorUpgrade
      rw [if_neg (by simp)]
      dsimp only
      rw [hwb]
    obtain ⟨i1, i2, i3, i4⟩ := ih (done ++ p) m' (by rw [h1]; simp) (fun q hq => hne q (by simp [hq])) k1 k2 k3
    rw [List.length_append, ← Nat.add_assoc] at i1 i2 i3 i4
    unfold offsets execute
    rw [hproc]
    dsimp only
    refine ⟨?_, i2, i3, fun x hx => (i4 x hx).trans (hout x hx)⟩
    intro st hst
    rcases List.mem_cons.1 hst with rfl | hst
    · rfl
    · exact i1 st hst

end Verif.Tock
