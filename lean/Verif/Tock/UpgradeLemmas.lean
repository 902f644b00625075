import Verif.Tock.SpecUpgrade
import Verif.Tock.PropsRanges

/-!
# Lemmas about upgrades and booting
-/
namespace Verif.Tock

theorem read_length (m : Mem) (a n : Nat) : (m.read a n).length = n := by simp [Mem.read]

theorem read_congr {m m' : Mem} {a n : Nat} (h : ∀ x, a ≤ x → x < a + n → m' x = m x) : m'.read a n = m.read a n := by
  unfold Mem.read
  apply List.map_congr_left
  intro x hx
  have := List.mem_range'_1.1 hx
  exact h x this.1 this.2

theorem read_get (m : Mem) {a n x : Nat} (h1 : a ≤ x) (h2 : x < a + n) : (m.read a n)[x - a]? = some (m x) := by
  unfold Mem.read
  have h3 : x - a < n := by omega
  have h4 : a + (x - a) = x := by omega
  simp [h3, h4]

theorem read_eq_iff {m m' : Mem} {a n : Nat} : m'.read a n = m.read a n ↔ ∀ x, a ≤ x → x < a + n → m' x = m x := by
  refine ⟨fun h x h1 h2 => ?_, read_congr⟩
  have e1 := read_get m h1 h2
  have e2 := read_get m' h1 h2
  rw [h, e1] at e2
  exact (Option.some.inj e2).symm

theorem read_append (m : Mem) (a n k : Nat) : m.read a (n + k) = m.read a n ++ m.read (a + n) k := by
  unfold Mem.read
  rw [← List.map_append, List.range'_append_1]

theorem drop_read (m : Mem) (a n k : Nat) : (m.read a n).drop k = m.read (a + k) (n - k) := by
  unfold Mem.read
  rw [← List.map_drop, List.drop_range', Nat.mul_one]

/-! ### Metadata -/

theorem metadata_iff {page h s : List UInt8} {v a : Nat} (hl : page.length = 0x1000) :
    Metadata page h s v a ↔ h = page.take 32 ∧ s = (page.drop 32).take 64 ∧ v = parseMetadataVersion page ∧
      a = parseMetadataAddress page := by
  constructor
  · rintro ⟨-, pad, vb, ab, rest, rfl, h1, h2, h3, h4, h5, rfl, rfl⟩
    have e1 : (h ++ s ++ pad ++ vb ++ ab ++ rest).drop 32 = s ++ (pad ++ (vb ++ (ab ++ rest))) := by
      simp only [List.append_assoc]
      rw [← h1, List.drop_left]
    have e2 : (h ++ s ++ pad ++ vb ++ ab ++ rest).drop signOffset = vb ++ (ab ++ rest) := by
      have : signOffset = (h ++ (s ++ pad)).length := by simp [h1, h2, h3, signOffset]
      rw [this]
      have : h ++ s ++ pad ++ vb ++ ab ++ rest = (h ++ (s ++ pad)) ++ (vb ++ (ab ++ rest)) := by
        simp only [List.append_assoc]
      rw [this, List.drop_left]
    refine ⟨?_, ?_, ?_, ?_⟩
    · simp only [List.append_assoc]
      rw [← h1, List.take_left]
    · rw [e1, ← h2, List.take_left]
    · unfold parseMetadataVersion
      rw [e2, ← h4, List.take_left]
    · unfold parseMetadataAddress
      rw [← List.drop_drop, e2, ← h4, List.drop_left, ← h5, List.take_left]
  · rintro ⟨rfl, rfl, rfl, rfl⟩
    refine ⟨hl, (page.drop 96).take (0x800 - 96), (page.drop 0x800).take 8, (page.drop 0x808).take 4, page.drop 0x80c,
      ?_, by simp; omega, by simp; omega, by simp; omega, by simp; omega, by simp; omega, rfl, rfl⟩
    have key : ∀ (l : List UInt8) (i n : Nat), l.drop i = (l.drop i).take n ++ l.drop (i + n) := by
      intro l i n
      rw [← List.drop_drop, List.take_append_drop]
    have e0 := key page 0 32
    have e1 := key page 32 64
    have e2 := key page 96 (0x800 - 96)
    have e3 := key page 0x800 8
    have e4 := key page 0x808 4
    simp only [List.drop_zero, Nat.zero_add] at e0
    simp only [List.append_assoc]
    rw [← e4, ← e3]
    show page = List.take 32 page ++ (List.take 64 (List.drop 32 page) ++ (List.take (0x800 - 96) (List.drop 96 page) ++ List.drop (96 + (0x800 - 96)) page))
    rw [← e2]
    show page = List.take 32 page ++ (List.take 64 (List.drop 32 page) ++ List.drop (32 + 64) page)
    rw [← e1]
    exact e0

theorem verifySignature_iff {c : Crypto} {sig key hash : List UInt8} :
    verifySignature c sig key hash = .ok () ↔ ValidSignature c key hash sig := by
  unfold verifySignature ValidSignature
  constructor
  · intro h
    cases hs : c.signatureFromSlice sig with
    | none => rw [hs] at h; simp at h
    | some s =>
      rw [hs] at h
      dsimp only at h
      split at h
      · simp at h
      · rename_i hk
        have hk1 : key.length = 65 := by
          apply Classical.byContradiction; intro hc; exact hk (.inl hc)
        have hk2 : key[0]? = some 0x04 := by
          apply Classical.byContradiction; intro hc; exact hk (.inr hc)
        cases hp : c.publicKeyFromCoordinates ((key.drop 1).take 32) ((key.drop 33).take 32) with
        | none => rw [hp] at h; simp at h
        | some pk =>
          rw [hp] at h
          dsimp only at h
          split at h
          · rename_i hv
            refine ⟨_, _, pk, s, ?_, ?_, ?_, hp, rfl, hv⟩
            · cases key with
              | nil => simp at hk1
              | cons k key =>
                simp at hk2
                subst hk2
                simp at hk1
                simp only [List.drop_succ_cons, List.drop_zero, List.cons_append, List.cons.injEq, true_and]
                rw [List.take_of_length_le (i := 32) (l := List.drop 32 key) (by simp; omega)]
                exact (List.take_append_drop 32 key).symm
            · simp; omega
            · simp; omega
          · simp at h
  · rintro ⟨x, y, pk, s, rfl, hx, hy, hp, hs, hv⟩
    rw [hs]
    dsimp only
    rw [if_neg (by simp [hx, hy])]
    have e1 : ((0x04 :: x ++ y).drop 1).take 32 = x := by
      simp only [List.cons_append, List.drop_succ_cons, List.drop_zero]
      rw [← hx, List.take_left]
    have e2 : ((0x04 :: x ++ y).drop 33).take 32 = y := by
      simp only [List.cons_append, List.drop_succ_cons]
      rw [← hx, List.drop_left, hx, ← hy, List.take_length]
    rw [e1, e2, hp]
    dsimp only
    rw [if_pos hv]

theorem checkMetadata_iff {c : Crypto} {u : Upgrade} {m : Mem} {key page : List UInt8} :
    checkMetadata c u m key page = .ok () ↔ Acceptable c key u.identifier (u.runningVersion m) page := by
  unfold checkMetadata Acceptable
  by_cases hl : page.length = metadataLen
  · rw [if_neg (by simpa using hl)]
    constructor
    · intro h
      split at h
      · simp at h
      · rename_i h1
        split at h
        · simp at h
        · rename_i h2
          exact ⟨_, _, _, (metadata_iff hl).2 ⟨rfl, rfl, rfl, (Classical.not_not.1 h2).symm⟩, verifySignature_iff.1 h, by omega⟩
    · rintro ⟨hash, sig, v, hm, hs, hv⟩
      obtain ⟨rfl, rfl, rfl, ha⟩ := (metadata_iff hl).1 hm
      rw [if_neg (by omega), if_neg (by simp [ha])]
      exact verifySignature_iff.2 hs
  · rw [if_pos hl]
    constructor
    · intro h; simp at h
    · rintro ⟨hash, sig, v, hm, -, -⟩
      exact absurd hm.length hl

/-! ### Flash operations -/

theorem erase_outside {m : Mem} {a n : Nat} {f : Fate} {x : Nat} (h : ¬ (a ≤ x ∧ x < a + n)) : m.erase a n f x = m x := by
  cases f <;> simp only [Mem.erase] <;> rw [if_neg h]

theorem write_outside {m : Mem} {a : Nat} {data : List UInt8} {f : Fate} {x : Nat} (h : ¬ (a ≤ x ∧ x < a + data.length)) :
    m.write a data f x = m x := by
  cases f <;> simp only [Mem.write] <;> rw [if_neg h]

theorem erasePages_outside {ps : Nat} {as : List Nat} {m : Mem} {fates : List Fate} {x : Nat}
    (h : ∀ a ∈ as, ¬ (a ≤ x ∧ x < a + ps)) : (erasePages ps as m fates).2.1 x = m x := by
  induction as generalizing m fates with
  | nil => rfl
  | cons a as ih =>
    unfold erasePages
    split
    · rw [ih fun b hb => h b (by simp [hb]), erase_outside (h a (by simp))]
    · exact erase_outside (h a (by simp))

theorem erasePages_erased {ps : Nat} {as : List Nat} {m : Mem} {fates : List Fate} {x : Nat}
    (hok : (erasePages ps as m fates).1 = true) (h : m x = 0xff ∨ ∃ a ∈ as, a ≤ x ∧ x < a + ps) :
    (erasePages ps as m fates).2.1 x = 0xff := by
  induction as generalizing m fates with
  | nil =>
    rcases h with h | ⟨a, ha, -⟩
    · exact h
    · simp at ha
  | cons a as ih =>
    unfold erasePages at hok ⊢
    split
    · rename_i hf
      rw [if_pos hf] at hok
      apply ih hok
      by_cases hx : a ≤ x ∧ x < a + ps
      · left; simp only [Mem.erase]; rw [if_pos hx]
      · rcases h with h | ⟨b, hb, hb2⟩
        · left; rw [erase_outside hx]; exact h
        · rcases List.mem_cons.1 hb with rfl | hb
          · exact absurd hb2 hx
          · right; exact ⟨b, hb, hb2⟩
    · rename_i hf
      rw [if_neg hf] at hok
      simp at hok

theorem headD_clean {fates : List Fate} (h : ∀ f ∈ fates, f.isOk = true) : (fates.headD .ok).isOk = true := by
  cases fates with
  | nil => rfl
  | cons f fates => exact h f (by simp)

theorem erasePages_clean {ps : Nat} {as : List Nat} {m : Mem} {fates : List Fate} (h : ∀ f ∈ fates, f.isOk = true) :
    (erasePages ps as m fates).1 = true ∧ ∀ f ∈ (erasePages ps as m fates).2.2, f.isOk = true := by
  induction as generalizing m fates with
  | nil => exact ⟨rfl, h⟩
  | cons a as ih =>
    unfold erasePages
    rw [if_pos (headD_clean h)]
    exact ih fun f hf => h f (List.mem_of_mem_tail hf)

theorem and_ff (b : UInt8) : 0xff &&& b = b := by
  apply UInt8.toNat_inj.1
  rw [UInt8.toNat_and]
  show (2 ^ 8 - 1) &&& b.toNat = b.toNat
  rw [Nat.and_comm, Nat.and_two_pow_sub_one_eq_mod]
  exact Nat.mod_eq_of_lt b.toNat_lt

/-- What `program` does to the memory: nothing outside of the written range and of the pages that start in it. -/
theorem program_outside {c : Crypto} {u : Upgrade} {m : Mem} {fates : List Fate} {off a : Nat} {data : List UInt8} {x : Nat}
    (h1 : ¬ (a ≤ x ∧ x < a + data.length))
    (h2 : ∀ p ∈ ModRange.alignedIter ⟨a, data.length⟩ u.pageSize, ¬ (p ≤ x ∧ x < p + u.pageSize)) :
    (u.program c m fates off a data).2 x = m x := by
  unfold Upgrade.program
  have he := erasePages_outside (m := m) (fates := fates) h2
  generalize hr : erasePages u.pageSize (ModRange.alignedIter ⟨a, data.length⟩ u.pageSize) m fates = r at he
  obtain ⟨ok, m', fs⟩ := r
  dsimp only at he
  cases ok with
  | false => exact he
  | true =>
    dsimp only
    split
    · exact (write_outside h1).trans he
    · split
      · exact (write_outside (f := .ok) h1).trans he
      · split
        · exact (write_outside (f := .ok) h1).trans he
        · exact (write_outside (f := .ok) h1).trans he

/-- If no operation fails, a page in the written range contains the written bytes. -/
theorem program_inside {c : Crypto} {u : Upgrade} {m : Mem} {fates : List Fate} {off a : Nat} {data : List UInt8} {x p : Nat}
    (hc : ∀ f ∈ fates, f.isOk = true) (h1 : a ≤ x ∧ x < a + data.length)
    (hp : p ∈ ModRange.alignedIter ⟨a, data.length⟩ u.pageSize) (hx : p ≤ x ∧ x < p + u.pageSize) :
    (u.program c m fates off a data).2 x = data.getD (x - a) 0xff := by
  unfold Upgrade.program
  have hk := erasePages_clean (ps := u.pageSize) (as := ModRange.alignedIter ⟨a, data.length⟩ u.pageSize) (m := m) hc
  have he := erasePages_erased hk.1 (.inr ⟨p, hp, hx⟩)
  generalize hr : erasePages u.pageSize (ModRange.alignedIter ⟨a, data.length⟩ u.pageSize) m fates = r at he hk
  obtain ⟨ok, m', fs⟩ := r
  dsimp only at he hk
  obtain ⟨rfl, hf⟩ := hk
  have hw : m'.write a data .ok x = data.getD (x - a) 0xff := by
    simp only [Mem.write]
    rw [if_pos h1, he, and_ff]
  dsimp only
  have hhd := headD_clean hf
  rw [if_neg (by rw [hhd]; decide)]
  split
  · exact hw
  · split
    · exact hw
    · exact hw

/-! ### The upgrade storage -/

/-- What the storage guarantees. -/
structure Upgrade.Wf (u : Upgrade) : Prop where
  pos : 0 < u.pageSize
  aligned : ∀ r ∈ u.partition, u.pageSize ∣ r.start ∧ u.pageSize ∣ r.length
  inside : ∀ r ∈ u.partition, r.Inside
  metaStart : u.pageSize ∣ u.metadata.start
  metaLength : u.metadata.length = u.pageSize

theorem isPowerOfTwo_iff {n : Nat} (h : isPowerOfTwo n = true) : ∃ k, n = 2 ^ k := by
  unfold isPowerOfTwo at h
  simp at h
  exact ⟨_, h.2⟩

theorem scan_spec {ps k : Nat} (hk : ps = 2 ^ k) {locs : List Location} {md rn fw md' rn' fw' : ModRange}
    (h : Upgrade.scan ps locs (md, rn, fw) = .ok (md', rn', fw')) :
    (ps ∣ fw.start → ps ∣ fw.length → ps ∣ fw'.start ∧ ps ∣ fw'.length) ∧
    ((∀ l ∈ locs, l.isPartition = true → l.address + l.size < usizeSize) → fw.Inside → fw'.Inside) ∧
    (∀ x ∈ fw', x ∈ fw ∨ ∃ l ∈ locs, l.isPartition = true ∧ l.address ≠ metadataAddress ∧ l.address ≤ x ∧
      x < l.address + l.size) ∧
    ((md' = md ∧ rn' = rn) ∨
      (md' = ⟨metadataAddress, ps⟩ ∧ rn' = ⟨metadataAddress + ps, ps⟩ ∧ ps ∣ metadataAddress)) := by
  induction locs generalizing md rn fw with
  | nil =>
    unfold Upgrade.scan at h
    cases h
    exact ⟨fun h1 h2 => ⟨h1, h2⟩, fun _ h => h, fun x hx => .inl hx, .inl ⟨rfl, rfl⟩⟩
  | cons l locs ih =>
    unfold Upgrade.scan at h
    split at h
    · obtain ⟨h1, h2, h3, h4⟩ := ih h
      refine ⟨h1, fun hl => h2 fun l hlm => hl l (by simp [hlm]), fun x hx => ?_, h4⟩
      rcases h3 x hx with h | ⟨l, hl, h⟩
      · exact .inl h
      · exact .inr ⟨l, by simp [hl], h⟩
    · rename_i hpart
      have hpart : l.isPartition = true := by simpa using hpart
      split at h
      · simp at h
      · rename_i hal
        have hal : ps ∣ l.address ∧ ps ∣ l.size := by
          simp only [Bool.or_eq_true, Bool.not_eq_true', not_or, Bool.not_eq_false] at hal
          rw [hk] at hal ⊢
          exact ⟨(C49_aligned k _).1 hal.1, (C49_aligned k _).1 hal.2⟩
        split at h
        · rename_i hmd
          obtain ⟨h1, h2, h3, h4⟩ := ih h
          refine ⟨h1, fun hl => h2 fun l hlm => hl l (by simp [hlm]), fun x hx => ?_, .inr ?_⟩
          · rcases h3 x hx with h | ⟨l, hl, h⟩
            · exact .inl h
            · exact .inr ⟨l, by simp [hl], h⟩
          · rw [hmd] at h4 hal
            rcases h4 with ⟨rfl, rfl⟩ | h4
            · exact ⟨rfl, rfl, hal.1⟩
            · exact h4
        · rename_i hmd
          split at h
          · rename_i happ
            obtain ⟨h1, h2, h3, h4⟩ := ih h
            have ha := ModRange.append_true happ
            refine ⟨fun hs hl => h1 ?_ ?_, fun hl hin => h2 (fun l hlm => hl l (by simp [hlm])) ?_, fun x hx => ?_, h4⟩
            · rcases ha.2 with ⟨-, e⟩ | ⟨-, -, e⟩ <;> rw [e]
              · exact hal.1
              · exact hs
            · rcases ha.2 with ⟨-, e⟩ | ⟨-, -, e⟩ <;> rw [e]
              · exact hal.2
              · exact Nat.dvd_add hl hal.2
            · have := hl l (by simp) hpart
              unfold ModRange.Inside at *
              rcases ha.2 with ⟨-, e⟩ | ⟨-, e0, e⟩ <;> rw [e]
              · exact this
              · dsimp only at *; omega
            · rcases h3 x hx with h | ⟨l, hl, h⟩
              · have hm := ModRange.mem_addresses.2 h
                rw [ha.1, List.mem_append] at hm
                rcases hm with hm | hm
                · exact .inl (ModRange.mem_addresses.1 hm)
                · have hm := ModRange.mem_addresses.1 hm
                  rw [ModRange.mem_iff] at hm
                  exact .inr ⟨l, by simp, hpart, hmd, hm.1, hm.2⟩
              · exact .inr ⟨l, by simp [hl], h⟩
          · simp at h

theorem finish_spec {ps : Nat} {md rn fw : ModRange} {i : Nat} {u : Upgrade} (h : Upgrade.finish ps md rn fw i = .ok u)
    (hpos : 0 < ps) (hmd : ps ∣ md.start) (hml : md.length = ps) (hmi : md.Inside) (hfs : ps ∣ fw.start)
    (hfl : ps ∣ fw.length) (hfi : fw.Inside) :
    u.Wf ∧ u.pageSize = ps ∧ u.metadata = md ∧ u.runningMetadata = rn ∧ u.identifier = i ∧
      addressesOf u.partition = md.addresses ++ fw.addresses := by
  unfold Upgrade.finish at h
  rw [if_neg (by simp [Partition.append])] at h
  split at h
  · simp at h
  · rename_i hap
    cases h
    have hp : (Partition.append [] md).2 = [md] := by simp [Partition.append]
    rw [hp] at hap ⊢
    have hap : (Partition.append [md] fw).1 = true := by simpa using hap
    have hs := (append_spec (p := [md]) (by simp [Ordered]) (r := fw)).1 hap
    have hform : (Partition.append [md] fw).2 = [md, fw] ∨
        ((Partition.append [md] fw).2 = [⟨md.start, md.length + fw.length⟩] ∧ fw.start = md.start + md.length) := by
      unfold Partition.append at hap ⊢
      simp only [List.getLast?_singleton, List.dropLast_singleton, List.nil_append] at hap ⊢
      split at hap
      · simp at hap
      · rename_i hc
        rw [if_neg hc]
        split
        · rename_i ht
          rcases (ModRange.append_true ht).2 with ⟨h0, -⟩ | ⟨-, h1, h2⟩
          · omega
          · right; rw [h2]; exact ⟨rfl, h1⟩
        · rename_i ht
          left
          rw [(ModRange.append_false (by simpa using ht)).1]
    refine ⟨⟨hpos, ?_, ?_, hmd, hml⟩, rfl, rfl, rfl, rfl, ?_⟩
    · intro r hr
      dsimp only at hr
      rcases hform with e | ⟨e, -⟩ <;> rw [e] at hr <;> simp at hr
      · rcases hr with rfl | rfl
        · exact ⟨hmd, by rw [hml]; exact Nat.dvd_refl _⟩
        · exact ⟨hfs, hfl⟩
      · subst hr
        exact ⟨hmd, Nat.dvd_add (by rw [hml]; exact Nat.dvd_refl _) hfl⟩
    · intro r hr
      dsimp only at hr
      rcases hform with e | ⟨e, e2⟩ <;> rw [e] at hr <;> simp at hr
      · rcases hr with rfl | rfl
        · exact hmi
        · exact hfi
      · subst hr
        unfold ModRange.Inside at *
        dsimp only
        omega
    · rw [hs.2.2]
      simp [addressesOf]

/-- The storage locations are in the address space. -/
def LocationsInside (locs : List Location) : Prop := ∀ l ∈ locs, l.isPartition = true → l.address + l.size < usizeSize

theorem new_spec {ps : Nat} {locs : List Location} {u : Upgrade} (h : Upgrade.new ps locs = .ok u)
    (hin : LocationsInside locs) :
    u.Wf ∧ u.pageSize = ps ∧
    ((u.metadata = ⟨metadataAddress, ps⟩ ∧ u.runningMetadata = ⟨metadataAddress + ps, ps⟩ ∧ u.identifier = partitionAddressA) ∨
      (u.metadata = ⟨metadataAddress + ps, ps⟩ ∧ u.runningMetadata = ⟨metadataAddress, ps⟩ ∧
        u.identifier = partitionAddressB)) ∧
    ∀ x ∈ addressesOf u.partition, x ∈ u.metadata ∨
      ∃ l ∈ locs, l.isPartition = true ∧ l.address ≠ metadataAddress ∧ l.address ≤ x ∧ x < l.address + l.size := by
  unfold Upgrade.new at h
  split at h
  · simp at h
  · rename_i hp
    obtain ⟨k, hk⟩ := isPowerOfTwo_iff (n := ps) (by simpa using hp)
    have hpos : 0 < ps := by rw [hk]; exact Nat.two_pow_pos k
    cases hs : Upgrade.scan ps locs (.newEmpty, .newEmpty, .newEmpty) with
    | error e => rw [hs] at h; simp at h
    | ok v =>
      obtain ⟨md, rn, fw⟩ := v
      rw [hs] at h
      dsimp only at h
      obtain ⟨h1, h2, h3, h4⟩ := scan_spec hk hs
      have hf := h1 (by simp [ModRange.newEmpty]) (by simp [ModRange.newEmpty])
      have hfi := h2 hin (by unfold ModRange.Inside ModRange.newEmpty; decide)
      split at h
      · simp at h
      · rename_i hne
        have hmd : md = ⟨metadataAddress, ps⟩ ∧ rn = ⟨metadataAddress + ps, ps⟩ ∧ ps ∣ metadataAddress := by
          rcases h4 with ⟨rfl, rfl⟩ | h4
          · simp [ModRange.newEmpty, ModRange.isEmpty] at hne
          · exact h4
        obtain ⟨rfl, rfl, hdv⟩ := hmd
        have hle : ps ≤ metadataAddress := Nat.le_of_dvd (by decide) hdv
        have hin1 : ModRange.Inside ⟨metadataAddress, ps⟩ := by
          unfold ModRange.Inside metadataAddress usizeSize at *; dsimp only; omega
        have hin2 : ModRange.Inside ⟨metadataAddress + ps, ps⟩ := by
          unfold ModRange.Inside metadataAddress usizeSize at *; dsimp only; omega
        have hmem : ∀ (md : ModRange), ∀ x ∈ md.addresses ++ fw.addresses, x ∈ md ∨
            ∃ l ∈ locs, l.isPartition = true ∧ l.address ≠ metadataAddress ∧ l.address ≤ x ∧ x < l.address + l.size := by
          intro md x hx
          rcases List.mem_append.1 hx with hx | hx
          · exact .inl (ModRange.mem_addresses.1 hx)
          · rcases h3 x (ModRange.mem_addresses.1 hx) with h | h
            · rw [ModRange.mem_iff] at h; simp [ModRange.newEmpty] at h
            · exact .inr h
        split at h
        · obtain ⟨hw, e1, e2, e3, e4, e5⟩ := finish_spec h hpos (Nat.dvd_add hdv (Nat.dvd_refl ps)) rfl hin2 hf.1 hf.2 hfi
          refine ⟨hw, e1, .inr ⟨e2, e3, e4⟩, ?_⟩
          rw [e5, e2]
          exact hmem _
        · obtain ⟨hw, e1, e2, e3, e4, e5⟩ := finish_spec h hpos hdv rfl hin1 hf.1 hf.2 hfi
          refine ⟨hw, e1, .inl ⟨e2, e3, e4⟩, ?_⟩
          rw [e5, e2]
          exact hmem _

/-- The page of an aligned address of the partition belongs to the partition. -/
theorem page_inside {u : Upgrade} (hw : u.Wf) {p x : Nat} (hp : p ∈ addressesOf u.partition) (hd : u.pageSize ∣ p)
    (hx : p ≤ x ∧ x < p + u.pageSize) : x ∈ addressesOf u.partition := by
  obtain ⟨r, hr, hp⟩ := mem_addressesOf.1 hp
  refine mem_addressesOf.2 ⟨r, hr, ?_⟩
  obtain ⟨⟨i, hi⟩, ⟨j, hj⟩⟩ := hw.aligned r hr
  obtain ⟨n, hn⟩ := hd
  rw [ModRange.mem_iff] at hp ⊢
  rw [hi, hj, ← Nat.mul_add] at hp ⊢
  rw [hn] at hp hx
  have h1 : n < i + j := Nat.lt_of_mul_lt_mul_left hp.2
  have h2 : u.pageSize * (n + 1) ≤ u.pageSize * (i + j) := Nat.mul_le_mul_left _ h1
  rw [Nat.mul_add, Nat.mul_one] at h2
  omega

/-- An aligned page that has an address in common with the metadata page is this page. -/
theorem page_metadata {u : Upgrade} (hw : u.Wf) {p x : Nat} (hd : u.pageSize ∣ p) (hx : p ≤ x ∧ x < p + u.pageSize)
    (hm : x ∈ u.metadata) : p = u.metadata.start := by
  obtain ⟨i, hi⟩ := hw.metaStart
  obtain ⟨n, hn⟩ := hd
  rw [ModRange.mem_iff, hw.metaLength] at hm
  rw [hi] at hm ⊢
  rw [hn] at hx ⊢
  have h1 : u.pageSize * n < u.pageSize * (i + 1) := by rw [Nat.mul_add, Nat.mul_one]; omega
  have h2 : u.pageSize * i < u.pageSize * (n + 1) := by rw [Nat.mul_add, Nat.mul_one]; omega
  have h3 : n < i + 1 := Nat.lt_of_mul_lt_mul_left h1
  have h4 : i < n + 1 := Nat.lt_of_mul_lt_mul_left h2
  have : n = i := by omega
  rw [this]

theorem write_in_partition {u : Upgrade} (hw : u.Wf) {off a : Nat} {n : Nat}
    (h : Partition.findAddress u.partition off n = some a) {x : Nat} (hx : a ≤ x ∧ x < a + n) :
    x ∈ addressesOf u.partition := by
  have h1 := (findAddress_sound hw.inside h).2 (x - a) (by omega)
  have h2 : a + (x - a) = x := by omega
  rw [h2] at h1
  exact List.mem_of_getElem? h1

theorem program_confined {c : Crypto} {u : Upgrade} (hw : u.Wf) {m : Mem} {fates : List Fate} {off a : Nat}
    {data : List UInt8} (h : Partition.findAddress u.partition off data.length = some a) {x : Nat}
    (hx : x ∉ addressesOf u.partition) : (u.program c m fates off a data).2 x = m x := by
  apply program_outside
  · intro hc
    exact hx (write_in_partition hw h hc)
  · intro p hp hc
    have hp := ((C49_pages ⟨a, data.length⟩ u.pageSize hw.pos).1 p).1 hp
    rw [ModRange.mem_iff] at hp
    exact hx (page_inside hw (write_in_partition hw h hp.1) hp.2.1 hc)

theorem writeBundle_confined {c : Crypto} {key : List UInt8} {u : Upgrade} (hw : u.Wf) {m : Mem} {fates : List Fate} {off : Nat}
    {data : List UInt8} {x : Nat} (hx : x ∉ addressesOf u.partition) :
    (u.writeBundle c key m fates off data).2 x = m x := by
  unfold Upgrade.writeBundle
  split
  · rfl
  · cases hf : Partition.findAddress u.partition off data.length with
    | none => rfl
    | some a =>
      dsimp only
      cases u.containsMetadata ⟨a, data.length⟩ with
      | error e => rfl
      | ok b =>
        cases b with
        | false => exact program_confined hw hf hx
        | true =>
          dsimp only
          cases checkMetadata c u m key ((data.drop (u.metadata.start - a)).take u.metadata.length) with
          | error e => rfl
          | ok _ => exact program_confined hw hf hx

/-- A request changes the metadata page only if it contains an acceptable one; then the page is this one unless an operation
of the flash fails. -/
theorem writeBundle_metadata {c : Crypto} {key : List UInt8} {u : Upgrade} (hw : u.Wf) (m : Mem) (fates : List Fate) (off : Nat)
    (data : List UInt8) :
    otherMetadata u (u.writeBundle c key m fates off data).2 = otherMetadata u m ∨
    ∃ page i, (data.drop i).take page.length = page ∧ Acceptable c key u.identifier (u.runningVersion m) page ∧
      ((∀ f ∈ fates, f.isOk = true) → otherMetadata u (u.writeBundle c key m fates off data).2 = page) := by
  unfold Upgrade.writeBundle
  split
  · exact .inl rfl
  · cases hf : Partition.findAddress u.partition off data.length with
    | none => exact .inl rfl
    | some a =>
      dsimp only
      cases hcm : u.containsMetadata ⟨a, data.length⟩ with
      | error e => exact .inl rfl
      | ok b =>
        cases b with
        | false =>
          left
          dsimp only
          have hni : ¬ ∃ x, x ∈ (⟨a, data.length⟩ : ModRange) ∧ x ∈ u.metadata := by
            rintro ⟨x, h1, h2⟩
            unfold Upgrade.containsMetadata at hcm
            rw [C49_intersects_if _ _ x h1 h2] at hcm
            simp only [if_true] at hcm
            split at hcm <;> simp at hcm
          apply read_congr
          intro x hx1 hx2
          have hxm : x ∈ u.metadata := ⟨hx1, hx2⟩
          apply program_outside
          · intro hc
            exact hni ⟨x, hc, hxm⟩
          · intro p hp hc
            have hp := ((C49_pages ⟨a, data.length⟩ u.pageSize hw.pos).1 p).1 hp
            have he := page_metadata hw hp.2.1 hc hxm
            refine hni ⟨p, hp.1, ?_⟩
            rw [he, ModRange.mem_iff, hw.metaLength]
            have := hw.pos
            omega
        | true =>
          dsimp only
          have hct : ∀ x ∈ u.metadata, x ∈ (⟨a, data.length⟩ : ModRange) := by
            unfold Upgrade.containsMetadata at hcm
            split at hcm
            · split at hcm
              · rename_i hc; exact (C49_contains _ _).1 hc
              · simp at hcm
            · simp at hcm
          cases hck : checkMetadata c u m key ((data.drop (u.metadata.start - a)).take u.metadata.length) with
          | error e => exact .inl rfl
          | ok v =>
            cases v
            right
            have hacc := checkMetadata_iff.1 hck
            have hpos := hw.pos
            have hms : u.metadata.start ∈ u.metadata := by
              rw [ModRange.mem_iff, hw.metaLength]; omega
            have hme : u.metadata.start + u.pageSize - 1 ∈ u.metadata := by
              rw [ModRange.mem_iff, hw.metaLength]; omega
            have h1 := hct _ hms
            have h2 := hct _ hme
            rw [ModRange.mem_iff] at h1 h2
            dsimp only at h1 h2
            have hlen : ((data.drop (u.metadata.start - a)).take u.metadata.length).length = u.metadata.length := by
              simp [hw.metaLength]; omega
            refine ⟨_, u.metadata.start - a, by rw [hlen], hacc, fun hc => ?_⟩
            dsimp only
            have hpage : u.metadata.start ∈ ModRange.alignedIter ⟨a, data.length⟩ u.pageSize := by
              refine ((C49_pages ⟨a, data.length⟩ u.pageSize hw.pos).1 _).2 ⟨hct _ hms, hw.metaStart, ?_⟩
              have hmem := write_in_partition hw hf (x := u.metadata.start) (by omega)
              obtain ⟨r, hr, hx⟩ := mem_addressesOf.1 hmem
              have := hw.inside r hr
              unfold ModRange.Inside at this
              rw [ModRange.mem_iff] at hx
              omega
            apply List.ext_getElem?
            intro i
            by_cases hi : i < u.metadata.length
            · have e1 := read_get (u.program c m fates off a data).2 (a := u.metadata.start) (n := u.metadata.length)
                (x := u.metadata.start + i) (by omega) (by omega)
              have e2 : u.metadata.start + i - u.metadata.start = i := by omega
              rw [e2] at e1
              unfold otherMetadata
              rw [e1]
              have hi2 := hw.metaLength
              rw [program_inside (p := u.metadata.start) hc (by omega) hpage (by omega)]
              rw [List.getElem?_take_of_lt hi, List.getElem?_drop]
              have e3 : u.metadata.start + i - a = u.metadata.start - a + i := by omega
              rw [e3, List.getD_eq_getElem?_getD, List.getElem?_eq_getElem (by omega)]
              rfl
            · have hl1 : (otherMetadata u (u.program c m fates off a data).2).length = u.metadata.length := read_length _ _ _
              rw [List.getElem?_eq_none (by rw [hl1]; omega), List.getElem?_eq_none (by rw [hlen]; omega)]

end Verif.Tock
