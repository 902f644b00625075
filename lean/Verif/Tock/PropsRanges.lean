import Verif.Tock.RangesLemmas

/-!
# C49: the bookkeeping of flash ranges has the meaning of sets of addresses
-/
namespace Verif.Tock

/-- Two ranges that are not empty intersect if and only if they have an address in common.

What is missing: the code documents the result as `self ∩ range ≠ ∅` for all ranges, and the ranges of length zero as empty,
but see `C49_empty_intersects`. -/
theorem C49_intersects_partial (r s : ModRange) (hr : r.length ≠ 0) (hs : s.length ≠ 0) :
    r.intersectsRange s = true ↔ ∃ a, a ∈ r ∧ a ∈ s := by
  simp only [ModRange.intersectsRange, ModRange.startsInside, ModRange.isEmpty, Bool.or_eq_true, Bool.and_eq_true,
    decide_eq_true_eq, Bool.not_eq_true', beq_eq_false_iff_ne, ModRange.mem_iff]
  constructor
  · intro h
    rcases h with ⟨⟨h1, h2⟩, h3⟩ | ⟨⟨h1, h2⟩, h3⟩
    · exact ⟨r.start, by omega, by omega⟩
    · exact ⟨s.start, by omega, by omega⟩
  · intro ⟨a, h1, h2⟩
    by_cases h : r.start ≥ s.start
    · exact .inl (by omega)
    · exact .inr (by omega)

/-- An empty range that starts in another one is said to intersect it, although it contains no address. -/
theorem C49_empty_intersects :
    ∃ r s : ModRange, r.intersectsRange s = true ∧ s.intersectsRange r = true ∧ ∀ a, a ∉ r :=
  ⟨⟨250, 0⟩, ⟨200, 100⟩, by decide, by decide, fun a h => by rw [ModRange.mem_iff] at h; dsimp only at h; omega⟩

/-- If two ranges have an address in common they are said to intersect, also when the other direction fails. -/
theorem C49_intersects_if (r s : ModRange) (a : Nat) (hr : a ∈ r) (hs : a ∈ s) : r.intersectsRange s = true :=
  (C49_intersects_partial r s (by rw [ModRange.mem_iff] at hr; omega) (by rw [ModRange.mem_iff] at hs; omega)).2
    ⟨a, hr, hs⟩

/-- A range contains another one if and only if it contains all its addresses. -/
theorem C49_contains (r s : ModRange) : r.containsRange s = true ↔ ∀ a ∈ s, a ∈ r := by
  simp only [ModRange.containsRange, ModRange.isEmpty, Bool.or_eq_true, Bool.and_eq_true, decide_eq_true_eq, beq_iff_eq,
    ModRange.mem_iff]
  constructor
  · intro h a ha
    omega
  · intro h
    by_cases h0 : s.length = 0
    · exact .inl h0
    · have h1 := h s.start (by omega)
      have h2 := h (s.start + s.length - 1) (by omega)
      exact .inr (by omega)

/-- Appending a range succeeds only if the result is the disjoint union: all addresses of the first, then all those of the
second one. -/
theorem C49_append (r s : ModRange) (h : (r.append s).1 = true) :
    (r.append s).2.addresses = r.addresses ++ s.addresses ∧ ∀ a, ¬ (a ∈ r ∧ a ∈ s) := by
  obtain ⟨h1, h2⟩ := ModRange.append_true h
  refine ⟨h1, fun a ⟨ha, hb⟩ => ?_⟩
  rw [ModRange.mem_iff] at ha hb
  rcases h2 with ⟨h0, -⟩ | ⟨-, h0, -⟩ <;> omega

/-- Appending a range succeeds for the empty range, and for a range that is followed immediately by another one that is not
empty and ends in the address space. Otherwise it fails and changes nothing. -/
theorem C49_append_iff (r s : ModRange) (hs : s.Inside) :
    ((r.append s).1 = true ↔ r.length = 0 ∨ (s.length ≠ 0 ∧ s.start = r.start + r.length)) ∧
    ((r.append s).1 = false → (r.append s).2 = r) := by
  refine ⟨⟨fun h => ?_, fun h => ?_⟩, fun h => (ModRange.append_false h).1⟩
  · unfold ModRange.append at h
    simp only [ModRange.isEmpty, beq_iff_eq] at h
    split at h
    · rename_i h0; exact .inl h0
    · split at h
      · simp at h
      · split at h
        · simp at h
        · split at h
          · simp at h
          · rename_i h1 h2 h3; exact .inr ⟨h1, by omega⟩
  · cases hf : (r.append s).1 with
    | true => rfl
    | false =>
      obtain ⟨-, h1, h2⟩ := ModRange.append_false hf
      unfold ModRange.Inside at hs
      omega

/-- The aligned addresses of a range are exactly the addresses of the range that are multiples of the modulus (and exist at
all), in ascending order and without repetition. -/
theorem C49_pages (r : ModRange) (m : Nat) (hm : 0 < m) :
    (∀ a, a ∈ r.alignedIter m ↔ a ∈ r ∧ m ∣ a ∧ a < usizeSize) ∧ (r.alignedIter m).Pairwise (· < ·) := by
  rw [alignedIter_eq r m hm]
  constructor
  · intro a
    rw [List.mem_filter, List.mem_range'_1, ModRange.mem_iff]
    simp only [decide_eq_true_eq]
    constructor
    · intro ⟨h1, h2⟩; exact ⟨by omega, h2, by omega⟩
    · intro ⟨h1, h2, h3⟩; exact ⟨by omega, h2⟩
  · exact List.Pairwise.filter _ List.pairwise_lt_range'

/-- Alignment to a power of two is divisibility by it. -/
theorem C49_aligned (k a : Nat) : isAligned (2 ^ k) a = true ↔ 2 ^ k ∣ a := by
  unfold isAligned
  rw [Nat.and_two_pow_sub_one_eq_mod, beq_iff_eq]
  exact ⟨Nat.dvd_of_mod_eq_zero, Nat.mod_eq_zero_of_dvd⟩

/-- A partition into which ranges have been appended consists of exactly the addresses of these ranges, in this order and
strictly ascending; in particular no address belongs to it twice. -/
theorem C49_partition (rs : List ModRange) (p : Partition) (h : build rs = some p) :
    addressesOf p = addressesOf rs ∧ (addressesOf p).Pairwise (· < ·) :=
  ⟨(build_addresses h).2, (build_addresses h).1.ascending⟩

/-- A range is accepted if and only if it starts after the start and not before the end of all ranges so far; if it is
refused the partition remains as it was. -/
theorem C49_partition_append (rs : List ModRange) (p : Partition) (h : build rs = some p) (r : ModRange) :
    ((Partition.append p r).1 = true ↔ ∀ s ∈ p, s.start < r.start ∧ s.start + s.length ≤ r.start) ∧
    ((Partition.append p r).1 = false → (Partition.append p r).2 = p) := by
  have ho := (build_addresses h).1
  obtain ⟨h1, h2⟩ := append_spec ho (r := r)
  refine ⟨⟨fun ht s hs => ?_, fun hb => ?_⟩, fun hf => (h2 hf).1⟩
  · have := (h1 ht).1 s hs
    exact ⟨this.2, this.1⟩
  · cases hf : (Partition.append p r).1 with
    | true => rfl
    | false => exact absurd (fun s hs => ⟨(hb s hs).2, (hb s hs).1⟩) (h2 hf).2

/-- The length of a partition is the number of its addresses. -/
theorem C49_length (rs : List ModRange) (hin : ∀ r ∈ rs, r.Inside) (p : Partition) (h : build rs = some p) :
    Partition.length p = (addressesOf p).length := by
  obtain ⟨h1, h2⟩ := C49_partition rs p h
  apply length_eq
  have := ascending_length h2 (lo := 0) (n := usizeSize - 1) (fun a ha => by
    rw [h1] at ha
    obtain ⟨r, hr, ha⟩ := mem_addressesOf.1 ha
    have := hin r hr
    unfold ModRange.Inside at this
    rw [ModRange.mem_iff] at ha
    omega)
  have : 0 < usizeSize := by decide
  omega

/-- Translating an offset and a length gives the address at this offset, provided that the addresses from this offset on are
consecutive; in all other cases it gives nothing. The partition is built from ranges that are not empty. -/
theorem C49_find_address (rs : List ModRange) (hrs : ∀ r ∈ rs, r.Inside ∧ r.length ≠ 0) (p : Partition)
    (h : build rs = some p) (off len a : Nat) :
    Partition.findAddress p off len = some a ↔
      (addressesOf p)[off]? = some a ∧ ∀ i < len, (addressesOf p)[off + i]? = some (a + i) := by
  obtain ⟨h1, h2⟩ := build_gapped hrs h
  exact ⟨findAddress_sound fun r hr => (h2 r hr).1, fun ⟨h3, h4⟩ => findAddress_complete h1 (fun r hr => (h2 r hr).1) h3 h4⟩

/-- The ranges from an address on consist of the addresses of the partition from there on. -/
theorem C49_ranges_from (p : Partition) (a : Nat) :
    addressesOf (Partition.rangesFrom p a) = (addressesOf p).filter (fun x => decide (a ≤ x)) :=
  rangesFrom_eq p a

/-- Finding a slice gives the bytes at this place of the concatenated slices; if it fails the bytes are not within one of the
slices. It does not panic for lengths that exist. -/
theorem C49_find_slice (slices : List (List UInt8)) (start length : Nat) (hlen : start + length < usizeSize) :
    match findSlice slices start length with
    | .ok s => s = (slices.flatten.drop start).take length ∧ s.length = length ∧
        ∃ before slice after, slices = before ++ slice :: after ∧ before.flatten.length ≤ start ∧
          start < before.flatten.length + slice.length ∧ start + length ≤ before.flatten.length + slice.length
    | .error e => e = .outOfBounds ∧
        ∀ before slice after, slices = before ++ slice :: after → before.flatten.length ≤ start →
          start < before.flatten.length + slice.length → before.flatten.length + slice.length < start + length := by
  induction slices generalizing start with
  | nil => simp [findSlice]
  | cons slice slices ih =>
    unfold findSlice
    by_cases h1 : start ≥ slice.length
    · rw [if_pos h1]
      have ih := ih (start - slice.length) (by omega)
      revert ih
      cases hr : findSlice slices (start - slice.length) length with
      | ok s =>
        intro ⟨h2, h3, before, sl, after, h4, h5, h6, h7⟩
        dsimp only
        refine ⟨?_, h3, slice :: before, sl, after, by simp [h4], ?_⟩
        · rw [h2, List.flatten_cons, List.drop_append, List.drop_eq_nil_of_le (as := slice) h1, List.nil_append]
        · simp only [List.flatten_cons, List.length_append]
          omega
      | error e =>
        intro ⟨h2, h3⟩
        dsimp only
        refine ⟨h2, fun before sl after h4 h5 h6 => ?_⟩
        cases before with
        | nil =>
          simp at h4 h6
          rw [h4.1] at h1
          omega
        | cons b before =>
          simp at h4
          obtain ⟨rfl, h4⟩ := h4
          simp only [List.flatten_cons, List.length_append] at *
          have := h3 before sl after h4 (by omega) (by omega)
          omega
    · rw [if_neg h1, Nat.mod_eq_of_lt hlen]
      by_cases h2 : start + length > slice.length
      · rw [if_pos h2]
        refine ⟨rfl, fun before sl after h4 h5 h6 => ?_⟩
        cases before with
        | nil =>
          simp at h4
          simp [← h4.1]
          omega
        | cons b before =>
          simp at h4
          obtain ⟨rfl, h4⟩ := h4
          simp only [List.flatten_cons, List.length_append] at h5
          omega
      · rw [if_neg h2, if_neg (by omega)]
        refine ⟨?_, by simp; omega, [], slice, slices, by simp, by simp, by simp; omega, by simp; omega⟩
        rw [List.flatten_cons, List.drop_append_of_le_length (by omega), List.take_append_of_le_length (by simp; omega)]

/-! ### Examples -/

/-- Ranges that touch, that contain each other, that are apart. -/
example : ModRange.intersectsRange ⟨200, 100⟩ ⟨299, 1⟩ = true ∧ ModRange.intersectsRange ⟨200, 100⟩ ⟨300, 1⟩ = false ∧
    ModRange.containsRange ⟨200, 100⟩ ⟨201, 99⟩ = true ∧ ModRange.containsRange ⟨200, 100⟩ ⟨201, 100⟩ = false := by decide

/-- The partition of the device: a metadata page and two consecutive firmware ranges, which are merged. -/
def boardRanges : List ModRange := [⟨0x5000, 0x1000⟩, ⟨0x60000, 0x20000⟩, ⟨0x80000, 0x20000⟩]

example : build boardRanges = some [⟨0x5000, 0x1000⟩, ⟨0x60000, 0x40000⟩] := by decide +kernel

example : ∀ r ∈ boardRanges, r.Inside ∧ r.length ≠ 0 := by
  intro r hr
  simp [boardRanges] at hr
  rcases hr with rfl | rfl | rfl <;> exact ⟨by unfold ModRange.Inside; decide, by decide⟩

example : Partition.findAddress [⟨0x5000, 0x1000⟩, ⟨0x60000, 0x40000⟩] 0x20f00 0x200 = some 0x7ff00 ∧
    Partition.findAddress [⟨0x5000, 0x1000⟩, ⟨0x60000, 0x40000⟩] 0xf00 0x200 = none ∧
    Partition.findAddress [⟨0x5000, 0x1000⟩, ⟨0x60000, 0x40000⟩] 0x41000 0 = none := by decide

example : Partition.length [⟨0x5000, 0x1000⟩, ⟨0x60000, 0x40000⟩] = 0x41000 := by decide

example : Partition.rangesFrom [⟨0x5000, 0x1000⟩, ⟨0x60000, 0x40000⟩] 0x5800
    = [⟨0x5800, 0x800⟩, ⟨0x60000, 0x40000⟩] := by decide

/-- The end of the address space. -/
example : (ModRange.append ⟨usizeSize - 10, 9⟩ ⟨usizeSize - 1, 1⟩) = (true, ⟨usizeSize - 10, 10⟩) ∧
    (ModRange.append ⟨0, usizeSize - 1⟩ ⟨usizeSize - 1, 1⟩) = (false, ⟨0, usizeSize - 1⟩) := by decide

example : findSlice [[1, 2, 3, 4], [5, 6]] 4 2 = .ok [5, 6] ∧ findSlice [[1, 2, 3, 4], [5, 6]] 3 2 = .error .outOfBounds ∧
    findSlice [[1, 2, 3, 4], [5, 6]] 6 0 = .error .outOfBounds ∧
    findSlice [[1, 2, 3, 4], [5, 6]] 3 (usizeSize - 1) = .error .panic := by
  refine ⟨by rfl, by rfl, by rfl, by rfl⟩

end Verif.Tock
