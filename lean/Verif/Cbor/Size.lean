import Verif.Cbor.Fit

/-!
# How long encodings are at most
-/
namespace Verif.Cbor

mutual
/-- A bound for the length of the encoding: nine bytes for the head of each item, and the payload of the strings. -/
def Value.size : Value → Nat
  | .unsigned _ => 9
  | .negative _ => 9
  | .bytes b => 9 + b.length
  | .text b => 9 + b.length
  | .array l => 9 + Value.sizeList l
  | .map m => 9 + Value.sizeMap m
  | .tag _ v => 9 + Value.size v
  | .simple _ => 9
def Value.sizeList : List Value → Nat
  | [] => 0
  | x :: xs => Value.size x + Value.sizeList xs
def Value.sizeMap : List (Value × Value) → Nat
  | [] => 0
  | (k, v) :: xs => Value.size k + Value.size v + Value.sizeMap xs
end

theorem startItem_length (t n : Nat) : (startItem t n).length ≤ 9 := by
  unfold startItem
  repeat' split
  all_goals simp [beBytes]

mutual
theorem write_size (v : Value) (d : Depth) (bs : Bytes) (h : v.write d = .ok bs) : bs.length ≤ v.size := by
  rw [Value.write.eq_def] at h
  split at h
  · simp at h
  cases v with
  | array l =>
    simp only [bind_ok] at h
    obtain ⟨r, hr, h⟩ := h
    cases h
    have := writeList_size l _ r hr
    have := startItem_length 4 l.length
    simp only [List.length_append, Value.size]
    omega
  | map l =>
    simp only [bind_ok] at h
    obtain ⟨r, hr, h⟩ := h
    cases h
    have := writeMap_size l _ r hr
    have := startItem_length 5 l.length
    simp only [List.length_append, Value.size]
    omega
  | tag n v =>
    simp only [bind_ok] at h
    obtain ⟨r, hr, h⟩ := h
    cases h
    have := write_size v _ r hr
    have := startItem_length 6 n
    simp only [List.length_append, Value.size]
    omega
  | unsigned n => cases h; exact startItem_length _ _
  | negative i => cases h; exact startItem_length _ _
  | bytes b => cases h; have := startItem_length 2 b.length; simp only [List.length_append, Value.size]; omega
  | text b => cases h; have := startItem_length 3 b.length; simp only [List.length_append, Value.size]; omega
  | simple => cases h; exact startItem_length _ _
theorem writeList_size (l : List Value) (d : Depth) (bs : Bytes) (h : Value.writeList l d = .ok bs) : bs.length ≤ Value.sizeList l := by
  match l, h with
  | [], h => cases h; simp
  | x :: xs, h =>
    simp only [Value.writeList, bind_ok] at h
    obtain ⟨a, ha, b, hb, h⟩ := h
    cases h
    have := write_size x d a ha
    have := writeList_size xs d b hb
    simp only [List.length_append, Value.sizeList]
    omega
theorem writeMap_size (l : List (Value × Value)) (d : Depth) (bs : Bytes) (h : Value.writeMap l d = .ok bs) :
    bs.length ≤ Value.sizeMap l := by
  match l, h with
  | [], h => cases h; simp
  | (k, x) :: xs, h =>
    simp only [Value.writeMap, bind_ok] at h
    obtain ⟨a, ha, b, hb, c, hc, h⟩ := h
    cases h
    have := write_size k d a ha
    have := write_size x d b hb
    have := writeMap_size xs d c hc
    simp only [List.length_append, Value.sizeMap]
    omega
end

theorem sizeMap_perm {l m : List (Value × Value)} (h : l.Perm m) : Value.sizeMap l = Value.sizeMap m := by
  induction h with
  | nil => rfl
  | cons x _ ih => obtain ⟨k, v⟩ := x; simp only [Value.sizeMap, ih]
  | swap x y l => obtain ⟨k, v⟩ := x; obtain ⟨k', v'⟩ := y; simp only [Value.sizeMap]; omega
  | trans _ _ h1 h2 => exact h1.trans h2

end Verif.Cbor
