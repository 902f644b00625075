import Verif.Cbor.Props

/-!
# Values whose encoding is short enough are representable

The lengths in `Value.WF` follow from the length of what is written.
-/
namespace Verif.Cbor

mutual
/-- `Value.WF` without the lengths. -/
def Value.Fit : Value → Prop
  | .unsigned n => n < 2 ^ 64
  | .negative i => -2 ^ 63 ≤ i ∧ i < 0
  | .bytes _ => True
  | .text b => ∃ cs : List Nat, (∀ c ∈ cs, Utf8.IsScalar c) ∧ b = cs.flatMap Utf8.encodeChar
  | .array l => Value.FitList l
  | .map m => Value.FitMap m ∧ m.Pairwise (fun a b => LexLt a.1.enc b.1.enc)
  | .tag n v => n < 2 ^ 64 ∧ v.Fit
  | .simple _ => True
def Value.FitList : List Value → Prop
  | [] => True
  | x :: xs => x.Fit ∧ Value.FitList xs
def Value.FitMap : List (Value × Value) → Prop
  | [] => True
  | (k, v) :: xs => k.Fit ∧ v.Fit ∧ Value.FitMap xs
end

theorem FitMap_iff {m : List (Value × Value)} : Value.FitMap m ↔ ∀ e ∈ m, e.1.Fit ∧ e.2.Fit := by
  induction m with
  | nil => simp [Value.FitMap]
  | cons e m ih => obtain ⟨k, v⟩ := e; simp [Value.FitMap, ih, and_assoc]

theorem FitList_iff {l : List Value} : Value.FitList l ↔ ∀ e ∈ l, e.Fit := by
  induction l with
  | nil => simp [Value.FitList]
  | cons e m ih => simp [Value.FitList, ih]

theorem startItem_pos (m n : Nat) : 0 < (startItem m n).length := by
  unfold startItem
  repeat' split
  all_goals simp

mutual
theorem write_pos (v : Value) (d : Depth) (bs : Bytes) (h : v.write d = .ok bs) : 0 < bs.length := by
  rw [Value.write.eq_def] at h
  split at h
  · simp at h
  cases v with
  | array l =>
    simp only [bind_ok] at h
    obtain ⟨r, hr, h⟩ := h
    cases h
    have := startItem_pos 4 l.length
    simp only [List.length_append]; omega
  | map l =>
    simp only [bind_ok] at h
    obtain ⟨r, hr, h⟩ := h
    cases h
    have := startItem_pos 5 l.length
    simp only [List.length_append]; omega
  | tag n v =>
    simp only [bind_ok] at h
    obtain ⟨r, hr, h⟩ := h
    cases h
    have := startItem_pos 6 n
    simp only [List.length_append]; omega
  | unsigned n => cases h; exact startItem_pos ..
  | negative i => cases h; exact startItem_pos ..
  | bytes b => cases h; have := startItem_pos 2 b.length; simp only [List.length_append]; omega
  | text b => cases h; have := startItem_pos 3 b.length; simp only [List.length_append]; omega
  | simple => cases h; exact startItem_pos ..
end

mutual
theorem wf_of_fit (v : Value) (d : Depth) (bs : Bytes) (h : v.write d = .ok bs) (hl : bs.length < 2 ^ 64) (hf : v.Fit) : v.WF 64 := by
  rw [Value.write.eq_def] at h
  split at h
  · simp at h
  cases v with
  | array l =>
    simp only [bind_ok] at h
    obtain ⟨r, hr, h⟩ := h
    cases h
    simp only [List.length_append] at hl
    obtain ⟨h1, h2⟩ := wfList_of_fit l _ r hr (by omega) (by simpa only [Value.Fit] using hf)
    simp only [Value.WF]
    exact ⟨by omega, h2⟩
  | map l =>
    simp only [bind_ok] at h
    obtain ⟨r, hr, h⟩ := h
    cases h
    simp only [List.length_append] at hl
    simp only [Value.Fit] at hf
    obtain ⟨h1, h2⟩ := wfMap_of_fit l _ r hr (by omega) hf.1
    simp only [Value.WF]
    exact ⟨by omega, h2, hf.2⟩
  | tag n v =>
    simp only [bind_ok] at h
    obtain ⟨r, hr, h⟩ := h
    cases h
    simp only [List.length_append] at hl
    simp only [Value.Fit] at hf
    simp only [Value.WF]
    exact ⟨hf.1, wf_of_fit v _ r hr (by omega) hf.2⟩
  | unsigned n => simpa only [Value.Fit, Value.WF] using hf
  | negative i => simpa only [Value.Fit, Value.WF] using hf
  | bytes b => cases h; simp only [List.length_append] at hl; simp only [Value.WF]; omega
  | text b =>
    cases h
    simp only [List.length_append] at hl
    simp only [Value.Fit] at hf
    simp only [Value.WF]
    exact ⟨by omega, hf⟩
  | simple => simp only [Value.WF]
theorem wfList_of_fit (l : List Value) (d : Depth) (bs : Bytes) (h : Value.writeList l d = .ok bs) (hl : bs.length < 2 ^ 64)
    (hf : Value.FitList l) : l.length ≤ bs.length ∧ Value.WFList 64 l := by
  match l, h with
  | [], _ => simp [Value.WFList]
  | x :: xs, h =>
    simp only [Value.writeList, bind_ok] at h
    obtain ⟨a, ha, b, hb, h⟩ := h
    cases h
    simp only [List.length_append] at hl
    simp only [Value.FitList] at hf
    have h1 := wf_of_fit x d a ha (by omega) hf.1
    obtain ⟨h2, h3⟩ := wfList_of_fit xs d b hb (by omega) hf.2
    have h4 := write_pos x d a ha
    simp only [Value.WFList, List.length_append, List.length_cons]
    exact ⟨by omega, h1, h3⟩
theorem wfMap_of_fit (l : List (Value × Value)) (d : Depth) (bs : Bytes) (h : Value.writeMap l d = .ok bs) (hl : bs.length < 2 ^ 64)
    (hf : Value.FitMap l) : l.length ≤ bs.length ∧ Value.WFMap 64 l := by
  match l, h with
  | [], _ => simp [Value.WFMap]
  | (k, x) :: xs, h =>
    simp only [Value.writeMap, bind_ok] at h
    obtain ⟨a, ha, b, hb, c, hc, h⟩ := h
    cases h
    simp only [List.length_append] at hl
    simp only [Value.FitMap] at hf
    have h1 := wf_of_fit k d a ha (by omega) hf.1
    have h2 := wf_of_fit x d b hb (by omega) hf.2.1
    obtain ⟨h3, h4⟩ := wfMap_of_fit xs d c hc (by omega) hf.2.2
    have h5 := write_pos k d a ha
    simp only [Value.WFMap, List.length_append, List.length_cons]
    exact ⟨by omega, h1, h2, h4⟩
end

/-- What is written and not too long is read back. -/
theorem read_write_fit {v : Value} {d : Depth} {bs : Bytes} (h : v.write d = .ok bs) (hl : bs.length < 2 ^ 64) (hf : v.Fit) :
    readNested 64 bs d = .ok v :=
  (C01_read_write (Nat.le_refl _) v d (wf_of_fit v d bs h hl hf)).2 bs h

/-- Maps with representable keys. -/
theorem mkMap_fit {m : List (Value × Value)} {v : Value} (h : mkMap m = some v) (hk : ∀ e ∈ m, e.1.WF 64) (hv : ∀ e ∈ m, e.2.Fit)
    (hf : ∀ e ∈ m, e.1.Fit) : v.Fit ∧ ∃ s, v = .map s ∧ s.Perm m := by
  obtain ⟨h1, h2⟩ := sortEntries_aux (Nat.le_refl 64) m [] (fun x hx => hk x hx) (by simp) List.Pairwise.nil
  have hp : (sortEntries m).Perm m := by simpa [sortEntries] using h2
  have hd := hasDup_false (Nat.le_refl 64) (fun x hx => hk x (hp.mem_iff.1 hx)) h1
  unfold mkMap at h
  split at h
  · cases h
  next hdup =>
  cases h
  refine ⟨?_, _, rfl, hp⟩
  simp only [Value.Fit]
  exact ⟨FitMap_iff.2 fun e he => ⟨hf e (hp.mem_iff.1 he), hv e (hp.mem_iff.1 he)⟩, hd.1 (by simpa using hdup)⟩

end Verif.Cbor
