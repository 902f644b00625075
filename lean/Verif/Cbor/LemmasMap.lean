import Verif.Cbor.LemmasDec

/-! Lemmas on sorting map entries and on map destructuring. -/
namespace Verif.Cbor

/-- The canonical encoding is injective on well-formed values. -/
theorem enc_inj {w : Nat} (hw : w ≤ 64) {v v' : Value} (hv : v.WF w) (hv' : v'.WF w)
    (h : v.enc = v'.enc) : v = v' := by
  have h1 := decodeItem_enc hw v (max v.depth v'.depth + 1) none [] hv trivial (by omega)
  have h2 := decodeItem_enc hw v' (max v.depth v'.depth + 1) none [] hv' trivial (by omega)
  rw [h, h2] at h1
  simp at h1
  exact h1.symm

theorem cmp_eq_iff {w : Nat} (hw : w ≤ 64) {v v' : Value} (hv : v.WF w) (hv' : v'.WF w) :
    v.cmp v' = .eq ↔ v = v' := by
  rw [cmp_eq_cmpBytes hw hv hv', cmpBytes_eq_iff]
  exact ⟨enc_inj hw hv hv', fun h => h ▸ rfl⟩

theorem cmp_lt_iff {w : Nat} (hw : w ≤ 64) {v v' : Value} (hv : v.WF w) (hv' : v'.WF w) :
    v.cmp v' = .lt ↔ LexLt v.enc v'.enc := by
  rw [cmp_eq_cmpBytes hw hv hv', cmpBytes_lt_iff]

theorem cmp_gt_iff {w : Nat} (hw : w ≤ 64) {v v' : Value} (hv : v.WF w) (hv' : v'.WF w) :
    v.cmp v' = .gt ↔ LexLt v'.enc v.enc := by
  rw [cmp_eq_cmpBytes hw hv hv', ← cmpBytes_lt_iff, ← cmpBytes_swap v.enc v'.enc]
  cases cmpBytes v.enc v'.enc <;> simp [Ordering.swap]

theorem WFMap_iff {w : Nat} {m : List (Value × Value)} :
    Value.WFMap w m ↔ ∀ e ∈ m, e.1.WF w ∧ e.2.WF w := by
  induction m with
  | nil => simp [Value.WFMap]
  | cons e m ih => obtain ⟨k, v⟩ := e; simp [Value.WFMap, ih, and_assoc]

theorem WFList_iff {w : Nat} {l : List Value} : Value.WFList w l ↔ ∀ e ∈ l, e.WF w := by
  induction l with
  | nil => simp [Value.WFList]
  | cons e m ih => simp [Value.WFList, ih]

/-- Sorted, duplicates allowed. -/
def SortedLe (m : List (Value × Value)) : Prop := m.Pairwise (fun a b => ¬ LexLt b.1.enc a.1.enc)

theorem insertEntry_perm (e : Value × Value) (m : List (Value × Value)) : (insertEntry e m).Perm (e :: m) := by
  induction m with
  | nil => exact List.Perm.refl _
  | cons x xs ih =>
    rw [insertEntry]
    split
    · exact List.Perm.refl _
    · exact (List.Perm.cons x ih).trans (List.Perm.swap e x xs)

theorem not_lexLt_trans {a b c : Bytes} (h1 : ¬ LexLt b a) (h2 : ¬ LexLt c b) : ¬ LexLt c a := by
  intro h
  rcases LexLt.total a b with h' | h' | h'
  · exact h2 (h.trans h')
  · subst h'; exact h2 h
  · exact h1 h'

theorem insertEntry_sorted {w : Nat} (hw : w ≤ 64) {e : Value × Value} {m : List (Value × Value)}
    (he : e.1.WF w) (hm : ∀ x ∈ m, x.1.WF w) (hs : SortedLe m) : SortedLe (insertEntry e m) := by
  induction m with
  | nil => simp [insertEntry, SortedLe]
  | cons x xs ih =>
    have hx := hm x (by simp)
    unfold SortedLe at hs
    rw [List.pairwise_cons] at hs
    rw [insertEntry]
    split
    · next h =>
      have h : LexLt e.1.enc x.1.enc := by
        rw [beq_iff_eq, cmp_gt_iff hw hx he] at h; exact h
      unfold SortedLe
      rw [List.pairwise_cons, List.pairwise_cons]
      refine ⟨?_, hs.1, hs.2⟩
      intro y hy
      simp at hy
      rcases hy with rfl | hy
      · exact fun h' => LexLt.irrefl _ (h.trans h')
      · exact not_lexLt_trans (fun h' => LexLt.irrefl _ (h.trans h')) (hs.1 y hy)
    · next h =>
      have h : ¬ LexLt e.1.enc x.1.enc := by
        rw [beq_iff_eq, cmp_gt_iff hw hx he] at h; exact h
      unfold SortedLe
      rw [List.pairwise_cons]
      refine ⟨?_, ih (fun x hx => hm x (by simp [hx])) hs.2⟩
      intro y hy
      rw [(insertEntry_perm e xs).mem_iff] at hy
      simp at hy
      rcases hy with rfl | hy
      · exact h
      · exact hs.1 y hy

theorem sortEntries_aux {w : Nat} (hw : w ≤ 64) (m : List (Value × Value)) : ∀ acc : List (Value × Value),
    (∀ x ∈ m, x.1.WF w) → (∀ x ∈ acc, x.1.WF w) → SortedLe acc →
    SortedLe (m.foldl (fun acc e => insertEntry e acc) acc)
      ∧ (m.foldl (fun acc e => insertEntry e acc) acc).Perm (m ++ acc) := by
  induction m with
  | nil => intro acc _ _ h; exact ⟨h, List.Perm.refl _⟩
  | cons e m ih =>
    intro acc hm ha hs
    have he := hm e (by simp)
    obtain ⟨i1, i2⟩ := ih (insertEntry e acc) (fun x hx => hm x (by simp [hx]))
      (fun x hx => by
        rw [(insertEntry_perm e acc).mem_iff] at hx; simp at hx
        rcases hx with rfl | hx
        · exact he
        · exact ha x hx)
      (insertEntry_sorted hw he ha hs)
    refine ⟨i1, i2.trans ?_⟩
    refine (List.Perm.append_left m (insertEntry_perm e acc)).trans ?_
    simp

theorem hasDup_false {w : Nat} (hw : w ≤ 64) {m : List (Value × Value)} (hm : ∀ x ∈ m, x.1.WF w)
    (hs : SortedLe m) : hasDup m = false ↔ m.Pairwise (fun a b => LexLt a.1.enc b.1.enc) := by
  match m, hm, hs with
  | [], _, _ => simp [hasDup]
  | [a], _, _ => simp [hasDup]
  | a :: b :: t, hm, hs =>
    unfold SortedLe at hs
    rw [List.pairwise_cons] at hs
    have ha := hm a (by simp)
    have hb := hm b (by simp)
    have ih := hasDup_false hw (m := b :: t) (fun x hx => hm x (List.mem_cons_of_mem _ hx)) hs.2
    rw [hasDup, List.pairwise_cons, ← ih]
    have hab := hs.1 b (by simp)
    simp only [Bool.or_eq_false_iff, beq_eq_false_iff_ne, ne_eq, cmp_eq_iff hw ha hb]
    constructor
    · rintro ⟨h1, h2⟩
      refine ⟨?_, h2⟩
      have hlt : LexLt a.1.enc b.1.enc := by
        rcases LexLt.total a.1.enc b.1.enc with h | h | h
        · exact h
        · exact absurd (enc_inj hw ha hb h) h1
        · exact absurd h hab
      intro y hy
      simp at hy
      rcases hy with rfl | hy
      · exact hlt
      · have := (List.pairwise_cons.1 (ih.1 h2)).1 y hy
        exact hlt.trans this
    · rintro ⟨h1, h2⟩
      refine ⟨?_, h2⟩
      intro h
      have := h1 b (by simp)
      rw [h] at this
      exact LexLt.irrefl _ this

/-! ### Destructuring -/

theorem peekValue_spec {w : Nat} (hw : w ≤ 64) {needle : Value} (hn : needle.WF w) :
    ∀ (m : List (Value × Value)), (∀ x ∈ m, x.1.WF w) → m.Pairwise (fun a b => LexLt a.1.enc b.1.enc) →
      (∀ v, (peekValue needle m).1 = some v ↔ (needle, v) ∈ m)
      ∧ (∀ e, LexLt needle.enc e.1.enc → (e ∈ (peekValue needle m).2 ↔ e ∈ m))
      ∧ (peekValue needle m).2.Sublist m := by
  intro m
  induction m with
  | nil => intro _ _; simp [peekValue]
  | cons x xs ih =>
    obtain ⟨k, u⟩ := x
    intro hm hs
    rw [List.pairwise_cons] at hs
    have hk := hm (k, u) (by simp)
    have hxs : ∀ x ∈ xs, x.1.WF w := fun x hx => hm x (by simp [hx])
    obtain ⟨i1, i2, i3⟩ := ih hxs hs.2
    rw [peekValue]
    split
    · next h =>
      rw [cmp_lt_iff hw hk hn] at h
      have hne : needle ≠ k := fun e => LexLt.irrefl _ (e ▸ h)
      refine ⟨?_, ?_, i3.trans (List.sublist_cons_self _ _)⟩
      · intro v; rw [i1 v]; simp [hne]
      · intro e he
        rw [i2 e he]
        simp only [List.mem_cons]
        refine ⟨Or.inr, ?_⟩
        rintro (rfl | h')
        · exact absurd (h.trans he) (LexLt.irrefl _)
        · exact h'
    · next h =>
      rw [cmp_eq_iff hw hk hn] at h
      subst h
      refine ⟨?_, ?_, List.sublist_cons_self _ _⟩
      · intro v
        simp only [Option.some.injEq, List.mem_cons, Prod.mk.injEq, true_and]
        refine ⟨fun h => Or.inl h.symm, ?_⟩
        rintro (h | h)
        · exact h.symm
        · exact absurd (hs.1 _ h) (LexLt.irrefl _)
      · intro e he
        simp only [List.mem_cons]
        refine ⟨Or.inr, ?_⟩
        rintro (rfl | h')
        · exact absurd he (LexLt.irrefl _)
        · exact h'
    · next h =>
      rw [cmp_gt_iff hw hk hn] at h
      refine ⟨?_, fun _ _ => Iff.rfl, List.Sublist.refl _⟩
      intro v
      simp only [reduceCtorEq, false_iff, List.mem_cons, not_or, Prod.mk.injEq, not_and]
      refine ⟨fun e => absurd h (e ▸ LexLt.irrefl _), ?_⟩
      intro hmem
      exact absurd (h.trans (hs.1 _ hmem)) (LexLt.irrefl _)

theorem destructure_spec_aux {w : Nat} (hw : w ≤ 64) : ∀ (ks : List Value) (m : List (Value × Value)),
    (∀ k ∈ ks, k.WF w) → ks.Pairwise (fun a b => LexLt a.enc b.enc) →
    (∀ x ∈ m, x.1.WF w) → m.Pairwise (fun a b => LexLt a.1.enc b.1.enc) →
    (destructure ks m).length = ks.length ∧
    ∀ i (hi : i < ks.length) v, (destructure ks m)[i]? = some (some v) ↔ (ks[i], v) ∈ m := by
  intro ks
  induction ks with
  | nil => intros; simp [destructure]
  | cons k ks ih =>
    intro m hk hks hm hs
    rw [List.pairwise_cons] at hks
    obtain ⟨p1, p2, p3⟩ := peekValue_spec hw (hk k (by simp)) m hm hs
    obtain ⟨i1, i2⟩ := ih (peekValue k m).2 (fun k h => hk k (by simp [h])) hks.2
      (fun x hx => hm x (p3.mem hx)) (hs.sublist p3)
    refine ⟨by simp [destructure, i1], ?_⟩
    intro i hi v
    cases i with
    | zero => simp [destructure]; exact p1 v
    | succ i =>
      simp only [destructure, List.getElem?_cons_succ, List.getElem_cons_succ]
      rw [i2 i (by simpa using hi) v]
      exact p2 _ (hks.1 _ (List.getElem_mem _))

end Verif.Cbor
