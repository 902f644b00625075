import Verif.Store.SpecConcat
import Verif.Store.Iter

/-!
# Lemmas about concatenated entries
-/
namespace Verif.Store

variable {F : Format}

/-! ## The loop -/

theorem concatFindAt_end (pre : Bytes) (i : UInt8) (fuel : Nat) : concatFindAt pre i (fuel + 1) pre.length = .ok none := by
  rw [concatFindAt, if_neg (Nat.lt_irrefl _)]

theorem concatFindAt_one (pre : Bytes) (x i : UInt8) (fuel : Nat) :
    concatFindAt (pre ++ [x]) i (fuel + 1) pre.length = .error .invalidStorage := by
  rw [concatFindAt, if_pos (by simp), if_pos (by simp)]

theorem concatFindAt_cons (pre r : Bytes) (x n i : UInt8) (fuel : Nat) :
    concatFindAt (pre ++ x :: n :: r) i (fuel + 1) pre.length =
      if r.length < n.toNat then .error .invalidStorage
      else if i = x then .ok (some (pre.length + 2, pre.length + 2 + n.toNat))
      else concatFindAt (pre ++ x :: n :: r) i fuel (pre.length + 2 + n.toNat) := by
  rw [concatFindAt, if_pos (by simp), if_neg (by simp)]
  have h1 : (pre ++ x :: n :: r)[pre.length + 1]? = some n := by
    rw [List.getElem?_append_right (by omega)]; simp
  have h2 : (pre ++ x :: n :: r)[pre.length]? = some x := by
    rw [List.getElem?_append_right (by omega)]; simp
  rw [h1, h2]
  simp only [List.length_append, List.length_cons]
  by_cases h : r.length < n.toNat
  · rw [if_pos h, if_pos (by omega)]
  · rw [if_neg h, if_neg (by omega)]

theorem toNat_ofNat_le {n : Nat} (h : n ≤ 255) : (UInt8.ofNat n).toNat = n := by
  rw [UInt8.toNat_ofNat']; omega

/-- Skipping the values with other indices. -/
theorem concatFindAt_skip {l : List (UInt8 × Bytes)} {i : UInt8} : ∀ {pre rest : Bytes} {fuel : Nat}, Fits l → i ∉ l.map Prod.fst →
    (pre ++ pack l ++ rest).length < fuel + pre.length →
    ∃ fuel', rest.length < fuel' ∧
      concatFindAt (pre ++ pack l ++ rest) i fuel pre.length = concatFindAt (pre ++ pack l ++ rest) i fuel' (pre ++ pack l).length := by
  induction l with
  | nil => intro pre rest fuel _ _ h; exact ⟨fuel, by simp [pack] at h; omega, by simp [pack]⟩
  | cons p l ih =>
    obtain ⟨x, v⟩ := p
    intro pre rest fuel hf hi h
    have hv : (UInt8.ofNat v.length).toNat = v.length := toNat_ofNat_le (hf (x, v) (List.mem_cons_self ..))
    obtain ⟨fuel, rfl⟩ : ∃ f, fuel = f + 1 := ⟨fuel - 1, by simp [pack] at h; omega⟩
    simp only [List.map_cons, List.mem_cons, not_or] at hi
    have e1 : pre ++ pack ((x, v) :: l) ++ rest = pre ++ x :: UInt8.ofNat v.length :: (v ++ pack l ++ rest) := by simp [pack]
    have e2 : pre ++ pack ((x, v) :: l) ++ rest = (pre ++ x :: UInt8.ofNat v.length :: v) ++ pack l ++ rest := by simp [pack]
    have e3 : pre ++ pack ((x, v) :: l) = (pre ++ x :: UInt8.ofNat v.length :: v) ++ pack l := by simp [pack]
    obtain ⟨f, h1, h2⟩ := ih (pre := pre ++ x :: UInt8.ofNat v.length :: v) (rest := rest) (fuel := fuel)
      (fun p hp => hf p (List.mem_cons_of_mem _ hp)) hi.2 (by rw [← e2]; simp [pack] at h ⊢; omega)
    refine ⟨f, h1, ?_⟩
    rw [e1, concatFindAt_cons, hv, if_neg (by simp), if_neg hi.1, ← e1, e2, e3, ← h2]
    congr 1
    simp; omega

theorem concatFind_absent {l : List (UInt8 × Bytes)} {i : UInt8} (hf : Fits l) (hi : i ∉ l.map Prod.fst) :
    concatFind (pack l) i = .ok none := by
  obtain ⟨f, h1, h2⟩ := concatFindAt_skip (pre := []) (rest := []) (fuel := (pack l).length + 1) hf hi (by simp)
  simp only [List.nil_append, List.append_nil, List.length_nil] at h1 h2
  obtain ⟨f, rfl⟩ : ∃ g, f = g + 1 := ⟨f - 1, by omega⟩
  rw [concatFind, h2, concatFindAt_end]

theorem concatFind_present {l : List (UInt8 × Bytes)} {i : UInt8} {v rest : Bytes} (hf : Fits l) (hi : i ∉ l.map Prod.fst)
    (hv : v.length ≤ 255) :
    concatFind (pack l ++ i :: UInt8.ofNat v.length :: (v ++ rest)) i = .ok (some ((pack l).length + 2, (pack l).length + 2 + v.length)) := by
  obtain ⟨f, h1, h2⟩ := concatFindAt_skip (pre := []) (rest := i :: UInt8.ofNat v.length :: (v ++ rest))
    (fuel := (pack l ++ i :: UInt8.ofNat v.length :: (v ++ rest)).length + 1) hf hi (by simp)
  simp only [List.nil_append, List.length_nil] at h1 h2
  obtain ⟨f, rfl⟩ : ∃ g, f = g + 1 := ⟨f - 1, by omega⟩
  rw [concatFind, h2, concatFindAt_cons, toNat_ofNat_le hv, if_neg (by simp), if_pos rfl]

/-- Every content: the loop gives nothing if the whole content is a concatenation without the index, it gives the first value
with the index, and otherwise the content is invalid. -/
theorem concatFindAt_any {i : UInt8} : ∀ {fuel : Nat} {pre rest : Bytes}, rest.length < fuel →
    (∃ l, Fits l ∧ i ∉ l.map Prod.fst ∧ rest = pack l ∧ concatFindAt (pre ++ rest) i fuel pre.length = .ok none) ∨
    (∃ l v post, Fits l ∧ i ∉ l.map Prod.fst ∧ v.length ≤ 255 ∧ rest = pack l ++ i :: UInt8.ofNat v.length :: (v ++ post) ∧
      concatFindAt (pre ++ rest) i fuel pre.length =
        .ok (some ((pre ++ pack l).length + 2, (pre ++ pack l).length + 2 + v.length))) ∨
    ((¬ ∃ l, Fits l ∧ rest = pack l) ∧ concatFindAt (pre ++ rest) i fuel pre.length = .error .invalidStorage) := by
  intro fuel
  induction fuel with
  | zero => intro pre rest h; omega
  | succ fuel ih =>
    intro pre rest h
    match rest, h with
    | [], _ => exact .inl ⟨[], (by intro p hp; cases hp), (by simp), rfl, by rw [List.append_nil, concatFindAt_end]⟩
    | [x], _ =>
      refine .inr (.inr ⟨?_, concatFindAt_one ..⟩)
      rintro ⟨l, _, h⟩
      cases l with
      | nil => cases h
      | cons p l => simp [pack] at h
    | x :: n :: r, h =>
      rw [concatFindAt_cons]
      have hn : n.toNat ≤ 255 := by have := n.toNat_lt; omega
      by_cases hr : r.length < n.toNat
      · refine .inr (.inr ⟨?_, by rw [if_pos hr]⟩)
        rintro ⟨l, hf, h⟩
        cases l with
        | nil => cases h
        | cons p l =>
          simp only [pack, List.cons.injEq] at h
          have := toNat_ofNat_le (hf p (List.mem_cons_self ..))
          rw [← h.2.1] at this
          rw [h.2.2] at hr
          simp at hr
          omega
      · have hl : (r.take n.toNat).length = n.toNat := by rw [List.length_take]; omega
        have hb : n = UInt8.ofNat (r.take n.toNat).length := by rw [hl]; exact UInt8.ofNat_toNat.symm
        by_cases hi : i = x
        · refine .inr (.inl ⟨[], r.take n.toNat, r.drop n.toNat, (by intro p hp; cases hp), (by simp), by omega, ?_, ?_⟩)
          · rw [← hb, List.take_append_drop, hi]; rfl
          · rw [if_neg hr, if_pos hi, hl]; simp [pack]
        · rw [if_neg hr, if_neg hi]
          have e1 : pre ++ x :: n :: r = (pre ++ x :: n :: r.take n.toNat) ++ r.drop n.toNat := by simp
          have e2 : pre.length + 2 + n.toNat = (pre ++ x :: n :: r.take n.toNat).length := by simp; omega
          have ep : ∀ l, pack ((x, r.take n.toNat) :: l) = x :: n :: (r.take n.toNat ++ pack l) := by
            intro l; rw [pack, ← hb]
          have hfit : ∀ l, Fits l → Fits ((x, r.take n.toNat) :: l) := by
            intro l hf p hp
            rcases List.mem_cons.1 hp with rfl | hp
            · show (r.take n.toNat).length ≤ 255; omega
            · exact hf p hp
          rw [e1, e2]
          rcases ih (pre := pre ++ x :: n :: r.take n.toNat) (rest := r.drop n.toNat) (by simp at h ⊢; omega) with
            ⟨l, hf, hl', hr', h1⟩ | ⟨l, v, post, hf, hl', hv, hr', h1⟩ | ⟨h1, h2⟩
          · refine .inl ⟨(x, r.take n.toNat) :: l, hfit l hf, by simp [hi, hl'], ?_, h1⟩
            rw [ep, ← hr', List.take_append_drop]
          · refine .inr (.inl ⟨(x, r.take n.toNat) :: l, v, post, hfit l hf, by simp [hi, hl'], hv, ?_, ?_⟩)
            · rw [ep]; simp only [List.cons_append, List.append_assoc]; rw [← hr', List.take_append_drop]
            · rw [h1, ep]; simp
          · refine .inr (.inr ⟨?_, h2⟩)
            rintro ⟨l, hf, h3⟩
            cases l with
            | nil => cases h3
            | cons p l =>
              simp only [pack, List.cons.injEq] at h3
              have h4 := toNat_ofNat_le (hf p (List.mem_cons_self ..))
              rw [← h3.2.1] at h4
              refine h1 ⟨l, fun q hq => hf q (List.mem_cons_of_mem _ hq), ?_⟩
              rw [h3.2.2, h4, List.drop_left]

/-! ## The slices -/

theorem sliceOf_mid (P v rest : Bytes) : sliceOf (P ++ (v ++ rest)) (P.length, P.length + v.length) = .ok v := by
  rw [sliceOf, if_pos (by simp)]
  simp only [List.drop_left, Nat.add_sub_cancel_left, List.take_left]

theorem copySlice_mid (P w rest v : Bytes) (h : w.length = v.length) :
    copySlice (P ++ (w ++ rest)) (P.length, P.length + v.length) v = .ok (P ++ (v ++ rest)) := by
  rw [copySlice, if_pos (by simp [h])]
  have : List.drop (P.length + v.length) (P ++ (w ++ rest)) = rest := by
    rw [← h, ← List.drop_drop, List.drop_left, List.drop_left]
  simp only [List.take_left, this, List.append_assoc]

theorem concatResize_mid (P v rest : Bytes) (n : Nat) :
    ∃ w, w.length = n ∧ concatResize (P ++ (v ++ rest)) (P.length, P.length + v.length) n = .ok (P ++ (w ++ rest), P.length + n) := by
  simp only [concatResize, Nat.add_sub_cancel_left]
  by_cases h1 : v.length < n
  · refine ⟨v ++ List.replicate (n - v.length) 0, by simp; omega, ?_⟩
    have e1 : P ++ (v ++ rest) ++ List.replicate (n - v.length) 0 = (P ++ v) ++ (rest ++ List.replicate (n - v.length) 0) := by simp
    have e2 : P.length + v.length = (P ++ v).length := by simp
    rw [if_pos h1, e1, e2, rotateRightFrom, if_pos (by simp; omega)]
    have e3 : ((P ++ v) ++ (rest ++ List.replicate (n - v.length) (0 : UInt8))).length - (P ++ v).length - (n - v.length) = rest.length := by
      simp only [List.length_append, List.length_replicate]; omega
    rw [e3]
    simp only [List.drop_left, List.take_left]
    show Except.ok _ = _
    rw [← e2, show P.length + v.length + (n - v.length) = P.length + n by omega]
    simp
  · rw [if_neg h1]
    by_cases h2 : v.length = n
    · exact ⟨v, h2, by rw [if_pos h2, h2]⟩
    · refine ⟨v.take n, by rw [List.length_take]; omega, ?_⟩
      have hn : (v.take n).length = n := by rw [List.length_take]; omega
      have e1 : P ++ (v ++ rest) = (P ++ v.take n) ++ ((v.drop n) ++ rest) := by
        rw [List.append_assoc, ← List.append_assoc (v.take n), List.take_append_drop]
      have e2 : P.length + v.length - (v.length - n) = (P ++ v.take n).length := by simp only [List.length_append, hn]; omega
      have e3 : v.length - n = (v.drop n).length := by simp
      rw [if_neg h2, e2, e1, e3, rotateLeftFrom, if_pos (by simp; omega)]
      simp only [List.drop_left, List.take_left]
      show Except.ok _ = _
      have e4 : (P ++ v.take n ++ (rest ++ v.drop n)).length - (v.drop n).length = (P ++ v.take n ++ rest).length := by
        simp only [List.length_append]; omega
      rw [e4, ← List.append_assoc (P ++ v.take n), List.take_left, List.append_assoc, List.length_append, hn]

theorem set_mid (A : Bytes) (i n m : UInt8) (r : Bytes) : (A ++ i :: n :: r).set (A.length + 1) m = A ++ i :: m :: r := by
  rw [List.set_append_right _ _ (by omega), Nat.add_sub_cancel_left]
  rfl

theorem concatPut_mid (A : Bytes) (i n : UInt8) (v rest v' : Bytes) :
    concatPut (A ++ i :: n :: (v ++ rest)) i v' (some (A.length + 2, A.length + 2 + v.length)) =
      .ok (A ++ i :: UInt8.ofNat v'.length :: (v' ++ rest)) := by
  obtain ⟨w, hw, h1⟩ := concatResize_mid (A ++ [i, UInt8.ofNat v'.length]) v rest v'.length
  have hP : (A ++ [i, UInt8.ofNat v'.length]).length = A.length + 2 := by simp
  have h2 := copySlice_mid (A ++ [i, UInt8.ofNat v'.length]) w rest v' hw
  rw [hP] at h1 h2
  simp only [List.append_assoc, List.cons_append, List.nil_append] at h1 h2
  simp only [concatPut]
  rw [setByte, if_pos (by simp), show A.length + 2 - 1 = A.length + 1 by omega, set_mid]
  show (Except.bind (concatResize _ _ _) _ : Except Err Bytes) = _
  rw [h1]
  exact h2

theorem concatDrop_mid (A : Bytes) (i n : UInt8) (v rest : Bytes) :
    concatDrop (A ++ i :: n :: (v ++ rest)) (A.length + 2, A.length + 2 + v.length) = .ok (A ++ rest) := by
  have e1 : A ++ i :: n :: (v ++ rest) = A ++ ((i :: n :: v) ++ rest) := by simp
  have e2 : A.length + 2 + v.length - A.length = (i :: n :: v).length := by simp; omega
  simp only [concatDrop, Nat.add_sub_cancel]
  rw [e1, e2, rotateLeftFrom, if_pos (by simp)]
  simp only [List.drop_left, List.take_left]
  show Except.ok _ = _
  have e3 : (A ++ (rest ++ i :: n :: v)).length - (i :: n :: v).length = (A ++ rest).length := by
    simp only [List.length_append]; omega
  rw [e3, ← List.append_assoc, List.take_left]

/-! ## The list of values -/

theorem pack_append (l l' : List (UInt8 × Bytes)) : pack (l ++ l') = pack l ++ pack l' := by
  induction l with
  | nil => rfl
  | cons p l ih => obtain ⟨i, v⟩ := p; simp [pack, ih]

/-- An index is in the list once, or not at all. -/
theorem split_index {l : List (UInt8 × Bytes)} (hn : (l.map Prod.fst).Nodup) (i : UInt8) :
    i ∉ l.map Prod.fst ∨ ∃ l1 v l2, l = l1 ++ (i, v) :: l2 ∧ i ∉ l1.map Prod.fst ∧ i ∉ l2.map Prod.fst := by
  by_cases h : i ∈ l.map Prod.fst
  · obtain ⟨⟨_, v⟩, h1, rfl⟩ := List.mem_map.1 h
    obtain ⟨l1, l2, rfl⟩ := List.append_of_mem h1
    refine .inr ⟨l1, v, l2, rfl, ?_⟩
    simp only [List.map_append, List.map_cons, List.nodup_append, List.nodup_cons] at hn
    exact ⟨fun h2 => hn.2.2 _ h2 _ (List.mem_cons_self ..) rfl, hn.2.1.1⟩
  · exact .inl h

theorem Fits.left {l l' : List (UInt8 × Bytes)} (h : Fits (l ++ l')) : Fits l := fun p hp => h p (List.mem_append_left _ hp)

theorem lookup_mem {f : IMap} {l : List (UInt8 × Bytes)} (h : ∀ i v, f i = some v ↔ (i, v) ∈ l) {i : UInt8} (hi : i ∉ l.map Prod.fst) :
    f i = none := by
  cases hf : f i with
  | none => rfl
  | some v => exact absurd (List.mem_map.2 ⟨_, (h i v).1 hf, rfl⟩) hi

theorem concatGet_pack {f : IMap} {b : Bytes} (h : Packed f (some b)) (i : UInt8) : concatGet b i = .ok (f i) := by
  obtain ⟨l, rfl, hf, hn, hl⟩ := h
  rcases split_index hn i with hi | ⟨l1, v, l2, rfl, h1, h2⟩
  · rw [concatGet, concatFind_absent hf hi, lookup_mem hl hi]; rfl
  · have hv : v.length ≤ 255 := hf (i, v) (by simp)
    have e : pack (l1 ++ (i, v) :: l2) = pack l1 ++ i :: UInt8.ofNat v.length :: (v ++ pack l2) := by rw [pack_append]; rfl
    rw [e, concatGet, concatFind_present hf.left h1 hv]
    have h3 := sliceOf_mid (pack l1 ++ [i, UInt8.ofNat v.length]) v (pack l2)
    have e2 : (pack l1 ++ [i, UInt8.ofNat v.length]).length = (pack l1).length + 2 := by simp
    rw [e2] at h3
    simp only [List.append_assoc, List.cons_append, List.nil_append] at h3
    show (Except.bind (sliceOf _ _) _ : Except Err (Option Bytes)) = _
    rw [h3, (hl i v).2 (by simp)]
    rfl

theorem put_mem {f : IMap} {l l' : List (UInt8 × Bytes)} {i : UInt8} {o : Option Bytes} (h : ∀ i v, f i = some v ↔ (i, v) ∈ l)
    (h1 : ∀ j v, j ≠ i → ((j, v) ∈ l' ↔ (j, v) ∈ l)) (h2 : ∀ v, (i, v) ∈ l' ↔ o = some v) :
    ∀ j v, f.put i o j = some v ↔ (j, v) ∈ l' := by
  intro j v
  unfold IMap.put
  by_cases hj : j = i
  · subst hj; rw [if_pos rfl, h2]
  · rw [if_neg hj, h1 j v hj, h]

/-- Writing one of the values. -/
theorem concatPut_pack {f : IMap} {o : Option Bytes} (h : Packed f o) (i : UInt8) {v : Bytes} (hv : v.length ≤ 255) :
    ∃ r b, concatFind (o.getD []) i = .ok r ∧ concatPut (o.getD []) i v r = .ok b ∧ Packed (f.put i (some v)) (some b) := by
  have h' : Packed f (some (o.getD [])) := by
    cases o with
    | some b => exact h
    | none =>
      have h : f = _ := h
      exact ⟨[], rfl, (by intro p hp; cases hp), (by simp), by simp [h]⟩
  obtain ⟨l, hb, hf, hn, hl⟩ := h'
  rw [hb]
  rcases split_index hn i with hi | ⟨l1, v1, l2, rfl, h1, h2⟩
  · refine ⟨none, pack (l ++ [(i, v)]), concatFind_absent hf hi, ?_, l ++ [(i, v)], rfl, ?_, ?_, ?_⟩
    · rw [concatPut, pack_append]; simp [pack]
    · intro p hp
      rcases List.mem_append.1 hp with hp | hp
      · exact hf p hp
      · rw [List.mem_singleton] at hp; subst hp; exact hv
    · rw [List.map_append, List.nodup_append]
      refine ⟨hn, by simp, ?_⟩
      intro a ha b hb hab
      simp at hb
      subst hb; subst hab
      exact hi ha
    · apply put_mem hl
      · intro j w hj
        simp [hj]
      · intro w
        simp only [List.mem_append, List.mem_singleton, Prod.mk.injEq, true_and, Option.some.injEq]
        constructor
        · rintro (h3 | rfl)
          · exact absurd (List.mem_map.2 ⟨_, h3, rfl⟩) hi
          · rfl
        · rintro rfl; exact .inr rfl
  · have hv1 : v1.length ≤ 255 := hf (i, v1) (by simp)
    have e : ∀ w, pack (l1 ++ (i, w) :: l2) = pack l1 ++ i :: UInt8.ofNat w.length :: (w ++ pack l2) := by
      intro w; rw [pack_append]; rfl
    refine ⟨_, pack (l1 ++ (i, v) :: l2), by rw [e]; exact concatFind_present hf.left h1 hv1,
      by rw [e, e]; exact concatPut_mid .., l1 ++ (i, v) :: l2, rfl, ?_, by simpa using hn, ?_⟩
    · intro p hp
      simp only [List.mem_append, List.mem_cons] at hp
      rcases hp with hp | rfl | hp
      · exact hf p (by simp [hp])
      · exact hv
      · exact hf p (by simp [hp])
    · apply put_mem hl
      · intro j w hj; simp [hj]
      · intro w
        simp only [List.mem_append, List.mem_cons, Prod.mk.injEq, true_and, Option.some.injEq]
        constructor
        · rintro (h3 | rfl | h3)
          · exact absurd (List.mem_map.2 ⟨_, h3, rfl⟩) h1
          · rfl
          · exact absurd (List.mem_map.2 ⟨_, h3, rfl⟩) h2
        · rintro rfl; exact .inr (.inl rfl)

/-- Deleting one of the values. -/
theorem concatDrop_pack {f : IMap} {b : Bytes} (h : Packed f (some b)) (i : UInt8) :
    (concatFind b i = .ok none ∧ f.put i none = f) ∨
    ∃ r b', concatFind b i = .ok (some r) ∧ concatDrop b r = .ok b' ∧ Packed (f.put i none) (some b') := by
  obtain ⟨l, rfl, hf, hn, hl⟩ := h
  rcases split_index hn i with hi | ⟨l1, v1, l2, rfl, h1, h2⟩
  · refine .inl ⟨concatFind_absent hf hi, funext fun j => ?_⟩
    unfold IMap.put
    split
    · rename_i hj; rw [hj, lookup_mem hl hi]
    · rfl
  · have hv1 : v1.length ≤ 255 := hf (i, v1) (by simp)
    have e : pack (l1 ++ (i, v1) :: l2) = pack l1 ++ i :: UInt8.ofNat v1.length :: (v1 ++ pack l2) := by rw [pack_append]; rfl
    refine .inr ⟨_, _, by rw [e]; exact concatFind_present hf.left h1 hv1,
      by rw [e]; exact concatDrop_mid .., l1 ++ l2, (pack_append ..).symm, ?_, ?_, ?_⟩
    · intro p hp
      exact hf p (by simp only [List.mem_append, List.mem_cons] at hp ⊢; rcases hp with hp | hp <;> simp [hp])
    · simp only [List.map_append, List.map_cons, List.nodup_append, List.nodup_cons] at hn ⊢
      exact ⟨hn.1, hn.2.1.2, fun a ha b hb => hn.2.2 a ha b (List.mem_cons_of_mem _ hb)⟩
    · apply put_mem hl
      · intro j w hj; simp [hj]
      · intro w
        simp only [List.mem_append, reduceCtorEq, iff_false, not_or]
        exact ⟨fun h3 => h1 (List.mem_map.2 ⟨_, h3, rfl⟩), fun h3 => h2 (List.mem_map.2 ⟨_, h3, rfl⟩)⟩

end Verif.Store
