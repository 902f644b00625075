import Verif.Cbor.LemmasOrd

/-! Writer and reader lemmas. -/
namespace Verif.Cbor

/-! ## Writer -/

theorem Depth.allows_pred {d : Depth} {n : Nat} : d.pred.allows n ↔ d.allows (n + 1) := by
  cases d with
  | none => simp [Depth.pred, Depth.allows]
  | some d => simp [Depth.pred, Depth.allows]; omega

theorem Depth.allows_max {d : Depth} {m n : Nat} : d.allows (max m n) ↔ d.allows m ∧ d.allows n := by
  cases d with
  | none => simp [Depth.allows]
  | some d => simp only [Depth.allows]; omega

theorem Depth.allows_mono {d : Depth} {m n : Nat} (h : d.allows n) (hmn : m ≤ n) : d.allows m := by
  cases d with
  | none => trivial
  | some d => simp only [Depth.allows] at *; omega

theorem Depth.not_exhausted {d : Depth} {n : Nat} (h : d.allows n) : d.exhausted = false := by
  cases d with
  | none => rfl
  | some d => simp only [Depth.allows] at h; simp [Depth.exhausted]; omega

theorem Depth.allows_zero {d : Depth} (h : d.exhausted = false) : d.allows 0 := by
  cases d with
  | none => trivial
  | some d => simp [Depth.exhausted] at h; simp [Depth.allows]; omega

mutual
theorem write_ok {w : Nat} (hw : w ≤ 64) (v : Value) (d : Depth) (hv : v.WF w) (hd : d.allows v.depth) :
    v.write d = .ok v.enc := by
  rw [Value.write.eq_def, Depth.not_exhausted hd]
  have ha := v.arg_lt hw hv
  cases v with
  | unsigned n => simp [Value.enc]; exact startItem_eq_head _ _ ha
  | negative i =>
    simp only [Value.arg] at ha
    simp [Value.enc, show -(i + 1) = -1 - i by omega]; exact startItem_eq_head _ _ ha
  | bytes b => simp [Value.enc]; exact startItem_eq_head _ _ ha
  | text b => simp [Value.enc]; exact startItem_eq_head _ _ ha
  | array l =>
    simp only [Value.WF, Value.depth] at hv hd
    simp only [Bool.false_eq_true, if_false, Value.enc, startItem_eq_head 4 l.length ha]
    rw [writeList_ok hw l d hv.2 hd]; rfl
  | map m =>
    simp only [Value.WF, Value.depth] at hv hd
    simp only [Bool.false_eq_true, if_false, Value.enc, startItem_eq_head 5 m.length ha]
    rw [writeMap_ok hw m d hv.2.1 hd]; rfl
  | tag n v =>
    simp only [Value.WF, Value.depth] at hv hd
    simp only [Bool.false_eq_true, if_false, Value.enc, startItem_eq_head 6 n ha]
    rw [write_ok hw v d.pred hv.2 (Depth.allows_pred.2 hd)]; rfl
  | simple s => simp [Value.enc]; exact startItem_eq_head _ _ ha
theorem writeList_ok {w : Nat} (hw : w ≤ 64) (l : List Value) (d : Depth) (hv : Value.WFList w l)
    (hd : d.allows (Value.depthList l)) : Value.writeList l d.pred = .ok (Value.encList l) := by
  match l, hv, hd with
  | [], _, _ => rfl
  | x :: xs, hv, hd =>
    simp only [Value.WFList, Value.depthList, Depth.allows_max] at hv hd
    rw [Value.writeList, write_ok hw x d.pred hv.1 (Depth.allows_pred.2 hd.1), writeList_ok hw xs d hv.2 hd.2]
    rfl
theorem writeMap_ok {w : Nat} (hw : w ≤ 64) (l : List (Value × Value)) (d : Depth) (hv : Value.WFMap w l)
    (hd : d.allows (Value.depthMap l)) : Value.writeMap l d.pred = .ok (Value.encMap l) := by
  match l, hv, hd with
  | [], _, _ => rfl
  | (k, x) :: xs, hv, hd =>
    simp only [Value.WFMap, Value.depthMap, Depth.allows_max] at hv hd
    rw [Value.writeMap, write_ok hw k d.pred hv.1 (Depth.allows_pred.2 hd.1.1),
      write_ok hw x d.pred hv.2.1 (Depth.allows_pred.2 hd.1.2), writeMap_ok hw xs d hv.2.2 hd.2]
    rfl
end

theorem bind_ok {ε α β} {x : Except ε α} {f : α → Except ε β} {b : β} :
    (x >>= f) = .ok b ↔ ∃ a, x = .ok a ∧ f a = .ok b := by
  cases x <;> simp [bind, Except.bind]

mutual
/-- The writer fails if the nesting limit does not allow the value. -/
theorem write_ok_depth (v : Value) (d : Depth) (bs : Bytes) (h : v.write d = .ok bs) :
    d.allows v.depth := by
  rw [Value.write.eq_def] at h
  split at h
  · simp at h
  next hx =>
  simp only [Bool.not_eq_true] at hx
  cases v with
  | array l =>
    simp only [bind_ok] at h
    obtain ⟨r, hr, _⟩ := h
    exact writeList_ok_depth l d r hx hr
  | map l =>
    simp only [bind_ok] at h
    obtain ⟨r, hr, _⟩ := h
    exact writeMap_ok_depth l d r hx hr
  | tag n v =>
    simp only [bind_ok] at h
    obtain ⟨r, hr, _⟩ := h
    exact Depth.allows_pred.1 (write_ok_depth v d.pred r hr)
  | unsigned => exact Depth.allows_zero hx
  | negative => exact Depth.allows_zero hx
  | bytes => exact Depth.allows_zero hx
  | text => exact Depth.allows_zero hx
  | simple => exact Depth.allows_zero hx
theorem writeList_ok_depth (l : List Value) (d : Depth) (bs : Bytes) (hx : d.exhausted = false)
    (h : Value.writeList l d.pred = .ok bs) : d.allows (Value.depthList l) := by
  match l, h with
  | [], _ => exact Depth.allows_zero hx
  | x :: xs, h =>
    simp only [Value.writeList, bind_ok] at h
    obtain ⟨a, ha, b, hb, _⟩ := h
    simp only [Value.depthList, Depth.allows_max]
    exact ⟨Depth.allows_pred.1 (write_ok_depth x _ _ ha), writeList_ok_depth xs d b hx hb⟩
theorem writeMap_ok_depth (l : List (Value × Value)) (d : Depth) (bs : Bytes) (hx : d.exhausted = false)
    (h : Value.writeMap l d.pred = .ok bs) : d.allows (Value.depthMap l) := by
  match l, h with
  | [], _ => exact Depth.allows_zero hx
  | (k, x) :: xs, h =>
    simp only [Value.writeMap, bind_ok] at h
    obtain ⟨a, ha, b, hb, c, hc, _⟩ := h
    simp only [Value.depthMap, Depth.allows_max]
    exact ⟨⟨Depth.allows_pred.1 (write_ok_depth k _ _ ha), Depth.allows_pred.1 (write_ok_depth x _ _ hb)⟩,
      writeMap_ok_depth xs d c hx hc⟩
end

/-! ## Reader inverts the canonical encoding -/

/-- Entries strictly sorted with respect to the last key. -/
theorem keyNotAfter_false {w : Nat} (hw : w ≤ 64) {l : Option Value} {k : Value}
    (hl : ∀ x, l = some x → x.WF w ∧ LexLt x.enc k.enc) (hk : k.WF w) : keyNotAfter l k = false := by
  cases l with
  | none => rfl
  | some x =>
    obtain ⟨h1, h2⟩ := hl x rfl
    simp only [keyNotAfter, cmp_eq_cmpBytes hw h1 hk, cmpBytes_lt_iff.2 h2]; rfl

theorem Simple.ofNat?_toNat (s : Simple) : Simple.ofNat? s.toNat = some s := by cases s <;> rfl

theorem Simple.toNat_ofNat? {n : Nat} {s : Simple} (h : Simple.ofNat? n = some s) : s.toNat = n := by
  unfold Simple.ofNat? at h
  split at h <;> simp at h <;> subst h <;> rfl

mutual
theorem decodeItem_enc {w : Nat} (hw : w ≤ 64) (v : Value) (fuel : Nat) (d : Depth) (rest : Bytes)
    (hv : v.WF w) (hd : d.allows v.depth) (hf : v.depth < fuel) :
    decodeItem w fuel d (v.enc ++ rest) = .ok (v, rest) := by
  obtain ⟨fuel, rfl⟩ : ∃ f, fuel = f + 1 := ⟨fuel - 1, by omega⟩
  obtain ⟨f, tl, h1, h2, h3, h4⟩ :=
    readVariadic_head v.typeLabel v.arg v.typeLabel_lt (v.arg_lt hw hv) (v.content ++ rest)
  rw [v.enc_eq, List.append_assoc, h1, decodeItem, Depth.not_exhausted hd]
  simp only [Bool.false_eq_true, if_false, h3]
  rw [h2]
  cases v with
  | unsigned n => simp [bind, Except.bind, Value.typeLabel, Value.arg, Value.content]
  | negative i =>
    simp only [Value.WF] at hv
    simp only [bind, Except.bind, Value.typeLabel, Value.arg, Value.content, List.nil_append]
    refine (if_neg ?_).trans ?_
    · change ¬ (-1 - i).toNat ≥ 2 ^ 63; omega
    · simp; omega
  | bytes b =>
    simp only [Value.WF] at hv
    simp only [bind, Except.bind, Value.typeLabel, Value.arg, Value.content, Nat.mod_eq_of_lt hv,
      readBytes_append]
  | text b =>
    simp only [Value.WF] at hv
    simp only [bind, Except.bind, Value.typeLabel, Value.arg, Value.content, Nat.mod_eq_of_lt hv.1,
      readBytes_append, (Utf8.valid_iff b).2 hv.2, if_true]
  | array l =>
    simp only [Value.WF, Value.depth] at hv hd hf
    simp only [bind, Except.bind, Value.typeLabel, Value.arg, Value.content]
    rw [readArrayLoop_enc hw l fuel d rest hv.2 hd (by omega)]
  | map m =>
    simp only [Value.WF, Value.depth] at hv hd hf
    simp only [bind, Except.bind, Value.typeLabel, Value.arg, Value.content]
    rw [readMapLoop_enc hw m fuel d none rest hv.2.1 hv.2.2 (by simp) hd (by omega)]
  | tag n v =>
    simp only [Value.WF, Value.depth] at hv hd hf
    simp only [bind, Except.bind, Value.typeLabel, Value.arg, Value.content]
    rw [decodeItem_enc hw v fuel d.pred rest hv.2 (Depth.allows_pred.2 hd) (by omega)]
  | simple s =>
    have hs := s.toNat_lt
    simp only [Value.arg] at h4
    have h4 := h4 (by omega)
    simp only [bind, Except.bind, Value.typeLabel, Value.arg, Value.content, h4, decodeSimple,
      Simple.ofNat?_toNat]
    rw [if_neg (by omega)]; rfl
theorem readArrayLoop_enc {w : Nat} (hw : w ≤ 64) (l : List Value) (fuel : Nat) (d : Depth) (rest : Bytes)
    (hv : Value.WFList w l) (hd : d.allows (Value.depthList l)) (hf : Value.depthList l ≤ fuel) :
    readArrayLoop (decodeItem w fuel d.pred) l.length (Value.encList l ++ rest) = .ok (l, rest) := by
  match l, hv, hd, hf with
  | [], _, _, _ => rfl
  | x :: xs, hv, hd, hf =>
    simp only [Value.WFList, Value.depthList, Depth.allows_max] at hv hd hf
    simp only [List.length_cons, readArrayLoop, Value.encList, List.append_assoc]
    rw [decodeItem_enc hw x fuel d.pred _ hv.1 (Depth.allows_pred.2 hd.1) (by omega)]
    simp only [bind, Except.bind]
    rw [readArrayLoop_enc hw xs fuel d rest hv.2 hd.2 (by omega)]
theorem readMapLoop_enc {w : Nat} (hw : w ≤ 64) (l : List (Value × Value)) (fuel : Nat) (d : Depth)
    (last : Option Value) (rest : Bytes)
    (hv : Value.WFMap w l) (hs : l.Pairwise (fun a b => LexLt a.1.enc b.1.enc))
    (hl : ∀ x, last = some x → x.WF w ∧ ∀ e ∈ l, LexLt x.enc e.1.enc)
    (hd : d.allows (Value.depthMap l)) (hf : Value.depthMap l ≤ fuel) :
    readMapLoop (decodeItem w fuel d.pred) l.length last (Value.encMap l ++ rest) = .ok (l, rest) := by
  match l, hv, hs, hl, hd, hf with
  | [], _, _, _, _, _ => rfl
  | (k, x) :: xs, hv, hs, hl, hd, hf =>
    simp only [Value.WFMap, Value.depthMap, Depth.allows_max] at hv hd hf
    rw [List.pairwise_cons] at hs
    simp only [List.length_cons, readMapLoop, Value.encMap, List.append_assoc]
    rw [decodeItem_enc hw k fuel d.pred _ hv.1 (Depth.allows_pred.2 hd.1.1) (by omega)]
    simp only [bind, Except.bind]
    rw [keyNotAfter_false hw (fun y hy => ⟨(hl y hy).1, (hl y hy).2 (k, x) (by simp)⟩) hv.1]
    simp only [Bool.false_eq_true, if_false]
    rw [decodeItem_enc hw x fuel d.pred _ hv.2.1 (Depth.allows_pred.2 hd.1.2) (by omega)]
    simp only
    rw [readMapLoop_enc hw xs fuel d (some k) rest hv.2.2 hs.2
      (fun y hy => by cases hy; exact ⟨hv.1, hs.1⟩) hd.2 (by omega)]
end

mutual
theorem depth_lt_enc_length (v : Value) : v.depth < v.enc.length := by
  have hn : ∀ t n, 0 < (head t n).length := fun t n => List.length_pos_iff.2 (head_ne_nil t n)
  cases v with
  | array l =>
    have := depthList_le_enc_length l
    have := hn 4 l.length
    simp only [Value.depth, Value.enc, List.length_append]; omega
  | map l =>
    have := depthMap_le_enc_length l
    have := hn 5 l.length
    simp only [Value.depth, Value.enc, List.length_append]; omega
  | tag n v =>
    have := depth_lt_enc_length v
    have := hn 6 n
    simp only [Value.depth, Value.enc, List.length_append]; omega
  | unsigned n => exact hn 0 _
  | negative i => exact hn 1 _
  | bytes b => have := hn 2 b.length; simp only [Value.depth, Value.enc, List.length_append]; omega
  | text b => have := hn 3 b.length; simp only [Value.depth, Value.enc, List.length_append]; omega
  | simple s => exact hn 7 _
theorem depthList_le_enc_length (l : List Value) : Value.depthList l ≤ (Value.encList l).length := by
  match l with
  | [] => simp [Value.depthList]
  | x :: xs =>
    have := depth_lt_enc_length x
    have := depthList_le_enc_length xs
    simp only [Value.depthList, Value.encList, List.length_append]; omega
theorem depthMap_le_enc_length (l : List (Value × Value)) :
    Value.depthMap l ≤ (Value.encMap l).length := by
  match l with
  | [] => simp [Value.depthMap]
  | (k, x) :: xs =>
    have := depth_lt_enc_length k
    have := depth_lt_enc_length x
    have := depthMap_le_enc_length xs
    simp only [Value.depthMap, Value.encMap, List.length_append]; omega
end

/-! ## Reader accepts canonical encodings only -/

/-- What a successful decoding step guarantees: it consumed a non-empty prefix, which is the canonical
encoding if `usize` has 64 bits. -/
def ItemOk (w : Nat) (d : Depth) (bs : Bytes) (v : Value) (r : Bytes) : Prop :=
  (∃ p, p ≠ [] ∧ bs = p ++ r ∧ (w = 64 → p = v.enc)) ∧ v.WF w ∧ d.allows v.depth

theorem readArrayLoop_ok {w : Nat} {d : Depth} {item : Bytes → Except DecErr (Value × Bytes)}
    (hx : d.exhausted = false)
    (hi : ∀ bs v r, item bs = .ok (v, r) → ItemOk w d.pred bs v r) :
    ∀ n bs l r, readArrayLoop item n bs = .ok (l, r) →
      (∃ p, bs = p ++ r ∧ (w = 64 → p = Value.encList l))
      ∧ l.length = n ∧ Value.WFList w l ∧ d.allows (Value.depthList l) := by
  intro n
  induction n with
  | zero =>
    intro bs l r h
    simp [readArrayLoop] at h
    obtain ⟨rfl, rfl⟩ := h
    exact ⟨⟨[], rfl, fun _ => rfl⟩, rfl, trivial, Depth.allows_zero hx⟩
  | succ n ih =>
    intro bs l r h
    simp only [readArrayLoop, bind_ok] at h
    obtain ⟨⟨x, b1⟩, h1, ⟨xs, b2⟩, h2, h3⟩ := h
    simp at h3
    obtain ⟨rfl, rfl⟩ := h3
    simp only at h2
    obtain ⟨⟨p, _, e1, e1'⟩, e2, e3⟩ := hi _ _ _ h1
    obtain ⟨⟨q, f1, f1'⟩, f2, f3, f4⟩ := ih _ _ _ h2
    refine ⟨⟨p ++ q, ?_, ?_⟩, by simp [f2], ⟨e2, f3⟩, ?_⟩
    · rw [e1, f1]; simp
    · intro hw; rw [e1' hw, f1' hw]; rfl
    · simp only [Value.depthList, Depth.allows_max]
      exact ⟨Depth.allows_pred.1 e3, f4⟩

theorem readMapLoop_ok {w : Nat} (hw : w ≤ 64) {d : Depth} {item : Bytes → Except DecErr (Value × Bytes)}
    (hx : d.exhausted = false)
    (hi : ∀ bs v r, item bs = .ok (v, r) → ItemOk w d.pred bs v r) :
    ∀ n last bs l r, (∀ x, last = some x → x.WF w) → readMapLoop item n last bs = .ok (l, r) →
      (∃ p, bs = p ++ r ∧ (w = 64 → p = Value.encMap l))
      ∧ l.length = n ∧ Value.WFMap w l ∧ d.allows (Value.depthMap l)
      ∧ l.Pairwise (fun a b => LexLt a.1.enc b.1.enc)
      ∧ ∀ x, last = some x → ∀ e ∈ l, LexLt x.enc e.1.enc := by
  intro n
  induction n with
  | zero =>
    intro last bs l r _ h
    simp [readMapLoop] at h
    obtain ⟨rfl, rfl⟩ := h
    exact ⟨⟨[], rfl, fun _ => rfl⟩, rfl, trivial, Depth.allows_zero hx, List.Pairwise.nil, by simp⟩
  | succ n ih =>
    intro last bs l r hlast h
    simp only [readMapLoop, bind_ok] at h
    obtain ⟨⟨k, b1⟩, h1, h⟩ := h
    simp only at h
    split at h
    · simp at h
    next hk =>
    simp only [bind_ok] at h
    obtain ⟨⟨x, b2⟩, h2, ⟨xs, b3⟩, h3, h4⟩ := h
    simp at h4
    obtain ⟨rfl, rfl⟩ := h4
    simp only at h2 h3
    obtain ⟨⟨p, _, e1, e1'⟩, e2, e3⟩ := hi _ _ _ h1
    obtain ⟨⟨q, _, g1, g1'⟩, g2, g3⟩ := hi _ _ _ h2
    obtain ⟨⟨s, f1, f1'⟩, f2, f3, f4, f5, f6⟩ := ih _ _ _ _ (by intro y hy; cases hy; exact e2) h3
    have hlk : ∀ y, last = some y → LexLt y.enc k.enc := by
      intro y hy
      subst hy
      simp [keyNotAfter] at hk
      rw [cmp_eq_cmpBytes hw (hlast y rfl) e2, cmpBytes_lt_iff] at hk
      exact hk
    refine ⟨⟨p ++ q ++ s, ?_, ?_⟩, by simp [f2], ⟨e2, g2, f3⟩, ?_, ?_, ?_⟩
    · rw [e1, g1, f1]; simp
    · intro hw; rw [e1' hw, f1' hw, g1' hw]; rfl
    · simp only [Value.depthMap, Depth.allows_max]
      exact ⟨⟨Depth.allows_pred.1 e3, Depth.allows_pred.1 g3⟩, f4⟩
    · exact List.Pairwise.cons (f6 k rfl) f5
    · intro y hy e he
      simp at he
      rcases he with rfl | he
      · exact hlk y hy
      · exact (hlk y hy).trans (f6 k rfl e he)

theorem decodeItem_ok {w : Nat} (hw : w ≤ 64) :
    ∀ (fuel : Nat) (d : Depth) (bs : Bytes) (v : Value) (r : Bytes),
    decodeItem w fuel d bs = .ok (v, r) → ItemOk w d bs v r := by
  intro fuel
  induction fuel with
  | zero => intro d bs v r h; simp [decodeItem] at h
  | succ fuel ih =>
    intro d bs v r h
    rw [decodeItem.eq_def] at h
    simp only at h
    split at h
    · simp at h
    next hx =>
    simp only [Bool.not_eq_true] at hx
    split at h
    · simp at h
    next f bs =>
    rw [bind_ok] at h
    obtain ⟨⟨n, b1⟩, h1, h⟩ := h
    obtain ⟨hn, he⟩ := readVariadic_ok h1
    have hz := Depth.allows_zero hx
    have hp : 0 < 2 ^ w := Nat.pow_pos (by omega)
    have hne : ∀ m q, head m n ++ q ≠ [] := fun m q => by simp [head_ne_nil]
    simp only at h
    have hmaj : f.toNat / 32 < 8 := by have := f.toNat_lt; omega
    generalize hm : f.toNat / 32 = major at h he hmaj
    split at h
    · simp at h; obtain ⟨rfl, rfl⟩ := h
      exact ⟨⟨_, head_ne_nil _ _, he, fun _ => rfl⟩, hn, hz⟩
    · split at h
      · simp at h
      simp at h; obtain ⟨rfl, rfl⟩ := h
      refine ⟨⟨_, head_ne_nil _ _, he, fun _ => ?_⟩, ?_, hz⟩
      · simp only [Value.enc]; congr 1; omega
      · simp only [Value.WF]; omega
    · split at h
      case h_2 => simp at h
      next l r' hl =>
      simp at h
      obtain ⟨rfl, rfl⟩ := h
      obtain ⟨e1, e2⟩ := readBytes_some hl
      refine ⟨⟨_, hne _ _, by rw [he, e1, List.append_assoc], fun hw => ?_⟩, ?_, hz⟩
      · subst hw; rw [Nat.mod_eq_of_lt hn] at e2; simp [Value.enc, e2]
      · simp only [Value.WF]; rw [e2]; exact Nat.mod_lt _ hp
    · split at h
      case h_2 => simp at h
      next l r' hl =>
      split at h
      case isFalse => simp at h
      next hu =>
      simp at h
      obtain ⟨rfl, rfl⟩ := h
      obtain ⟨e1, e2⟩ := readBytes_some hl
      refine ⟨⟨_, hne _ _, by rw [he, e1, List.append_assoc], fun hw => ?_⟩, ?_, hz⟩
      · subst hw; rw [Nat.mod_eq_of_lt hn] at e2; simp [Value.enc, e2]
      · simp only [Value.WF]; rw [e2]; exact ⟨Nat.mod_lt _ hp, (Utf8.valid_iff _).1 hu⟩
    · rw [bind_ok] at h
      obtain ⟨⟨l, r'⟩, h2, h3⟩ := h
      simp at h3; obtain ⟨rfl, rfl⟩ := h3
      obtain ⟨⟨p, e1, e1'⟩, e2, e3, e4⟩ := readArrayLoop_ok hx (ih d.pred) _ _ _ _ h2
      refine ⟨⟨_, hne _ _, by rw [he, e1, List.append_assoc], fun hw => ?_⟩, ?_, e4⟩
      · rw [e1' hw]; simp [Value.enc, e2]
      · simp only [Value.WF]; exact ⟨by omega, e3⟩
    · rw [bind_ok] at h
      obtain ⟨⟨l, r'⟩, h2, h3⟩ := h
      simp at h3; obtain ⟨rfl, rfl⟩ := h3
      obtain ⟨⟨p, e1, e1'⟩, e2, e3, e4, e5, _⟩ := readMapLoop_ok hw hx (ih d.pred) _ _ _ _ _ (by simp) h2
      refine ⟨⟨_, hne _ _, by rw [he, e1, List.append_assoc], fun hw => ?_⟩, ?_, e4⟩
      · rw [e1' hw]; simp [Value.enc, e2]
      · simp only [Value.WF]; exact ⟨by omega, e3, e5⟩
    · rw [bind_ok] at h
      obtain ⟨⟨l, r'⟩, h2, h3⟩ := h
      simp at h3; obtain ⟨rfl, rfl⟩ := h3
      obtain ⟨⟨p, _, e1, e1'⟩, e2, e3⟩ := ih d.pred _ _ _ h2
      refine ⟨⟨_, hne _ _, by rw [he, e1, List.append_assoc], fun hw => ?_⟩, ?_, Depth.allows_pred.1 e3⟩
      · rw [e1' hw]; simp [Value.enc]
      · simp only [Value.WF]; exact ⟨hn, e2⟩
    · next x0 x1 x2 x3 x4 x5 x6 =>
      have h7 : major = 7 := by
        rcases major with _ | _ | _ | _ | _ | _ | _ | _ | n <;> first | rfl | (exfalso; omega) | skip
        · exact absurd rfl x0
        · exact absurd rfl x1
        · exact absurd rfl x2
        · exact absurd rfl x3
        · exact absurd rfl x4
        · exact absurd rfl x5
        · exact absurd rfl x6
      rw [bind_ok] at h
      obtain ⟨v', h2, h3⟩ := h
      simp at h3; obtain ⟨rfl, rfl⟩ := h3
      unfold decodeSimple at h2
      split at h2
      · simp at h2
      split at h2 <;> simp at h2
      next s hs =>
      subst h2
      refine ⟨⟨_, head_ne_nil _ _, he, fun _ => ?_⟩, trivial, hz⟩
      rw [h7, ← Simple.toNat_ofNat? hs]; rfl

/-! ## The fuel of the model is never exhausted -/

theorem bind_error {ε α β} {x : Except ε α} {f : α → Except ε β} {e : ε} :
    (x >>= f) = .error e ↔ x = .error e ∨ ∃ a, x = .ok a ∧ f a = .error e := by
  cases x <;> simp [bind, Except.bind]

theorem readArrayLoop_fuel {item : Bytes → Except DecErr (Value × Bytes)} {m : Nat}
    (hs : ∀ bs v r, item bs = .ok (v, r) → r.length < bs.length)
    (hi : ∀ bs, bs.length ≤ m → item bs ≠ .error .outOfFuel) :
    ∀ n bs, bs.length ≤ m → readArrayLoop item n bs ≠ .error .outOfFuel := by
  intro n
  induction n with
  | zero => intro bs _ h; simp [readArrayLoop] at h
  | succ n ih =>
    intro bs hb h
    simp only [readArrayLoop, bind_error] at h
    rcases h with h | ⟨⟨x, b⟩, h1, h⟩
    · exact hi bs hb h
    have := hs _ _ _ h1
    rcases h with h | ⟨y, _, h⟩
    · exact ih b (by omega) h
    · simp at h

theorem readMapLoop_fuel {item : Bytes → Except DecErr (Value × Bytes)} {m : Nat}
    (hs : ∀ bs v r, item bs = .ok (v, r) → r.length < bs.length)
    (hi : ∀ bs, bs.length ≤ m → item bs ≠ .error .outOfFuel) :
    ∀ n last bs, bs.length ≤ m → readMapLoop item n last bs ≠ .error .outOfFuel := by
  intro n
  induction n with
  | zero => intro last bs _ h; simp [readMapLoop] at h
  | succ n ih =>
    intro last bs hb h
    simp only [readMapLoop, bind_error] at h
    rcases h with h | ⟨⟨x, b⟩, h1, h⟩
    · exact hi bs hb h
    have := hs _ _ _ h1
    simp only at h
    split at h
    · simp at h
    simp only [bind_error] at h
    rcases h with h | ⟨⟨y, c⟩, h2, h⟩
    · exact hi b (by omega) h
    have := hs _ _ _ h2
    rcases h with h | ⟨z, _, h⟩
    · exact ih _ c (by simp only at *; omega) h
    · simp at h

theorem readVariadic_not_fuel (i : Nat) (bs : Bytes) : readVariadic i bs ≠ .error .outOfFuel := by
  unfold readVariadic
  repeat' split
  all_goals first | (simp; done) | (simp only []; split <;> simp)

theorem decodeSimple_not_fuel (i j : Nat) : decodeSimple i j ≠ .error .outOfFuel := by
  unfold decodeSimple
  repeat' split
  all_goals simp

theorem ItemOk.length {w d bs v r} (h : ItemOk w d bs v r) : r.length < bs.length := by
  obtain ⟨⟨p, hp, rfl, _⟩, _⟩ := h
  have := List.length_pos_iff.2 hp
  simp; omega

theorem decodeItem_not_fuel {w : Nat} (hw : w ≤ 64) :
    ∀ (fuel : Nat) (d : Depth) (bs : Bytes), bs.length < fuel →
      decodeItem w fuel d bs ≠ .error .outOfFuel := by
  intro fuel
  induction fuel with
  | zero => intro d bs h; omega
  | succ fuel ih =>
    intro d bs hl h
    rw [decodeItem.eq_def] at h
    simp only at h
    split at h
    · simp at h
    split at h
    · simp at h
    next f bs =>
    simp only [List.length_cons] at hl
    rw [bind_error] at h
    rcases h with h | ⟨⟨n, b1⟩, h1, h⟩
    · exact readVariadic_not_fuel _ _ h
    have hb1 : b1.length ≤ fuel - 1 := by
      have := congrArg List.length (readVariadic_ok h1).2
      have := List.length_pos_iff.2 (head_ne_nil (f.toNat / 32) n)
      simp at *; omega
    have hs : ∀ bs v r, decodeItem w fuel d.pred bs = .ok (v, r) → r.length < bs.length :=
      fun bs v r h => (decodeItem_ok hw _ _ _ _ _ h).length
    have hi : ∀ bs, bs.length ≤ fuel - 1 → decodeItem w fuel d.pred bs ≠ .error .outOfFuel :=
      fun bs hb => ih d.pred bs (by omega)
    simp only at h
    split at h
    · simp at h
    · split at h <;> simp at h
    · split at h <;> simp at h
    · split at h
      · split at h <;> simp at h
      · simp at h
    · rw [bind_error] at h
      rcases h with h | ⟨_, _, h⟩
      · exact readArrayLoop_fuel hs hi _ _ hb1 h
      · simp at h
    · rw [bind_error] at h
      rcases h with h | ⟨_, _, h⟩
      · exact readMapLoop_fuel hs hi _ _ _ hb1 h
      · simp at h
    · rw [bind_error] at h
      rcases h with h | ⟨_, _, h⟩
      · exact hi _ hb1 h
      · simp at h
    · rw [bind_error] at h
      rcases h with h | ⟨_, _, h⟩
      · exact decodeSimple_not_fuel _ _ h
      · simp at h

/-- With a nesting limit `d`, recursion deeper than `d + 2` is never reached: more fuel changes nothing. -/
theorem decodeItem_fuel_eq (w : Nat) : ∀ (fuel fuel' : Nat) (d : Int), 1 ≤ fuel → 1 ≤ fuel' →
    d + 2 ≤ fuel → d + 2 ≤ fuel' → decodeItem w fuel (some d) = decodeItem w fuel' (some d) := by
  intro fuel
  induction fuel with
  | zero => intro _ _ h; omega
  | succ fuel ih =>
    intro fuel' d _ h1 h2 h3
    obtain ⟨fuel', rfl⟩ : ∃ f, fuel' = f + 1 := ⟨fuel' - 1, by omega⟩
    funext bs
    rw [decodeItem.eq_def, decodeItem.eq_def]
    simp only
    by_cases hd : d < 0
    · simp [Depth.exhausted, hd]
    · have : decodeItem w fuel (Depth.pred (some d)) = decodeItem w fuel' (Depth.pred (some d)) :=
        ih fuel' (d - 1) (by omega) (by omega) (by omega) (by omega)
      rw [this]

end Verif.Cbor
