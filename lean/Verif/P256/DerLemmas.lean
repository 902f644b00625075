import Verif.P256.SignLemmas

/-! The encoding of signatures, against X.690. -/

set_option exponentiation.threshold 600

namespace Verif.P256

open Int256 Spec

theorem number_append (a b : List UInt8) : number (a ++ b) = number a * 256 ^ b.length + number b :=
  beNat_append a b

theorem number_cons (a : UInt8) (b : List UInt8) :
    number (a :: b) = a.toNat * 256 ^ b.length + number b := by
  rw [show a :: b = [a] ++ b from rfl, number_append]
  simp [number]

theorem number_lt (a : List UInt8) : number a < 256 ^ a.length := beNat_lt a

theorem number_inj {a b : List UInt8} (hl : a.length = b.length) (h : number a = number b) : a = b :=
  beNat_inj hl h

theorem number_zeros : ∀ l : List UInt8, (∀ b ∈ l, b = 0) → number l = 0
  | [], _ => rfl
  | a :: l, h => by
    rw [number_cons, number_zeros l fun b hb => h b (List.mem_cons_of_mem _ hb),
      h a (List.mem_cons_self)]
    simp

theorem high_bit (b : UInt8) : b &&& 0x80 = 0x80 ↔ 128 ≤ b.toNat := by
  have key : ∀ n : Fin 256, (UInt8.ofNat n.val &&& 0x80 = 0x80) ↔ 128 ≤ n.val := by decide +kernel
  have := key ⟨b.toNat, b.toNat_lt⟩
  simpa using this

/-- The contents octets of a positive number: the shortest ones, with its value. -/
theorem minimal_spec {x : Int256} (hx : Wf x) (h0 : val x ≠ 0) :
    ShortestInt (to_minimal_encoding x) ∧ intValue (to_minimal_encoding x) = val x ∧
      (to_minimal_encoding x).length ≤ 33 := by
  obtain ⟨hl, hv⟩ := to_bin_spec x
  rw [show x.length = 8 from hx] at hl
  have hv : number (to_bin x) = val x := hv
  unfold to_minimal_encoding
  generalize to_bin x = bytes at *
  simp only
  cases hf : bytes.findIdx? (· ≠ 0) with
  | none =>
    rw [List.findIdx?_eq_none_iff] at hf
    exact absurd (hv ▸ number_zeros bytes fun b hb => by simpa using hf b hb) h0
  | some pos =>
    rw [List.findIdx?_eq_some_iff_getElem] at hf
    obtain ⟨hp, hne, hz⟩ := hf
    simp only [ne_eq, decide_not, Bool.not_eq_eq_eq_not, Bool.not_true, decide_eq_false_iff_not] at hne
    have hsplit : bytes.drop pos = bytes[pos] :: bytes.drop (pos + 1) := List.drop_eq_getElem_cons hp
    have hnum : number (bytes.drop pos) = val x := by
      rw [← hv]
      conv => rhs; rw [← List.take_append_drop pos bytes]
      rw [number_append, number_zeros (bytes.take pos), Nat.zero_mul, Nat.zero_add]
      intro b hb
      obtain ⟨i, hi, rfl⟩ := List.mem_iff_getElem.1 hb
      rw [List.length_take] at hi
      rw [List.getElem_take]
      have := hz i (by omega)
      simpa using this
    have hget : bytes.getD pos 0 = bytes[pos] := by
      rw [List.getD_eq_getElem?_getD, List.getElem?_eq_getElem hp]; rfl
    simp only [hget]
    have hn0 : bytes[pos].toNat ≠ 0 := fun h => hne (UInt8.toNat.inj (by simpa using h))
    have hlen : (bytes.drop pos).length ≤ 32 := by rw [List.length_drop]; omega
    by_cases hh : bytes[pos] &&& 0x80 = 0x80
    · have h128 := (high_bit _).1 hh
      simp only [hh, if_true]
      rw [hsplit] at hnum hlen ⊢
      refine ⟨⟨by simp, ?_⟩, ?_, ?_⟩
      · rintro a b rest he
        obtain ⟨ha, he⟩ := List.cons.inj he
        obtain ⟨hb, _⟩ := List.cons.inj he
        rw [← ha, ← hb]
        exact ⟨fun h => Nat.not_lt.2 h128 h.2, fun h => absurd h.1 (by decide)⟩
      · unfold intValue
        rw [if_pos (by simp), show ([0] ++ bytes[pos] :: bytes.drop (pos + 1) : List UInt8)
          = 0 :: (bytes[pos] :: bytes.drop (pos + 1)) from rfl, number_cons, hnum]
        simp
      · simp only [List.length_append, List.length_cons, List.length_nil] at hlen ⊢
        omega
    · have h128 : bytes[pos].toNat < 128 := Nat.lt_of_not_le fun h => hh ((high_bit _).2 h)
      simp only [hh, if_false, List.nil_append]
      rw [hsplit] at hnum hlen ⊢
      refine ⟨⟨List.cons_ne_nil _ _, ?_⟩, ?_, by omega⟩
      · rintro a b rest he
        obtain ⟨rfl, he⟩ := List.cons.inj he
        refine ⟨fun h => hne h.1, fun h => ?_⟩
        rw [h.1] at h128
        exact absurd h128 (by decide)
      · unfold intValue
        rw [if_pos (show (List.headD (bytes[pos] :: bytes.drop (pos + 1)) 0).toNat < 128 from h128),
          hnum]

/-- Between which numbers the contents octets of a length are. -/
theorem int_bounds {c : List UInt8} (hc : ShortestInt c) :
    (-(128 * 256 ^ (c.length - 1) : Int) ≤ intValue c ∧
      intValue c < 128 * 256 ^ (c.length - 1)) ∧
    (2 ≤ c.length → intValue c < -(128 * 256 ^ (c.length - 2) : Int) ∨
      128 * 256 ^ (c.length - 2) ≤ intValue c) := by
  obtain ⟨hne, hs⟩ := hc
  match c with
  | [] => exact absurd rfl hne
  | [a] =>
    have ha := a.toNat_lt
    refine ⟨?_, fun h => by simp at h⟩
    have hn : number [a] = a.toNat := by rw [number_cons]; simp [number]
    unfold intValue
    rw [hn]
    split <;> simp at * <;> omega
  | a :: b :: rest =>
    have ha := a.toNat_lt
    have hb := b.toNat_lt
    obtain ⟨h1, h2⟩ := hs a b rest rfl
    have hr := number_lt rest
    have e1 : (a :: b :: rest).length - 1 = rest.length + 1 := by simp
    have e2 : (a :: b :: rest).length - 2 = rest.length := by simp
    have e3 : (a :: b :: rest).length = rest.length + 2 := by simp
    rw [e1, e2]
    have hnum : number (a :: b :: rest)
        = a.toNat * (256 * 256 ^ rest.length) + b.toNat * 256 ^ rest.length + number rest := by
      rw [number_cons, number_cons, List.length_cons, pow_succ]; ring
    have ep : (256 : Int) ^ (rest.length + 1) = 256 * 256 ^ rest.length := by rw [pow_succ]; ring
    have ep2 : (256 : Int) ^ (a :: b :: rest).length = 65536 * 256 ^ rest.length := by
      rw [e3, pow_succ, pow_succ]; ring
    unfold intValue
    rw [ep, ep2, hnum]
    have hcast : ((256 ^ rest.length : Nat) : Int) = (256 : Int) ^ rest.length := by push_cast; rfl
    have hR : ((number rest : Nat) : Int) < (256 : Int) ^ rest.length := by
      rw [← hcast]; exact_mod_cast hr
    have hR0 : (0 : Int) ≤ ((number rest : Nat) : Int) := Int.natCast_nonneg _
    push_cast
    generalize (256 : Int) ^ rest.length = W at *
    generalize ((number rest : Nat) : Int) = R at *
    have hW : 0 < W := by omega
    have hz : a = 0 ↔ a.toNat = 0 := by
      rw [← UInt8.toNat_inj]; rfl
    have hff : a = 255 ↔ a.toNat = 255 := by
      rw [← UInt8.toNat_inj]; rfl
    rw [hz] at h1
    rw [hff] at h2
    simp only [List.headD_cons]
    have hx : ((a.toNat : Nat) : Int) < 256 := by exact_mod_cast ha
    have hy : ((b.toNat : Nat) : Int) < 256 := by exact_mod_cast hb
    have hx0 : (0 : Int) ≤ ((a.toNat : Nat) : Int) := Int.natCast_nonneg _
    have hy0 : (0 : Int) ≤ ((b.toNat : Nat) : Int) := Int.natCast_nonneg _
    by_cases hlt : a.toNat < 128
    · simp only [hlt, if_true]
      have hlt' : ((a.toNat : Nat) : Int) < 128 := by exact_mod_cast hlt
      refine ⟨⟨by nlinarith [mul_nonneg hx0 hW.le, mul_nonneg hy0 hW.le], by nlinarith⟩, fun _ => Or.inr ?_⟩
      by_cases hx1 : a.toNat = 0
      · have : 128 ≤ b.toNat := by omega
        have : (128 : Int) ≤ ((b.toNat : Nat) : Int) := by exact_mod_cast this
        nlinarith [mul_nonneg hx0 hW.le]
      · have : (1 : Int) ≤ ((a.toNat : Nat) : Int) := by exact_mod_cast Nat.pos_iff_ne_zero.2 hx1
        nlinarith [mul_nonneg hy0 hW.le]
    · simp only [hlt, if_false]
      have hge : (128 : Int) ≤ ((a.toNat : Nat) : Int) := by exact_mod_cast Nat.le_of_not_lt hlt
      refine ⟨⟨by nlinarith [mul_nonneg hy0 hW.le], by nlinarith⟩, fun _ => Or.inl ?_⟩
      by_cases hx1 : a.toNat = 255
      · have : b.toNat < 128 := by omega
        have : ((b.toNat : Nat) : Int) ≤ 127 := by omega
        have : ((a.toNat : Nat) : Int) = 255 := by exact_mod_cast hx1
        nlinarith
      · have : ((a.toNat : Nat) : Int) ≤ 254 := by omega
        nlinarith

/-- The shortest contents octets of a number are unique. -/
theorem int_unique {c c' : List UInt8} (hc : ShortestInt c) (hc' : ShortestInt c')
    (h : intValue c = intValue c') : c = c' := by
  have key : ∀ {c c' : List UInt8}, ShortestInt c → ShortestInt c' → intValue c = intValue c' →
      c.length < c'.length → False := by
    intro c c' hc hc' h hl
    obtain ⟨hb, _⟩ := int_bounds hc
    obtain ⟨_, hb'⟩ := int_bounds hc'
    have h1 : c ≠ [] := hc.1
    have h2 : 0 < c.length := List.length_pos_of_ne_nil h1
    have hm : (256 : Int) ^ (c.length - 1) ≤ 256 ^ (c'.length - 2) := by
      have : (256 : Nat) ^ (c.length - 1) ≤ 256 ^ (c'.length - 2) :=
        Nat.pow_le_pow_right (by norm_num) (by omega)
      exact_mod_cast this
    rw [h] at hb
    rcases hb' (by omega) with h3 | h3 <;> omega
  have hl : c.length = c'.length := by
    rcases Nat.lt_trichotomy c.length c'.length with hlt | heq | hgt
    · exact (key hc hc' h hlt).elim
    · exact heq
    · exact (key hc' hc h.symm hgt).elim
  refine number_inj hl ?_
  have h1 := number_lt c
  have h2 := number_lt c'
  have hcast : ∀ n : Nat, ((256 ^ n : Nat) : Int) = (256 : Int) ^ n := by intro n; push_cast; rfl
  unfold intValue at h
  rw [← hcast, ← hcast, ← hl] at h
  rw [← hl] at h2
  split at h <;> split at h <;> omega

theorem tlv_eq {tag : UInt8} {c b : List UInt8} (h : tlv tag c = some b) :
    c.length < 128 ∧ b = tag :: UInt8.ofNat c.length :: c := by
  unfold tlv at h
  split at h
  · cases h
    rename_i hl
    exact ⟨hl, rfl⟩
  · cases h

/-- The encoding is a function of the numbers. -/
theorem der_unique {r s : Int} {b b' : List UInt8} (h : DerSignature r s b)
    (h' : DerSignature r s b') : b = b' := by
  obtain ⟨cr, cs, er, es, h1, h2, h3, h4, h5, h6, h7⟩ := h
  obtain ⟨cr', cs', er', es', h1', h2', h3', h4', h5', h6', h7'⟩ := h'
  obtain rfl := int_unique h1 h1' (h2.trans h2'.symm)
  obtain rfl := int_unique h3 h3' (h4.trans h4'.symm)
  rw [h5] at h5'
  rw [h6] at h6'
  cases h5'
  cases h6'
  rw [h7] at h7'
  cases h7'
  rfl

theorem len_byte {a b : Nat} (ha : a < 128) (hb : b < 128) (h : UInt8.ofNat a = UInt8.ofNat b) :
    a = b := by
  have := congrArg UInt8.toNat h
  simp only [UInt8.toNat_ofNat'] at this
  omega

/-- The numbers are a function of the encoding. -/
theorem der_injective {r s r' s' : Int} {b : List UInt8} (h : DerSignature r s b)
    (h' : DerSignature r' s' b) : r = r' ∧ s = s' := by
  obtain ⟨cr, cs, er, es, h1, h2, h3, h4, h5, h6, h7⟩ := h
  obtain ⟨cr', cs', er', es', h1', h2', h3', h4', h5', h6', h7'⟩ := h'
  obtain ⟨l5, e5⟩ := tlv_eq h5
  obtain ⟨l6, e6⟩ := tlv_eq h6
  obtain ⟨l7, e7⟩ := tlv_eq h7
  obtain ⟨l5', e5'⟩ := tlv_eq h5'
  obtain ⟨l6', e6'⟩ := tlv_eq h6'
  obtain ⟨l7', e7'⟩ := tlv_eq h7'
  rw [e7] at e7'
  have e := (List.cons.inj (List.cons.inj e7').2).2
  rw [e5, e6, e5', e6'] at e
  simp only [List.cons_append] at e
  have e2 := (List.cons.inj e).2
  obtain ⟨ea, eb⟩ := List.cons.inj e2
  have hl := len_byte l5 l5' ea
  obtain ⟨ec, ed⟩ := List.append_inj eb hl
  have ee := (List.cons.inj (List.cons.inj ed).2).2
  subst ec
  subst ee
  exact ⟨h2.symm.trans h2', h4.symm.trans h4'⟩

end Verif.P256
