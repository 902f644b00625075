import Verif.P256.EcModel
import Verif.P256.EcSpec
import Verif.P256.ScalarLemmas

/-! Exponents, keys and signatures of the code against `EcSpec`. -/

set_option exponentiation.threshold 600

namespace Verif.P256

open Int256 Spec

theorem number_eq (b : List UInt8) : number b = beNat b := rfl

/-! ### Exponents -/

/-- The invariant of `NonZeroExponentP256`. -/
structure ExpOk (e : Exponent) : Prop where
  wf : Wf e
  pos : 0 < val e
  lt : val e < N

theorem ExpOk.ne {e : Exponent} (h : ExpOk e) : val e ≠ 0 := Nat.pos_iff_ne_zero.1 h.pos

theorem two_N : 2 ^ 256 < 2 * N := by decide +kernel

theorem N_pos : 0 < N := by decide +kernel

theorem cast_ne {n : Nat} (h0 : 0 < n) (h : n < N) : (n : ZMod N) ≠ 0 := by
  rw [Ne, ZMod.natCast_eq_zero_iff]
  exact fun hd => absurd (Nat.le_of_dvd h0 hd) (Nat.not_le.2 h)

theorem ExpOk.cast_ne {e : Exponent} (h : ExpOk e) : (val e : ZMod N) ≠ 0 :=
  Verif.P256.cast_ne h.pos h.lt

/-- An exponent is determined by its residue. -/
theorem val_cast {n : Nat} (h : n < N) : ((n : ZMod N)).val = n := ZMod.val_natCast_of_lt h

namespace Exponent

theorem modn_spec {a : Int256} (h : Wf a) : Wf (modn a) ∧ val (modn a) = val a % N := by
  obtain ⟨l, hv⟩ := modd_spec (a := a) (m := Int256.N) (h.trans wf_N.symm)
  refine ⟨l.trans h, ?_⟩
  unfold modn
  rw [hv, val_N]
  have := val_lt8 h
  have := two_N
  split
  · rename_i hle
    rw [Nat.mod_eq_sub_mod hle, Nat.mod_eq_of_lt (by omega)]
  · rename_i hle
    rw [Nat.mod_eq_of_lt (by omega)]

theorem non_zero_spec (e : Exponent) : non_zero e = if val e = 0 then none else some e := by
  unfold non_zero
  rw [is_zero_spec]
  by_cases h : val e = 0 <;> simp [h]

theorem nonZeroFromInt_spec {a : Int256} (h : Wf a) :
    nonZeroFromInt a = if 0 < val a ∧ val a < N then some a else none := by
  unfold nonZeroFromInt from_int_checked
  rw [ct_lt_spec (h.trans wf_N.symm), val_N]
  by_cases h1 : val a < N
  · simp only [h1, decide_true, if_true, Option.bind_some, is_zero_spec, and_true]
    by_cases h0 : val a = 0
    · simp [h0]
    · simp [h0, Nat.pos_iff_ne_zero]
  · simp [h1]

theorem nonZeroFromInt_ok {a e : Int256} (h : Wf a) (he : nonZeroFromInt a = some e) : ExpOk e := by
  rw [nonZeroFromInt_spec h] at he
  split at he
  · rename_i hc
    cases he
    exact ⟨h, hc.1, hc.2⟩
  · cases he

theorem nonZeroFromInt_of {e : Int256} (h : ExpOk e) : nonZeroFromInt e = some e := by
  rw [nonZeroFromInt_spec h.wf, if_pos ⟨h.pos, h.lt⟩]

theorem mul_cast {a b : Exponent} (ha : Wf a) (hb : Wf b) :
    Wf (mul a b) ∧ val (mul a b) < N ∧ (val (mul a b) : ZMod N) = val a * val b := by
  obtain ⟨w, hv⟩ := modmul_spec ha hb wf_N N_big
  rw [val_N] at hv
  refine ⟨w, ?_, ?_⟩
  · show val (modmul a b Int256.N) < N
    rw [hv]; exact Nat.mod_lt _ N_pos
  · show (val (modmul a b Int256.N) : ZMod N) = _
    rw [hv, ZMod.natCast_mod]; push_cast; rfl

theorem mul_ok {a b : Exponent} (ha : ExpOk a) (hb : ExpOk b) : ExpOk (mul a b) := by
  obtain ⟨w, l, c⟩ := mul_cast ha.wf hb.wf
  refine ⟨w, ?_, l⟩
  rcases Nat.eq_zero_or_pos (val (mul a b)) with h | h
  · rw [h] at c
    exact absurd c.symm (by simpa using ⟨ha.cast_ne, hb.cast_ne⟩)
  · exact h

theorem val_N_MIN_2 : val N_MIN_2 = N - 2 := by decide +kernel

theorem fermat_N (x : ZMod N) : x ^ (N - 2) = x⁻¹ := by
  have h3 : 3 ≤ N := by decide +kernel
  by_cases hx : x = 0
  · rw [hx, inv_zero, zero_pow (by omega)]
  · have h := ZMod.pow_card_sub_one_eq_one hx
    have e : N - 1 = (N - 2) + 1 := by omega
    rw [e, pow_succ] at h
    exact eq_inv_of_mul_eq_one_left h

theorem inv_cast {a : Exponent} (ha : Wf a) :
    Wf (inv a) ∧ val (inv a) < N ∧ (val (inv a) : ZMod N) = (val a : ZMod N)⁻¹ := by
  obtain ⟨w, hv⟩ := modpow_spec (x := a) (power := N_MIN_2) ha rfl wf_N N_big
  rw [val_N, val_N_MIN_2] at hv
  refine ⟨w, ?_, ?_⟩
  · show val (modpow a N_MIN_2 Int256.N) < N
    rw [hv]; exact Nat.mod_lt _ N_pos
  · show (val (modpow a N_MIN_2 Int256.N) : ZMod N) = _
    rw [hv, ZMod.natCast_mod, Nat.cast_pow, fermat_N]

theorem inv_ok {a : Exponent} (ha : ExpOk a) : ExpOk (inv a) := by
  obtain ⟨w, l, c⟩ := inv_cast ha.wf
  refine ⟨w, ?_, l⟩
  rcases Nat.eq_zero_or_pos (val (inv a)) with h | h
  · rw [h] at c
    exact absurd c.symm (by simpa using ha.cast_ne)
  · exact h

/-- The draw that gives the exponent: any eight words. -/
theorem genTry_spec {w : List UInt32} (h : w.length = 8) :
    genTry w = if val w ≤ N - 2 then some (add_digit w 1).1 else none := by
  unfold genTry
  have e : gen_uniform_256 w = w := by
    unfold gen_uniform_256; rw [← h, List.take_length]
  have hw : Wf N_MIN_2 := rfl
  simp only [e]
  rw [ct_lt_spec (hw.trans h.symm), val_N_MIN_2]
  by_cases hc : val w ≤ N - 2
  · simp [hc, Nat.not_lt.2 hc]
  · simp [hc, Nat.not_le.1 hc]

theorem genTry_ok {w : List UInt32} (h : w.length = 8) {e : Exponent} (he : genTry w = some e) :
    ExpOk e ∧ val e = val w + 1 := by
  rw [genTry_spec h] at he
  split at he
  · rename_i hle
    cases he
    obtain ⟨l, _, hv⟩ := add_digit_spec w 1
    have hN := N_lt
    have h2 : 2 ≤ N := by decide +kernel
    have hb : (add_digit w 1).2.toNat = 0 := by
      rw [h] at hv
      by_contra hne
      have : 4294967296 ^ 8 * 1 ≤ 4294967296 ^ 8 * (add_digit w 1).2.toNat :=
        Nat.mul_le_mul_left _ (Nat.pos_iff_ne_zero.2 hne)
      have e1 : (4294967296 : Nat) ^ 8 = 2 ^ 256 := by norm_num
      have e2 : (1 : UInt32).toNat = 1 := rfl
      rw [e2] at hv
      omega
    have e2 : (1 : UInt32).toNat = 1 := rfl
    rw [hb, e2] at hv
    have hv' : val (add_digit w 1).1 = val w + 1 := by omega
    exact ⟨⟨l.trans h, by omega, by omega⟩, hv'⟩
  · cases he

end Exponent

/-! ### Points -/

theorem xCoord_is {p : Point} {A : E.Point} (h : p.Is A) : xCoord A = some (val p.x) := by
  obtain ⟨_, rfl⟩ := h.eq
  show some (ZMod.val (Gfp.toF p.x)) = _
  rw [Gfp.toF, ZMod.val_natCast_of_lt h.lx]

theorem coords_is {p : Point} {A : E.Point} (h : p.Is A) :
    coords A = some (val p.x, val p.y) := by
  obtain ⟨_, rfl⟩ := h.eq
  show some (ZMod.val (Gfp.toF p.x), ZMod.val (Gfp.toF p.y)) = _
  rw [Gfp.toF, ZMod.val_natCast_of_lt h.lx, Gfp.toF, ZMod.val_natCast_of_lt h.ly]

theorem coords_inj {A B : E.Point} {c : Nat × Nat} (ha : coords A = some c)
    (hb : coords B = some c) : A = B := by
  cases A with
  | zero => cases ha
  | some x y h =>
    cases B with
    | zero => cases hb
    | some x' y' h' =>
      rw [← hb] at ha
      have : (x.val, y.val) = (x'.val, y'.val) := Option.some.inj ha
      have e1 : x = x' := ZMod.val_injective P (Prod.ext_iff.1 this).1
      have e2 : y = y' := ZMod.val_injective P (Prod.ext_iff.1 this).2
      subst e1; subst e2; rfl

/-- The points of the code are determined by the points of the curve. -/
theorem Point.Is.inj {p q : Point} {A : E.Point} (hp : p.Is A) (hq : q.Is A) : p = q := by
  have := (coords_is hp).symm.trans (coords_is hq)
  have h := Option.some.inj this
  cases p; cases q
  congr 1
  · exact val_inj (hp.wx.trans hq.wx.symm) (Prod.ext_iff.1 h).1
  · exact val_inj (hp.wy.trans hq.wy.symm) (Prod.ext_iff.1 h).2

/-- The scalars of a point are modulo the order. -/
theorem smul_congr {a b : Nat} (A : E.Point) (h : (a : ZMod N) = (b : ZMod N)) : a • A = b • A := by
  rw [ZMod.natCast_eq_natCast_iff'] at h
  rw [← smul_mod A a, h, smul_mod]

/-- The base point generates the curve. -/
theorem generated (A : E.Point) : ∃ n, n < N ∧ n • G = A := by
  have hinj : Function.Injective (fun i : Fin N => i.val • G) := by
    intro i j hij
    have hij : i.val • G = j.val • G := hij
    have := (nsmul_eq_nsmul_iff_modEq (x := G)).1 hij
    rw [order_G] at this
    exact Fin.ext (by rw [← Nat.mod_eq_of_lt i.isLt, ← Nat.mod_eq_of_lt j.isLt]; exact this)
  have hb : Function.Bijective (fun i : Fin N => i.val • G) :=
    (Nat.bijective_iff_injective_and_card _).2 ⟨hinj, by rw [card_E]; simp⟩
  obtain ⟨i, hi⟩ := hb.2 A
  exact ⟨i.val, i.isLt, hi⟩

/-! ### Validation of points -/

namespace Gfp

theorem mul_spec {a b : Gfp} (ha : Wf a) (hb : Wf b) :
    Wf (mul a b) ∧ val (mul a b) < P ∧ (mul a b).toF = a.toF * b.toF := by
  obtain ⟨w, hv⟩ := modmul_spec ha hb wf_P P_big
  rw [val_P] at hv
  refine ⟨w, ?_, ?_⟩
  · show val (modmul a b Int256.P) < P
    rw [hv]; exact Nat.mod_lt _ P_pos
  · show ((val (modmul a b Int256.P) : Nat) : ZMod P) = _
    rw [hv, ZMod.natCast_mod]; push_cast; rfl

theorem sub_spec {a b : Gfp} (ha : Wf a) (hb : Wf b) (hal : val a < P) (hbl : val b < P) :
    Wf (sub_vartime a b) ∧ val (sub_vartime a b) < P ∧ (sub_vartime a b).toF = a.toF - b.toF := by
  obtain ⟨w, hv⟩ := modsub_spec (m := Int256.P) ha hb wf_P (by rw [val_P]; exact hal)
    (by rw [val_P]; exact hbl.le)
  rw [val_P] at hv
  refine ⟨w, ?_, ?_⟩
  · show val (modsub_vartime a b Int256.P) < P
    rw [hv]; split <;> omega
  · show ((val (modsub_vartime a b Int256.P) : Nat) : ZMod P) = (val a : ZMod P) - (val b : ZMod P)
    rw [hv]
    split
    · rename_i hle
      rw [Nat.cast_sub hle]
    · rw [Nat.cast_sub (by omega)]; push_cast; simp

theorem add_spec {a b : Gfp} (ha : Wf a) (hb : Wf b) (hal : val a < P) (hbl : val b < P) :
    Wf (add_vartime a b) ∧ val (add_vartime a b) < P ∧ (add_vartime a b).toF = a.toF + b.toF := by
  obtain ⟨w, hv⟩ := modadd_spec (m := Int256.P) ha hb wf_P (by rw [val_P]; exact hal)
    (by rw [val_P]; exact hbl)
  rw [val_P] at hv
  refine ⟨w, ?_, ?_⟩
  · show val (modadd_vartime a b Int256.P) < P
    rw [hv]; exact Nat.mod_lt _ P_pos
  · show ((val (modadd_vartime a b Int256.P) : Nat) : ZMod P) = _
    rw [hv, ZMod.natCast_mod]; push_cast; rfl

theorem toF_inj {a b : Gfp} (ha : Wf a) (hb : Wf b) (hal : val a < P) (hbl : val b < P)
    (h : a.toF = b.toF) : a = b := by
  refine val_inj (ha.trans hb.symm) ?_
  have := congrArg ZMod.val h
  rwa [toF, toF, ZMod.val_natCast_of_lt hal, ZMod.val_natCast_of_lt hbl] at this

theorem toF_zero {a : Gfp} (hal : val a < P) : a.toF = 0 ↔ val a = 0 := by
  rw [toF, ZMod.natCast_eq_zero_iff]
  exact ⟨fun h => Nat.eq_zero_of_dvd_of_lt h hal, fun h => by rw [h]; exact dvd_zero _⟩

theorem valid_spec {x y : Gfp} (hx : Wf x) (hy : Wf y) (hxl : val x < P) (hyl : val y < P) :
    is_valid_point_vartime x y = true ↔
      val x ≠ 0 ∧ y.toF ^ 2 = x.toF ^ 3 - 3 * x.toF + bF := by
  have hB : Wf Int256.B ∧ val Int256.B < P := ⟨rfl, by decide +kernel⟩
  have fB : Gfp.toF Int256.B = bF := by rw [toF, val_B, bF]
  obtain ⟨w1, l1, e1⟩ := mul_spec hy hy
  obtain ⟨w2, l2, e2⟩ := mul_spec hx hx
  obtain ⟨w3, l3, e3⟩ := mul_spec w2 hx
  obtain ⟨w4, l4, e4⟩ := sub_spec w3 hx l3 hxl
  obtain ⟨w5, l5, e5⟩ := sub_spec w4 hx l4 hxl
  obtain ⟨w6, l6, e6⟩ := sub_spec w5 hx l5 hxl
  obtain ⟨w7, l7, e7⟩ := add_spec w6 hB.1 l6 hB.2
  simp only [is_valid_point_vartime]
  rw [is_zero_spec, is_zero_spec]
  rw [e6, e5, e4, e3, e2, fB] at e7
  generalize add_vartime (sub_vartime (sub_vartime (sub_vartime (mul (mul x x) x) x) x) x)
    Int256.B = L at *
  generalize mul y y = M at *
  by_cases h0 : val x = 0
  · simp [h0]
  by_cases h1 : val y = 0
  · have hy0 := (toF_zero hyl).2 h1
    simp only [h0, h1, decide_false, decide_true, Bool.false_or, if_true, Bool.false_eq_true,
      false_iff, not_and]
    intro _ he
    exact no_root x.toF (by rw [← he, hy0]; ring)
  · simp only [h0, h1, decide_false, Bool.false_or, Bool.false_eq_true, if_false]
    rw [beq_iff_eq]
    constructor
    · intro h
      rw [h, e1] at e7
      exact ⟨h0, by linear_combination e7⟩
    · rintro ⟨_, h⟩
      refine toF_inj w7 w1 l7 l1 ?_
      rw [e7, e1]
      linear_combination -h

end Gfp

namespace Point

/-- The constructor that checks its coordinates. -/
theorem new_checked_spec {x y : Int256} (hx : Wf x) (hy : Wf y) (p : Point) :
    new_checked_vartime x y = some p ↔
      p = ⟨x, y⟩ ∧ val x ≠ 0 ∧ ∃ A : E.Point, p.Is A := by
  unfold new_checked_vartime Gfp.from_int_checked
  rw [ct_lt_spec (hx.trans wf_P.symm), ct_lt_spec (hy.trans wf_P.symm), val_P]
  by_cases h1 : val x < P
  · by_cases h2 : val y < P
    · have hv := Gfp.valid_spec hx hy h1 h2
      simp only [h1, h2, decide_true, if_true, Option.bind_eq_bind, Option.bind_some]
      constructor
      · intro h
        split at h
        · rename_i hc
          obtain ⟨h0, he⟩ := hv.1 hc
          cases h
          refine ⟨rfl, h0, ?_⟩
          have hn : E.Nonsingular (Gfp.toF x) (Gfp.toF y) :=
            Law.nonsingular odd_E he
          exact ⟨.some _ _ hn, hx, hy, h1, h2, hn, rfl⟩
        · cases h
      · rintro ⟨rfl, h0, A, hA⟩
        obtain ⟨hn, _⟩ := hA.eq
        have he := Law.equation_iff.1 hn.1
        rw [if_pos (hv.2 ⟨h0, he⟩)]
    · simp only [h1, h2, decide_true, decide_false, if_true, Option.bind_eq_bind, Option.bind_some,
        Bool.false_eq_true, if_false, Option.bind_none, reduceCtorEq, false_iff]
      rintro ⟨rfl, _, A, hA⟩
      exact h2 hA.ly
  · simp only [h1, decide_false, Option.bind_eq_bind, Bool.false_eq_true, if_false, Option.bind_none,
      reduceCtorEq, false_iff]
    rintro ⟨rfl, _, A, hA⟩
    exact h1 hA.lx

end Point

end Verif.P256
