import Verif.P256.MulLemmas
import Mathlib.FieldTheory.Finite.Basic

/-! Inverses in Montgomery form, and the conversion of field elements. -/

namespace Verif.P256

set_option exponentiation.threshold 600

/-- The field element of an integer. -/
def Gfp.toF (x : Gfp) : ZMod P := (val x : ZMod P)

theorem val_P : val Int256.P = P := by decide +kernel
theorem val_N : val Int256.N = N := by decide +kernel
theorem wf_P : Wf Int256.P := rfl
theorem wf_N : Wf Int256.N := rfl
theorem P_big : 2 ^ 256 - 2 ^ 224 ≤ val Int256.P := by rw [val_P]; decide +kernel
theorem N_big : 2 ^ 256 - 2 ^ 224 ≤ val Int256.N := by rw [val_N]; decide +kernel

namespace Mont

/-- The limbs `m` are within the bounds between operations and hold the field element `x`. -/
def Holds (m : Mont) (x : ZMod P) : Prop := Good m ∧ toF m = x

theorem Holds.mul {a b : Mont} {x y : ZMod P} (ha : Holds a x) (hb : Holds b y) :
    Holds (mul a b) (x * y) := by
  obtain ⟨h1, -, h2⟩ := mul_spec ha.1 hb.1
  exact ⟨h1, by rw [h2, ha.2, hb.2]⟩

theorem Holds.square {a : Mont} {x : ZMod P} (ha : Holds a x) : Holds (square a) (x * x) := by
  obtain ⟨h1, -, h2⟩ := square_spec ha.1
  exact ⟨h1, by rw [h2, ha.2]⟩

theorem Holds.add {a b : Mont} {x y : ZMod P} (ha : Holds a x) (hb : Holds b y) :
    Holds (add a b) (x + y) := by
  obtain ⟨h1, h2⟩ := add_spec ha.1 hb.1
  exact ⟨h1, by rw [h2, ha.2, hb.2]⟩

theorem Holds.sub {a b : Mont} {x y : ZMod P} (ha : Holds a x) (hb : Holds b y) :
    Holds (sub a b) (x - y) := by
  obtain ⟨h1, h2⟩ := sub_spec ha.1 hb.1
  exact ⟨h1, by rw [h2, ha.2, hb.2]⟩

theorem Holds.mul_scalar2 {a : Mont} {x : ZMod P} (ha : Holds a x) :
    Holds (mul_scalar2 a) (2 * x) := by
  obtain ⟨h1, h2⟩ := mul_scalar2_spec ha.1
  exact ⟨h1, by rw [h2, ha.2]⟩

theorem Holds.mul_scalar3 {a : Mont} {x : ZMod P} (ha : Holds a x) :
    Holds (mul_scalar3 a) (3 * x) := by
  obtain ⟨h1, h2⟩ := mul_scalar3_spec ha.1
  exact ⟨h1, by rw [h2, ha.2]⟩

theorem Holds.mul_scalar4 {a : Mont} {x : ZMod P} (ha : Holds a x) :
    Holds (mul_scalar4 a) (4 * x) := by
  obtain ⟨h1, h2⟩ := mul_scalar4_spec ha.1
  exact ⟨h1, by rw [h2, ha.2]⟩

theorem hp_mul {a b : Mont} {x : ZMod P} {i j : Nat} (ha : Holds a (x ^ i)) (hb : Holds b (x ^ j)) :
    Holds (mul a b) (x ^ (i + j)) := by
  rw [pow_add]; exact ha.mul hb

theorem hp_square {a : Mont} {x : ZMod P} {i : Nat} (ha : Holds a (x ^ i)) :
    Holds (square a) (x ^ (2 * i)) := by
  rw [Nat.two_mul, pow_add]; exact ha.square

theorem hp_squares : ∀ (n : Nat) {a : Mont} {x : ZMod P} {i : Nat}, Holds a (x ^ i) →
    Holds (squares n a) (x ^ (2 ^ n * i))
  | 0, a, x, i, h => by simpa [squares] using h
  | n + 1, a, x, i, h => by
    rw [squares]
    have := hp_squares n (hp_square h)
    rwa [← Nat.mul_assoc, ← pow_succ] at this

theorem fermat (x : ZMod P) : x ^ (P - 2) = x⁻¹ := by
  have hP : 2 < P := by decide +kernel
  by_cases h : x = 0
  · subst h
    rw [zero_pow (by omega), inv_zero]
  · have h1 := ZMod.pow_card_sub_one_eq_one h
    have e : P - 1 = P - 2 + 1 := by omega
    rw [e, pow_succ] at h1
    exact eq_inv_of_mul_eq_one_left h1

/-- The inverse by the exponent `P - 2`; zero has the inverse zero. -/
theorem Holds.inv {a : Mont} {x : ZMod P} (ha : Holds a x) : Holds (inv a) x⁻¹ := by
  have h1 : Holds a (x ^ 1) := by rwa [pow_one]
  have e2 := hp_mul (hp_square h1) h1
  have e4 := hp_mul (hp_square (hp_square e2)) e2
  have e8 := hp_mul (hp_squares 4 e4) e4
  have e16 := hp_mul (hp_squares 8 e8) e8
  have e32 := hp_mul (hp_squares 16 e16) e16
  have e64 := hp_squares 32 e32
  have t1 := hp_squares 192 (hp_mul e64 h1)
  have u1 := hp_mul (hp_squares 16 (hp_mul e64 e32)) e16
  have u2 := hp_mul (hp_squares 8 u1) e8
  have u3 := hp_mul (hp_squares 4 u2) e4
  have u4 := hp_mul (hp_square (hp_square u3)) e2
  have u5 := hp_mul (hp_square (hp_square u4)) h1
  have u6 := hp_mul u5 t1
  rw [← fermat]
  have e : Mont.inv a = _ := rfl
  have key : ∀ k, k = P - 2 → Holds (Mont.inv a) (x ^ k) → Holds (Mont.inv a) (x ^ (P - 2)) := by
    intro k hk h; rwa [hk] at h
  refine key _ ?_ u6
  decide +kernel

theorem toLimbs_spec : ∀ (n : Nat) (even : Bool) (x : Int256), x ≠ [] →
    (toLimbs n even x).length = n ∧ Bounded (2 ^ 29) (2 ^ 28) even (toLimbs n even x) ∧
      wval even (toLimbs n even x) = val x % wt even n
  | 0, even, x, _ => by simp [toLimbs, Bounded, wval, wt, Nat.mod_one]
  | n + 1, true, x, hx => by
    obtain ⟨l, h1⟩ := Int256.shr_spec 29 (by decide) (by decide) x
    have hx' : Int256.shr 29 x ≠ [] := by
      intro h; rw [h] at l; exact hx (List.length_eq_zero_iff.1 l.symm)
    obtain ⟨g1, g2, g3⟩ := toLimbs_spec n false (Int256.shr 29 x) hx'
    have hd : (Int256.digit x 0 &&& BOTTOM_29_BITS).toNat = val x % 2 ^ 29 := by
      rw [mask29]
      have := getD_toNat x 0 (List.length_pos_iff.2 hx)
      unfold Int256.digit
      rw [this]
      omega
    rw [toLimbs]
    simp only [if_true, Bool.not_true]
    refine ⟨by simp [g1], ⟨by rw [hd]; omega, g2⟩, ?_⟩
    simp only [wval, wt, hd, g3, h1]
    rw [show (29 : UInt32).toNat = 29 from rfl]
    rw [Nat.mod_mul]
  | n + 1, false, x, hx => by
    obtain ⟨l, h1⟩ := Int256.shr_spec 28 (by decide) (by decide) x
    have hx' : Int256.shr 28 x ≠ [] := by
      intro h; rw [h] at l; exact hx (List.length_eq_zero_iff.1 l.symm)
    obtain ⟨g1, g2, g3⟩ := toLimbs_spec n true (Int256.shr 28 x) hx'
    have hd : (Int256.digit x 0 &&& BOTTOM_28_BITS).toNat = val x % 2 ^ 28 := by
      rw [mask28]
      have := getD_toNat x 0 (List.length_pos_iff.2 hx)
      unfold Int256.digit
      rw [this]
      omega
    rw [toLimbs]
    simp only [Bool.false_eq_true, if_false, Bool.not_false]
    refine ⟨by simp [g1], ⟨by rw [hd]; omega, g2⟩, ?_⟩
    simp only [wval, wt, hd, g3, h1]
    rw [show (28 : UInt32).toNat = 28 from rfl]
    rw [Nat.mod_mul]

theorem bounded_mono {b29 b28 c29 c28 : Nat} (h1 : b29 ≤ c29) (h2 : b28 ≤ c28) :
    ∀ (even : Bool) (l : List UInt32), Bounded b29 b28 even l → Bounded c29 c28 even l
  | _, [], _ => by simp [Bounded]
  | true, a :: l, h => ⟨by have := h.1; omega, bounded_mono h1 h2 false l h.2⟩
  | false, a :: l, h => ⟨by have := h.1; omega, bounded_mono h1 h2 true l h.2⟩

set_option exponentiation.threshold 256 in
theorem R_val : (val Int256.R : ZMod P) = 2 ^ 257 := by
  have h : val Int256.R = 2 ^ 257 % P := by decide +kernel
  rw [h, ZMod.natCast_mod, Nat.cast_pow, Nat.cast_ofNat]

set_option exponentiation.threshold 256 in
theorem R_INV_val : (val Int256.R_INV : ZMod P) * 2 ^ 257 = 1 := by
  have h : val Int256.R_INV * 2 ^ 257 % P = 1 % P := by decide +kernel
  have := (ZMod.natCast_eq_natCast_iff' _ _ P).2 h
  rwa [Nat.cast_mul, Nat.cast_pow, Nat.cast_ofNat, Nat.cast_one] at this

theorem field_to_montgomery_spec {x : Gfp} (hx : Wf x) :
    Holds (field_to_montgomery x) x.toF := by
  obtain ⟨w, h⟩ := Int256.modmul_spec hx (show Wf Int256.R from rfl) wf_P P_big
  have hne : Gfp.mul x Int256.R ≠ [] := by
    intro e
    have : Wf (Gfp.mul x Int256.R) := w
    rw [e] at this
    simp [Wf] at this
  obtain ⟨g1, g2, g3⟩ := toLimbs_spec 9 true (Gfp.mul x Int256.R) hne
  have hv : val (Gfp.mul x Int256.R) = val x * val Int256.R % P := by
    rw [← val_P]; exact h
  have hlt : val (Gfp.mul x Int256.R) < 2 ^ 256 := by
    rw [hv]
    have : val x * val Int256.R % P < P := Nat.mod_lt _ (by decide +kernel)
    have : P < 2 ^ 256 := by decide +kernel
    omega
  rw [wt9] at g3
  have hw : wval true (field_to_montgomery x) = val (Gfp.mul x Int256.R) := by
    unfold field_to_montgomery
    rw [g3, Nat.mod_eq_of_lt (by omega)]
  refine ⟨⟨g1, bounded_mono (by norm_num) (by norm_num) _ _ g2, by rw [hw]; omega⟩, ?_⟩
  unfold toF Gfp.toF
  rw [hw, hv]
  have h0 := two_pow_ne_zero
  rw [ZMod.natCast_mod]
  push_cast
  rw [R_val]
  generalize (2 : ZMod P) ^ 257 = w at *
  field_simp

theorem fieldStep_spec (m : Mont) (i : Nat) {r : Int256} (hr : Wf r) :
    Wf (fieldStep m i r).1 ∧
    (2 ^ (if i % 2 = 0 then 29 else 28) * val r + (m.getD i 0).toNat < 2 ^ 257 →
      val (fieldStep m i r).1 + 2 ^ 256 * (fieldStep m i r).2.toNat
        = 2 ^ (if i % 2 = 0 then 29 else 28) * val r + (m.getD i 0).toNat) := by
  obtain ⟨s, hs1, hs2, hs3⟩ : ∃ s : UInt32, (s = if i &&& 1 = 0 then 29 else 28) ∧
      (0 < s.toNat ∧ s.toNat < 32) ∧ s.toNat = if i % 2 = 0 then 29 else 28 := by
    refine ⟨_, rfl, ?_, ?_⟩
    · split <;> decide
    · rw [Nat.and_one_is_mod]
      split <;> rfl
  rw [← hs3]
  obtain ⟨w1, b1, v1⟩ := Int256.shl_spec hr s hs2.1 hs2.2
  obtain ⟨w2, b2, v2⟩ := Int256.add_digit_spec (Int256.shl r s).1 (m.getD i 0)
  have hne : (Int256.shl r s).1 ≠ [] := by
    intro e
    rw [e] at w1
    simp [Wf] at w1
  have b2' := b2 hne
  have hw1 : (Int256.shl r s).1.length = 8 := w1
  rw [hw1] at w2 v2
  have e : fieldStep m i r = ((Int256.add_digit (Int256.shl r s).1 (m.getD i 0)).1,
      (Int256.shl r s).2 ||| (Int256.add_digit (Int256.shl r s).1 (m.getD i 0)).2) := by
    unfold fieldStep
    rw [hs1]
  rw [e]
  refine ⟨w2, ?_⟩
  intro hlt
  have e32 : 4294967296 ^ 8 = 2 ^ 256 := by decide +kernel
  rw [e32] at v2
  simp only []
  generalize (Int256.add_digit (Int256.shl r s).1 (m.getD i 0)).2 = t2 at *
  generalize (Int256.shl r s).2 = t1 at *
  generalize 2 ^ s.toNat * val r = z at *
  rw [UInt32.toNat_or]
  have hor : t1.toNat ||| t2.toNat = t1.toNat + t2.toNat := by
    have : t1.toNat + t2.toNat ≤ 1 := by omega
    rcases Nat.eq_zero_or_pos t1.toNat with h | h
    · rw [h]; simp
    · have h2 : t2.toNat = 0 := by omega
      rw [h2]; simp
  rw [hor]
  omega

theorem montgomery_to_field_spec {m : Mont} (hm : Good m) (hlt : wval true m < 2 ^ 257) :
    Wf (montgomery_to_field m) ∧ val (montgomery_to_field m) < P ∧
      (montgomery_to_field m).toF = toF m := by
  obtain ⟨a0, a1, a2, a3, a4, a5, a6, a7, a8, rfl⟩ := nine hm.len
  rw [wval9] at hlt
  obtain ⟨w, hb, v8⟩ := Int256.add_digit_spec Int256.ZERO a8
  have hz : val Int256.ZERO = 0 := by decide +kernel
  rw [hz, Nat.add_zero] at v8
  have h8 := a8.toNat_lt
  have hwz : Int256.ZERO.length = 8 := rfl
  rw [hwz] at w v8
  have e32 : 4294967296 ^ 8 = 2 ^ 256 := by decide +kernel
  rw [e32] at v8
  have hv8 : val (Int256.add_digit Int256.ZERO a8).1 = a8.toNat := by
    have := (Int256.add_digit Int256.ZERO a8).2.toNat_lt
    omega
  generalize hr8 : (Int256.add_digit Int256.ZERO a8).1 = r8 at *
  clear v8 hb
  obtain ⟨w7, v7⟩ := fieldStep_spec [a0, a1, a2, a3, a4, a5, a6, a7, a8] 7 w
  obtain ⟨w6, v6⟩ := fieldStep_spec [a0, a1, a2, a3, a4, a5, a6, a7, a8] 6 w7
  obtain ⟨w5, v5⟩ := fieldStep_spec [a0, a1, a2, a3, a4, a5, a6, a7, a8] 5 w6
  obtain ⟨w4, v4⟩ := fieldStep_spec [a0, a1, a2, a3, a4, a5, a6, a7, a8] 4 w5
  obtain ⟨w3, v3⟩ := fieldStep_spec [a0, a1, a2, a3, a4, a5, a6, a7, a8] 3 w4
  obtain ⟨w2, v2⟩ := fieldStep_spec [a0, a1, a2, a3, a4, a5, a6, a7, a8] 2 w3
  obtain ⟨w1, v1⟩ := fieldStep_spec [a0, a1, a2, a3, a4, a5, a6, a7, a8] 1 w2
  obtain ⟨w0, v0⟩ := fieldStep_spec [a0, a1, a2, a3, a4, a5, a6, a7, a8] 0 w1
  have e : montgomery_to_field [a0, a1, a2, a3, a4, a5, a6, a7, a8] =
      Gfp.mul_top Int256.R_INV
        (fieldStep [a0, a1, a2, a3, a4, a5, a6, a7, a8] 0 (fieldStep [a0, a1, a2, a3, a4, a5, a6, a7, a8] 1
        (fieldStep [a0, a1, a2, a3, a4, a5, a6, a7, a8] 2 (fieldStep [a0, a1, a2, a3, a4, a5, a6, a7, a8] 3
        (fieldStep [a0, a1, a2, a3, a4, a5, a6, a7, a8] 4 (fieldStep [a0, a1, a2, a3, a4, a5, a6, a7, a8] 5
        (fieldStep [a0, a1, a2, a3, a4, a5, a6, a7, a8] 6 (fieldStep [a0, a1, a2, a3, a4, a5, a6, a7, a8] 7
          r8).1).1).1).1).1).1).1).1
        (fieldStep [a0, a1, a2, a3, a4, a5, a6, a7, a8] 0 (fieldStep [a0, a1, a2, a3, a4, a5, a6, a7, a8] 1
        (fieldStep [a0, a1, a2, a3, a4, a5, a6, a7, a8] 2 (fieldStep [a0, a1, a2, a3, a4, a5, a6, a7, a8] 3
        (fieldStep [a0, a1, a2, a3, a4, a5, a6, a7, a8] 4 (fieldStep [a0, a1, a2, a3, a4, a5, a6, a7, a8] 5
        (fieldStep [a0, a1, a2, a3, a4, a5, a6, a7, a8] 6 (fieldStep [a0, a1, a2, a3, a4, a5, a6, a7, a8] 7
          r8).1).1).1).1).1).1).1).2 := by
    have hrange : List.range 8 = [0, 1, 2, 3, 4, 5, 6, 7] := rfl
    unfold montgomery_to_field
    simp only [hrange, List.foldl_cons, List.foldl_nil, Nat.sub_zero, Nat.reduceSub,
      List.getD_cons_zero, List.getD_cons_succ]
    rw [hr8]
  rw [e]
  generalize fieldStep [a0, a1, a2, a3, a4, a5, a6, a7, a8] 7 r8 = r7 at *
  generalize fieldStep [a0, a1, a2, a3, a4, a5, a6, a7, a8] 6 r7.1 = r6 at *
  generalize fieldStep [a0, a1, a2, a3, a4, a5, a6, a7, a8] 5 r6.1 = r5 at *
  generalize fieldStep [a0, a1, a2, a3, a4, a5, a6, a7, a8] 4 r5.1 = r4 at *
  generalize fieldStep [a0, a1, a2, a3, a4, a5, a6, a7, a8] 3 r4.1 = r3 at *
  generalize fieldStep [a0, a1, a2, a3, a4, a5, a6, a7, a8] 2 r3.1 = r2 at *
  generalize fieldStep [a0, a1, a2, a3, a4, a5, a6, a7, a8] 1 r2.1 = r1 at *
  generalize fieldStep [a0, a1, a2, a3, a4, a5, a6, a7, a8] 0 r1.1 = r0 at *
  simp only [List.getD_cons_zero, List.getD_cons_succ, Nat.reduceMod, if_true, if_false,
    one_ne_zero] at v0 v1 v2 v3 v4 v5 v6 v7
  have f7 := v7 (by omega)
  have g7 : val r7.1 = 2 ^ 28 * val r8 + a7.toNat := by
    have := a7.toNat_lt; omega
  clear v7 f7
  have f6 := v6 (by omega)
  have g6 : val r6.1 = 2 ^ 29 * val r7.1 + a6.toNat := by
    have := a6.toNat_lt; omega
  clear v6 f6
  have f5 := v5 (by omega)
  have g5 : val r5.1 = 2 ^ 28 * val r6.1 + a5.toNat := by
    have := a5.toNat_lt; omega
  clear v5 f5
  have f4 := v4 (by omega)
  have g4 : val r4.1 = 2 ^ 29 * val r5.1 + a4.toNat := by
    have := a4.toNat_lt; omega
  clear v4 f4
  have f3 := v3 (by omega)
  have g3 : val r3.1 = 2 ^ 28 * val r4.1 + a3.toNat := by
    have := a3.toNat_lt; omega
  clear v3 f3
  have f2 := v2 (by omega)
  have g2 : val r2.1 = 2 ^ 29 * val r3.1 + a2.toNat := by
    have := a2.toNat_lt; omega
  clear v2 f2
  have f1 := v1 (by omega)
  have g1 : val r1.1 = 2 ^ 28 * val r2.1 + a1.toNat := by
    have := a1.toNat_lt; omega
  clear v1 f1
  have f0 := v0 (by omega)
  have key : val r0.1 + 2 ^ 256 * r0.2.toNat = wval true [a0, a1, a2, a3, a4, a5, a6, a7, a8] := by
    rw [wval9]; omega
  obtain ⟨x1, x2⟩ := Int256.modmul_top_spec r0.2 (show Wf Int256.R_INV from rfl) w0 wf_P P_big
  rw [key, val_P] at x2
  refine ⟨x1, ?_, ?_⟩
  · show val (Int256.modmul_top Int256.R_INV r0.1 r0.2 Int256.P) < P
    rw [x2]
    exact Nat.mod_lt _ (by decide +kernel)
  · show ((val (Int256.modmul_top Int256.R_INV r0.1 r0.2 Int256.P) : Nat) : ZMod P) = _
    rw [x2, ZMod.natCast_mod]
    push_cast
    unfold toF
    have h0 := two_pow_ne_zero
    have hR := R_INV_val
    generalize (2 : ZMod P) ^ 257 = w at *
    field_simp
    linear_combination (wval true [a0, a1, a2, a3, a4, a5, a6, a7, a8] : ZMod P) * hR

end Mont

end Verif.P256
