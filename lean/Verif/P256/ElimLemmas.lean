import Verif.P256.ReduceLemmas

/-! The elimination of the low limbs in the reduction of products: each step adds a multiple of the
    field order. Limbs may be -1 in between. -/

namespace Verif.P256

namespace Mont

/-- A limb as a signed number; only -1 occurs below zero. -/
def sv (l : UInt32) : Int := if l.toNat = 2 ^ 32 - 1 then -1 else (l.toNat : Int)

theorem sv_of {l : UInt32} {t : Int} (h : (l.toNat : Int) = t % 2 ^ 32) (h1 : -1 ≤ t)
    (h2 : t < 2 ^ 32 - 1) : sv l = t := by
  unfold sv
  split <;> omega

theorem sv_mod (l : UInt32) : (l.toNat : Int) = sv l % 2 ^ 32 := by
  have := l.toNat_lt
  unfold sv
  split <;> omega

theorem sv_ge (l : UInt32) : -1 ≤ sv l := by
  unfold sv
  split <;> omega

theorem sv_small {l : UInt32} (h : l.toNat < 2 ^ 32 - 1) : sv l = l.toNat := by
  unfold sv
  rw [if_neg (by omega)]

/-- The value of nine limbs, the first of 29 bits. -/
def evW (t0 t1 t2 t3 t4 t5 t6 t7 t8 : Int) : Int :=
  t0 + 2 ^ 29 * t1 + 2 ^ 57 * t2 + 2 ^ 86 * t3 + 2 ^ 114 * t4 + 2 ^ 143 * t5 + 2 ^ 171 * t6 +
    2 ^ 200 * t7 + 2 ^ 228 * t8

/-- The value of nine limbs, the first of 28 bits. -/
def odW (t0 t1 t2 t3 t4 t5 t6 t7 t8 : Int) : Int :=
  t0 + 2 ^ 28 * t1 + 2 ^ 57 * t2 + 2 ^ 85 * t3 + 2 ^ 114 * t4 + 2 ^ 142 * t5 + 2 ^ 171 * t6 +
    2 ^ 199 * t7 + 2 ^ 228 * t8

/-- Upper bounds of the first eight limbs. -/
def Ubd (t0 t1 t2 t3 t4 t5 t6 t7 : Int) : Prop :=
  t0 < 6 * 2 ^ 29 + 2 ^ 21 + 2 ^ 11 + 16 ∧ t1 < 6 * 2 ^ 29 + 2 ^ 21 + 2 ^ 11 ∧
  t2 < 6 * 2 ^ 29 + 2 ^ 21 + 2 ^ 11 ∧ t3 < 5 * 2 ^ 29 + 2 ^ 21 + 2 ^ 11 ∧
  t4 < 5 * 2 ^ 29 + 2 ^ 21 ∧ t5 < 5 * 2 ^ 29 + 2 ^ 21 ∧ t6 < 4 * 2 ^ 29 + 2 ^ 21 ∧ t7 < 3 * 2 ^ 29

/-- Before an even limb is eliminated: only odd limbs are -1, and then the limb before is large. -/
def EvI (t0 t1 t2 t3 t4 t5 t6 t7 t8 : Int) : Prop :=
  (0 ≤ t0 ∧ 0 ≤ t2 ∧ 0 ≤ t4 ∧ 0 ≤ t6 ∧ 0 ≤ t8) ∧
  (0 ≤ t1 ∨ (t1 = -1 ∧ 2 ^ 29 ≤ t0)) ∧ (0 ≤ t3 ∨ (t3 = -1 ∧ 2 ^ 29 ≤ t2)) ∧
  (0 ≤ t5 ∨ (t5 = -1 ∧ 2 ^ 29 ≤ t4)) ∧ (0 ≤ t7 ∨ (t7 = -1 ∧ 2 ^ 29 ≤ t6))

/-- Before an odd limb is eliminated: positions 2, 4, 6, 8 from it can be -1. -/
def OdI (t0 t1 t2 t3 t4 t5 t6 t7 t8 : Int) : Prop :=
  (0 ≤ t0 ∧ 0 ≤ t1 ∧ 0 ≤ t3 ∧ 0 ≤ t5 ∧ 0 ≤ t7) ∧
  (0 ≤ t2 ∨ (t2 = -1 ∧ 2 ^ 29 ≤ t1)) ∧ (0 ≤ t4 ∨ (t4 = -1 ∧ 2 ^ 29 ≤ t3)) ∧
  (0 ≤ t6 ∨ (t6 = -1 ∧ 2 ^ 29 ≤ t5)) ∧ (0 ≤ t8 ∨ (t8 = -1 ∧ 2 ^ 29 ≤ t7))

theorem arithEven (x A3 A4 A6 A7 B7 B8 C8 C9 : Nat) (hx : x < 2 ^ 29)
    (hA3 : A3 = x * 2 ^ 10 % 2 ^ 28) (hA4 : A4 = x / 2 ^ 18) (hA6 : A6 = x * 2 ^ 21 % 2 ^ 29)
    (hA7 : A7 = x / 2 ^ 8) (hB7 : B7 = x * 2 ^ 24 % 2 ^ 28) (hB8 : B8 = x / 2 ^ 4)
    (hC8 : C8 = x * 2 ^ 28 % 2 ^ 29) (hC9 : C9 = x / 2 ^ 1) :
    (x * 2 ^ 10 = A3 + 2 ^ 28 * A4 ∧ x * 2 ^ 21 = A6 + 2 ^ 29 * A7 ∧
    x * 2 ^ 24 = B7 + 2 ^ 28 * B8 ∧ x * 2 ^ 28 = C8 + 2 ^ 29 * C9) ∧
    B7 ≤ 2 ^ 28 - 2 ^ 24 ∧ C8 ≤ 2 ^ 28 ∧
    A3 < 2 ^ 28 ∧ A6 < 2 ^ 29 ∧ A4 < 2 ^ 11 ∧
    A7 < 2 ^ 21 ∧ B8 < 2 ^ 25 ∧ C9 < 2 ^ 28 ∧
    (x = 1 → C8 = 2 ^ 28) ∧ (C9 = 0 → x ≤ 1) := by
  refine ⟨⟨?_, ?_, ?_, ?_⟩, ?_, ?_, ?_, ?_, ?_, ?_, ?_, ?_, ?_, ?_⟩
  · clear hA6 hA7 hB7 hB8 hC8 hC9; omega
  · clear hA3 hA4 hB7 hB8 hC8 hC9; omega
  · clear hA3 hA4 hA6 hA7 hC8 hC9; omega
  · clear hA3 hA4 hA6 hA7 hB7 hB8; omega
  · clear hA3 hA4 hA6 hA7 hC8 hC9 hB8; omega
  · clear hA3 hA4 hA6 hA7 hB7 hB8 hC9; omega
  · clear hA6 hA7 hB7 hB8 hC8 hC9 hA4; omega
  · clear hA3 hA4 hB7 hB8 hC8 hC9 hA7; omega
  · clear hA6 hA7 hB7 hB8 hC8 hC9 hA3; omega
  · clear hA3 hA4 hB7 hB8 hC8 hC9 hA6; omega
  · clear hA3 hA4 hA6 hA7 hC8 hC9 hB7; omega
  · clear hA3 hA4 hA6 hA7 hB7 hB8 hC8; omega
  · intro h; subst h; rw [hC8]; decide
  · clear hA3 hA4 hA6 hA7 hB7 hB8 hC8; omega

theorem elimEven_spec (l0 l1 l2 l3 l4 l5 l6 l7 l8 l9 : UInt32) (ls : List UInt32)
    (hI : EvI (sv l0) (sv l1) (sv l2) (sv l3) (sv l4) (sv l5) (sv l6) (sv l7) (sv l8))
    (hU : Ubd (sv l0) (sv l1) (sv l2) (sv l3) (sv l4) (sv l5) (sv l6) (sv l7))
    (h8 : sv l8 < 2 ^ 29 + 2 ^ 28) (h9 : l9.toNat < 2 ^ 32 - 2 ^ 28) :
    ∃ (m0 m1 m2 m3 m4 m5 m6 m7 m8 : UInt32) (x : Nat),
      elimEven (l0 :: l1 :: l2 :: l3 :: l4 :: l5 :: l6 :: l7 :: l8 :: l9 :: ls)
        = m0 :: m1 :: m2 :: m3 :: m4 :: m5 :: m6 :: m7 :: m8 :: ls ∧
      OdI (sv m0) (sv m1) (sv m2) (sv m3) (sv m4) (sv m5) (sv m6) (sv m7) (sv m8) ∧
      Ubd (sv m0) (sv m1) (sv m2) (sv m3) (sv m4) (sv m5) (sv m6) (sv m7) ∧
      sv m8 < l9.toNat + 2 ^ 28 ∧ x < 2 ^ 29 ∧
      2 ^ 29 * odW (sv m0) (sv m1) (sv m2) (sv m3) (sv m4) (sv m5) (sv m6) (sv m7) (sv m8)
        = evW (sv l0) (sv l1) (sv l2) (sv l3) (sv l4) (sv l5) (sv l6) (sv l7) (sv l8)
          + 2 ^ 257 * l9.toNat + x * P := by
  have hx := mask29 l0
  obtain ⟨H, hH0⟩ : ∃ A, A = l0.toNat / 2 ^ 29 := ⟨_, rfl⟩
  have h0' : (l0 >>> 29).toNat = H := by rw [hH0]; exact shr29 l0
  rw [elimEven]
  generalize l0 &&& BOTTOM_29_BITS = x at *
  have hxl : x.toNat < 2 ^ 29 := by omega
  have hH : l0.toNat = x.toNat + 2 ^ 29 * H := by omega
  clear hH0 hx
  obtain ⟨A3, hA3⟩ : ∃ A, A = x.toNat * 2 ^ 10 % 2 ^ 28 := ⟨_, rfl⟩
  obtain ⟨A4, hA4⟩ : ∃ A, A = x.toNat / 2 ^ 18 := ⟨_, rfl⟩
  obtain ⟨A6, hA6⟩ : ∃ A, A = x.toNat * 2 ^ 21 % 2 ^ 29 := ⟨_, rfl⟩
  obtain ⟨A7, hA7⟩ : ∃ A, A = x.toNat / 2 ^ 8 := ⟨_, rfl⟩
  obtain ⟨B7, hB7⟩ : ∃ A, A = x.toNat * 2 ^ 24 % 2 ^ 28 := ⟨_, rfl⟩
  obtain ⟨B8, hB8⟩ : ∃ A, A = x.toNat / 2 ^ 4 := ⟨_, rfl⟩
  obtain ⟨C8, hC8⟩ : ∃ A, A = x.toNat * 2 ^ 28 % 2 ^ 29 := ⟨_, rfl⟩
  obtain ⟨C9, hC9⟩ : ∃ A, A = x.toNat / 2 ^ 1 := ⟨_, rfl⟩
  have a3 : ((x <<< 10) &&& BOTTOM_28_BITS).toNat = A3 := by
    rw [hA3, mask28, shl_toNat _ 10 (by decide), show (10 : UInt32).toNat = 10 from rfl]; omega
  have a4 : (x >>> 18).toNat = A4 := by
    rw [hA4]; exact shr_toNat _ 18 (by decide)
  have a6 : ((x <<< 21) &&& BOTTOM_29_BITS).toNat = A6 := by
    rw [hA6, mask29, shl_toNat _ 21 (by decide), show (21 : UInt32).toNat = 21 from rfl]; omega
  have a7 : (x >>> 8).toNat = A7 := by
    rw [hA7]; exact shr_toNat _ 8 (by decide)
  have b7 : ((x <<< 24) &&& BOTTOM_28_BITS).toNat = B7 := by
    rw [hB7, mask28, shl_toNat _ 24 (by decide), show (24 : UInt32).toNat = 24 from rfl]; omega
  have b8 : (x >>> 4).toNat = B8 := by
    rw [hB8]; exact shr_toNat _ 4 (by decide)
  have c8 : ((x <<< 28) &&& BOTTOM_29_BITS).toNat = C8 := by
    rw [hC8, mask29, shl_toNat _ 28 (by decide), show (28 : UInt32).toNat = 28 from rfl]; omega
  have c9 : (x >>> 1).toNat = C9 := by
    rw [hC9]; exact shr_toNat _ 1 (by decide)
  have n28 : (0x10000000 : UInt32).toNat = 2 ^ 28 := rfl
  have n29 : (0x20000000 : UInt32).toNat = 2 ^ 29 := rfl
  have n1 : (1 : UInt32).toNat = 1 := rfl
  have n0 : (0 : UInt32).toNat = 0 := rfl
  obtain ⟨⟨q34, q67, q78, q89⟩, r7, r8, ra3, ra6, ra4, ra7, rb8, rc9, r8', rc9'⟩ :=
    arithEven x.toNat A3 A4 A6 A7 B7 B8 C8 C9 hxl hA3 hA4 hA6 hA7 hB7 hB8 hC8 hC9
  clear hA3 hA4 hA6 hA7 hB7 hB8 hC8 hC9
  obtain ⟨⟨i0, i2, i4, i6, i8⟩, i1, i3, i5, i7⟩ := hI
  obtain ⟨u0, u1, u2, u3, u4, u5, u6, u7⟩ := hU
  have s0 := sv_mod l0
  have s1 := sv_mod l1
  have s3 := sv_mod l3
  have s4 := sv_mod l4
  have s6 := sv_mod l6
  have s7 := sv_mod l7
  have s8 := sv_mod l8
  have hl0 : (l0.toNat : Int) = sv l0 := by omega
  have e0 : sv (l1 + (l0 >>> 29)) = sv l1 + H := by
    apply sv_of
    · rw [UInt32.toNat_add, h0']; omega
    · omega
    · omega
  have e2 : sv (l3 + ((x <<< 10) &&& BOTTOM_28_BITS)) = sv l3 + A3 := by
    apply sv_of
    · rw [UInt32.toNat_add, a3]; omega
    · omega
    · omega
  have e3 : sv (l4 + (x >>> 18)) = sv l4 + A4 := by
    apply sv_of
    · rw [UInt32.toNat_add, a4]; omega
    · omega
    · omega
  have e5 : sv (l6 + ((x <<< 21) &&& BOTTOM_29_BITS)) = sv l6 + A6 := by
    apply sv_of
    · rw [UInt32.toNat_add, a6]; omega
    · omega
    · omega
  have hz : x = 0 ∨ 0 < x.toNat := by
    rcases Nat.eq_zero_or_pos x.toNat with h | h
    · left; exact UInt32.toNat_inj.1 (by rw [h]; rfl)
    · exact Or.inr h
  rcases hz with hz | hz
  · subst hz
    have e6 : sv (l7 + ((0 : UInt32) >>> 8) + (if (0 : UInt32) == 0 then (0 : UInt32) else 0x10000000) -
        (((0 : UInt32) <<< 24) &&& BOTTOM_28_BITS)) = sv l7 := by
      simp [BOTTOM_28_BITS]
    have e7 : sv (l8 + (if (0 : UInt32) == 0 then (0 : UInt32) else (0 : UInt32) - 1) - ((0 : UInt32) >>> 4) +
        (if (0 : UInt32) == 0 then (0 : UInt32) else 0x20000000) - (0 : UInt32) +
        (((0 : UInt32) <<< 28) &&& BOTTOM_29_BITS)) = sv l8 := by
      simp [BOTTOM_29_BITS]
    have e8 : sv (l9 + (if (0 : UInt32) == 0 then (0 : UInt32) else ((0 : UInt32) >>> 1) - 1)) = l9.toNat := by
      simp; rw [sv_small (by omega)]
    refine ⟨_, _, _, _, _, _, _, _, _, 0, rfl, ?_, ?_, ?_, by omega, ?_⟩
    · rw [e0, e2, e3, e5, e6, e7, e8]
      unfold OdI
      refine ⟨?_, ?_, ?_, ?_, ?_⟩ <;> omega
    · rw [e0, e2, e3, e5, e6, e7]
      unfold Ubd
      refine ⟨?_, ?_, ?_, ?_, ?_, ?_, ?_, ?_⟩ <;> omega
    · rw [e8]; omega
    · rw [e0, e2, e3, e5, e6, e7, e8]
      unfold odW evW
      omega
  · have hne : (x == 0) = false := by
      rw [beq_eq_false_iff_ne]; rintro rfl; simp at hz
    have e6 : sv (l7 + (x >>> 8) + (if x == 0 then (0 : UInt32) else 0x10000000) -
        ((x <<< 24) &&& BOTTOM_28_BITS)) = sv l7 + A7 + 2 ^ 28 - B7 := by
      apply sv_of
      · rw [hne]
        simp only [Bool.false_eq_true, if_false]
        rw [UInt32.toNat_sub, UInt32.toNat_add, UInt32.toNat_add, a7, b7, n28]; omega
      · omega
      · omega
    have e7 : sv (l8 + (if x == 0 then (0 : UInt32) else x - 1) - (x >>> 4) +
        (if x == 0 then (0 : UInt32) else 0x20000000) - x +
        ((x <<< 28) &&& BOTTOM_29_BITS)) = sv l8 - 1 - B8 + 2 ^ 29 + C8 := by
      apply sv_of
      · rw [hne]
        simp only [Bool.false_eq_true, if_false]
        rw [UInt32.toNat_add, UInt32.toNat_sub, UInt32.toNat_add, UInt32.toNat_sub,
          UInt32.toNat_add, UInt32.toNat_sub, b8, c8, n29, n1]
        omega
      · omega
      · omega
    have e8 : sv (l9 + (if x == 0 then (0 : UInt32) else (x >>> 1) - 1)) = l9.toNat + C9 - 1 := by
      apply sv_of
      · rw [hne]
        simp only [Bool.false_eq_true, if_false]
        rw [UInt32.toNat_add, UInt32.toNat_sub, c9, n1]
        omega
      · omega
      · omega
    refine ⟨_, _, _, _, _, _, _, _, _, x.toNat, rfl, ?_, ?_, ?_, hxl, ?_⟩
    · rw [e0, e2, e3, e5, e6, e7, e8]
      unfold OdI
      refine ⟨?_, ?_, ?_, ?_, ?_⟩ <;> omega
    · rw [e0, e2, e3, e5, e6, e7]
      unfold Ubd
      refine ⟨?_, ?_, ?_, ?_, ?_, ?_, ?_, ?_⟩ <;> omega
    · rw [e8]; omega
    · rw [e0, e2, e3, e5, e6, e7, e8]
      unfold odW evW P
      omega

theorem arithOdd (x A3 A4 A6 A7 B7 B8 : Nat) (hx : x < 2 ^ 28)
    (hA3 : A3 = x * 2 ^ 11 % 2 ^ 29) (hA4 : A4 = x / 2 ^ 18) (hA6 : A6 = x * 2 ^ 21 % 2 ^ 28)
    (hA7 : A7 = x / 2 ^ 7) (hB7 : B7 = x * 2 ^ 25 % 2 ^ 29) (hB8 : B8 = x / 2 ^ 4) :
    (x * 2 ^ 11 = A3 + 2 ^ 29 * A4 ∧ x * 2 ^ 21 = A6 + 2 ^ 28 * A7 ∧
    x * 2 ^ 25 = B7 + 2 ^ 29 * B8) ∧
    B7 ≤ 2 ^ 29 - 2 ^ 25 ∧
    A3 < 2 ^ 29 ∧ A6 < 2 ^ 28 ∧ A4 < 2 ^ 10 ∧
    A7 < 2 ^ 21 ∧ B8 < 2 ^ 24 := by
  refine ⟨⟨?_, ?_, ?_⟩, ?_, ?_, ?_, ?_, ?_, ?_⟩
  · clear hA6 hA7 hB7 hB8; omega
  · clear hA3 hA4 hB7 hB8; omega
  · clear hA3 hA4 hA6 hA7; omega
  · clear hA3 hA4 hA6 hA7 hB8; omega
  · clear hA6 hA7 hB7 hB8 hA4; omega
  · clear hA3 hA4 hB7 hB8 hA7; omega
  · clear hA6 hA7 hB7 hB8 hA3; omega
  · clear hA3 hA4 hB7 hB8 hA6; omega
  · clear hA3 hA4 hA6 hA7 hB7; omega

theorem elimOdd_spec (l0 l1 l2 l3 l4 l5 l6 l7 l8 l9 : UInt32) (ls : List UInt32)
    (hI : OdI (sv l0) (sv l1) (sv l2) (sv l3) (sv l4) (sv l5) (sv l6) (sv l7) (sv l8))
    (hU : Ubd (sv l0) (sv l1) (sv l2) (sv l3) (sv l4) (sv l5) (sv l6) (sv l7))
    (h8 : sv l8 < 2 ^ 29 + 2 ^ 28) (h9 : l9.toNat < 2 ^ 29) :
    ∃ (m0 m1 m2 m3 m4 m5 m6 m7 m8 : UInt32) (x : Nat),
      elimOdd (l0 :: l1 :: l2 :: l3 :: l4 :: l5 :: l6 :: l7 :: l8 :: l9 :: ls)
        = m0 :: m1 :: m2 :: m3 :: m4 :: m5 :: m6 :: m7 :: m8 :: ls ∧
      EvI (sv m0) (sv m1) (sv m2) (sv m3) (sv m4) (sv m5) (sv m6) (sv m7) (sv m8) ∧
      Ubd (sv m0) (sv m1) (sv m2) (sv m3) (sv m4) (sv m5) (sv m6) (sv m7) ∧
      sv m8 < l9.toNat + 2 ^ 28 ∧ x < 2 ^ 28 ∧
      2 ^ 28 * evW (sv m0) (sv m1) (sv m2) (sv m3) (sv m4) (sv m5) (sv m6) (sv m7) (sv m8)
        = odW (sv l0) (sv l1) (sv l2) (sv l3) (sv l4) (sv l5) (sv l6) (sv l7) (sv l8)
          + 2 ^ 256 * l9.toNat + x * P := by
  have hx := mask28 l0
  obtain ⟨H, hH0⟩ : ∃ A, A = l0.toNat / 2 ^ 28 := ⟨_, rfl⟩
  have h0' : (l0 >>> 28).toNat = H := by rw [hH0]; exact shr28 l0
  rw [elimOdd]
  generalize l0 &&& BOTTOM_28_BITS = x at *
  have hxl : x.toNat < 2 ^ 28 := by omega
  have hH : l0.toNat = x.toNat + 2 ^ 28 * H := by omega
  clear hH0 hx
  obtain ⟨A3, hA3⟩ : ∃ A, A = x.toNat * 2 ^ 11 % 2 ^ 29 := ⟨_, rfl⟩
  obtain ⟨A4, hA4⟩ : ∃ A, A = x.toNat / 2 ^ 18 := ⟨_, rfl⟩
  obtain ⟨A6, hA6⟩ : ∃ A, A = x.toNat * 2 ^ 21 % 2 ^ 28 := ⟨_, rfl⟩
  obtain ⟨A7, hA7⟩ : ∃ A, A = x.toNat / 2 ^ 7 := ⟨_, rfl⟩
  obtain ⟨B7, hB7⟩ : ∃ A, A = x.toNat * 2 ^ 25 % 2 ^ 29 := ⟨_, rfl⟩
  obtain ⟨B8, hB8⟩ : ∃ A, A = x.toNat / 2 ^ 4 := ⟨_, rfl⟩
  have a3 : ((x <<< 11) &&& BOTTOM_29_BITS).toNat = A3 := by
    rw [hA3, mask29, shl_toNat _ 11 (by decide), show (11 : UInt32).toNat = 11 from rfl]; omega
  have a4 : (x >>> 18).toNat = A4 := by
    rw [hA4]; exact shr_toNat _ 18 (by decide)
  have a6 : ((x <<< 21) &&& BOTTOM_28_BITS).toNat = A6 := by
    rw [hA6, mask28, shl_toNat _ 21 (by decide), show (21 : UInt32).toNat = 21 from rfl]; omega
  have a7 : (x >>> 7).toNat = A7 := by
    rw [hA7]; exact shr_toNat _ 7 (by decide)
  have b7 : ((x <<< 25) &&& BOTTOM_29_BITS).toNat = B7 := by
    rw [hB7, mask29, shl_toNat _ 25 (by decide), show (25 : UInt32).toNat = 25 from rfl]; omega
  have b8 : (x >>> 4).toNat = B8 := by
    rw [hB8]; exact shr_toNat _ 4 (by decide)
  have n28 : (0x10000000 : UInt32).toNat = 2 ^ 28 := rfl
  have n29 : (0x20000000 : UInt32).toNat = 2 ^ 29 := rfl
  have n1 : (1 : UInt32).toNat = 1 := rfl
  have n0 : (0 : UInt32).toNat = 0 := rfl
  obtain ⟨⟨q34, q67, q78⟩, r7, ra3, ra6, ra4, ra7, rb8⟩ :=
    arithOdd x.toNat A3 A4 A6 A7 B7 B8 hxl hA3 hA4 hA6 hA7 hB7 hB8
  clear hA3 hA4 hA6 hA7 hB7 hB8
  obtain ⟨⟨i0, i1, i3, i5, i7⟩, i2, i4, i6, i8⟩ := hI
  obtain ⟨u0, u1, u2, u3, u4, u5, u6, u7⟩ := hU
  have s0 := sv_mod l0
  have s1 := sv_mod l1
  have s3 := sv_mod l3
  have s4 := sv_mod l4
  have s6 := sv_mod l6
  have s7 := sv_mod l7
  have s8 := sv_mod l8
  have hl0 : (l0.toNat : Int) = sv l0 := by omega
  have e0 : sv (l1 + (l0 >>> 28)) = sv l1 + H := by
    apply sv_of
    · rw [UInt32.toNat_add, h0']; omega
    · omega
    · omega
  have e2 : sv (l3 + ((x <<< 11) &&& BOTTOM_29_BITS)) = sv l3 + A3 := by
    apply sv_of
    · rw [UInt32.toNat_add, a3]; omega
    · omega
    · omega
  have e3 : sv (l4 + (x >>> 18)) = sv l4 + A4 := by
    apply sv_of
    · rw [UInt32.toNat_add, a4]; omega
    · omega
    · omega
  have e5 : sv (l6 + ((x <<< 21) &&& BOTTOM_28_BITS)) = sv l6 + A6 := by
    apply sv_of
    · rw [UInt32.toNat_add, a6]; omega
    · omega
    · omega
  have hz : x = 0 ∨ 0 < x.toNat := by
    rcases Nat.eq_zero_or_pos x.toNat with h | h
    · left; exact UInt32.toNat_inj.1 (by rw [h]; rfl)
    · exact Or.inr h
  rcases hz with hz | hz
  · subst hz
    have e6 : sv (l7 + ((0 : UInt32) >>> 7) + (if (0 : UInt32) == 0 then (0 : UInt32) else 0x20000000) -
        (((0 : UInt32) <<< 25) &&& BOTTOM_29_BITS)) = sv l7 := by
      simp [BOTTOM_29_BITS]
    have e7 : sv (l8 + (if (0 : UInt32) == 0 then (0 : UInt32) else (0 : UInt32) - 1) - ((0 : UInt32) >>> 4) +
        (if (0 : UInt32) == 0 then (0 : UInt32) else 0x10000000) - (0 : UInt32)) = sv l8 := by
      simp
    have e8 : sv (l9 + (if (0 : UInt32) == 0 then (0 : UInt32) else (0 : UInt32) - 1)) = l9.toNat := by
      simp; rw [sv_small (by omega)]
    refine ⟨_, _, _, _, _, _, _, _, _, 0, rfl, ?_, ?_, ?_, by omega, ?_⟩
    · rw [e0, e2, e3, e5, e6, e7, e8]
      unfold EvI
      refine ⟨?_, ?_, ?_, ?_, ?_⟩ <;> omega
    · rw [e0, e2, e3, e5, e6, e7]
      unfold Ubd
      refine ⟨?_, ?_, ?_, ?_, ?_, ?_, ?_, ?_⟩ <;> omega
    · rw [e8]; omega
    · rw [e0, e2, e3, e5, e6, e7, e8]
      unfold odW evW
      omega
  · have hne : (x == 0) = false := by
      rw [beq_eq_false_iff_ne]; rintro rfl; simp at hz
    have e6 : sv (l7 + (x >>> 7) + (if x == 0 then (0 : UInt32) else 0x20000000) -
        ((x <<< 25) &&& BOTTOM_29_BITS)) = sv l7 + A7 + 2 ^ 29 - B7 := by
      apply sv_of
      · rw [hne]
        simp only [Bool.false_eq_true, if_false]
        rw [UInt32.toNat_sub, UInt32.toNat_add, UInt32.toNat_add, a7, b7, n29]; omega
      · omega
      · omega
    have e7 : sv (l8 + (if x == 0 then (0 : UInt32) else x - 1) - (x >>> 4) +
        (if x == 0 then (0 : UInt32) else 0x10000000) - x) = sv l8 - 1 - B8 + 2 ^ 28 := by
      apply sv_of
      · rw [hne]
        simp only [Bool.false_eq_true, if_false]
        rw [UInt32.toNat_sub, UInt32.toNat_add, UInt32.toNat_sub,
          UInt32.toNat_add, UInt32.toNat_sub, b8, n28, n1]
        omega
      · omega
      · omega
    have e8 : sv (l9 + (if x == 0 then (0 : UInt32) else x - 1)) = l9.toNat + x.toNat - 1 := by
      apply sv_of
      · rw [hne]
        simp only [Bool.false_eq_true, if_false]
        rw [UInt32.toNat_add, UInt32.toNat_sub, n1]
        omega
      · omega
      · omega
    refine ⟨_, _, _, _, _, _, _, _, _, x.toNat, rfl, ?_, ?_, ?_, hxl, ?_⟩
    · rw [e0, e2, e3, e5, e6, e7, e8]
      unfold EvI
      refine ⟨?_, ?_, ?_, ?_, ?_⟩ <;> omega
    · rw [e0, e2, e3, e5, e6, e7]
      unfold Ubd
      refine ⟨?_, ?_, ?_, ?_, ?_, ?_, ?_, ?_⟩ <;> omega
    · rw [e8]; omega
    · rw [e0, e2, e3, e5, e6, e7, e8]
      unfold odW evW P
      omega

end Mont

end Verif.P256
