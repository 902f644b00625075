import Verif.P256.ElimLemmas
import Mathlib.Tactic.LinearCombination
import Mathlib.Tactic.FieldSimp

/-! Products in Montgomery form. -/

namespace Verif.P256

namespace Mont

set_option exponentiation.threshold 600

theorem eighteen {ms : List UInt32} (h : ms.length = 17) : ∃ a0 a1 a2 a3 a4 a5 a6 a7 a8 a9 a10 a11
    a12 a13 a14 a15 a16, ms = [a0, a1, a2, a3, a4, a5, a6, a7, a8, a9, a10, a11, a12, a13, a14,
      a15, a16] := by
  match ms, h with
  | [a0, a1, a2, a3, a4, a5, a6, a7, a8, a9, a10, a11, a12, a13, a14, a15, a16], _ =>
    exact ⟨a0, a1, a2, a3, a4, a5, a6, a7, a8, a9, a10, a11, a12, a13, a14, a15, a16, rfl⟩

theorem eliminate_spec {ms : List UInt32} {last : UInt32} (h : ms.length = 17)
    (hb : Bounded (2 ^ 29) (2 ^ 28) true ms) (hl : last.toNat ≤ 2 ^ 31 + 2 ^ 8) :
    ∃ (m0 m1 m2 m3 m4 m5 m6 m7 m8 : UInt32) (k : Nat),
      eliminate_terms (ms ++ [last]) = [m0, m1, m2, m3, m4, m5, m6, m7, m8] ∧
      OdI (sv m0) (sv m1) (sv m2) (sv m3) (sv m4) (sv m5) (sv m6) (sv m7) (sv m8) ∧
      Ubd (sv m0) (sv m1) (sv m2) (sv m3) (sv m4) (sv m5) (sv m6) (sv m7) ∧
      sv m8 < 2 ^ 31 + 2 ^ 29 ∧ k < 2 ^ 257 ∧
      2 ^ 257 * odW (sv m0) (sv m1) (sv m2) (sv m3) (sv m4) (sv m5) (sv m6) (sv m7) (sv m8)
        = (wval true (ms ++ [last]) : Int) + k * P := by
  obtain ⟨a0, a1, a2, a3, a4, a5, a6, a7, a8, a9, a10, a11, a12, a13, a14, a15, a16, rfl⟩ :=
    eighteen h
  obtain ⟨h0, h1, h2, h3, h4, h5, h6, h7, h8, h9, h10, h11, h12, h13, h14, h15, h16, -⟩ := hb
  have e0 := sv_small (l := a0) (by omega)
  have e1 := sv_small (l := a1) (by omega)
  have e2 := sv_small (l := a2) (by omega)
  have e3 := sv_small (l := a3) (by omega)
  have e4 := sv_small (l := a4) (by omega)
  have e5 := sv_small (l := a5) (by omega)
  have e6 := sv_small (l := a6) (by omega)
  have e7 := sv_small (l := a7) (by omega)
  have e8 := sv_small (l := a8) (by omega)
  have hI : EvI (sv a0) (sv a1) (sv a2) (sv a3) (sv a4) (sv a5) (sv a6) (sv a7) (sv a8) := by
    rw [e0, e1, e2, e3, e4, e5, e6, e7, e8]
    unfold EvI
    refine ⟨?_, ?_, ?_, ?_, ?_⟩ <;> omega
  have hU : Ubd (sv a0) (sv a1) (sv a2) (sv a3) (sv a4) (sv a5) (sv a6) (sv a7) := by
    rw [e0, e1, e2, e3, e4, e5, e6, e7]
    unfold Ubd
    refine ⟨?_, ?_, ?_, ?_, ?_, ?_, ?_, ?_⟩ <;> omega
  have hv : (wval true [a0, a1, a2, a3, a4, a5, a6, a7, a8, a9, a10, a11, a12, a13, a14, a15, a16,
      last] : Int) = evW (sv a0) (sv a1) (sv a2) (sv a3) (sv a4) (sv a5) (sv a6) (sv a7) (sv a8)
      + 2 ^ 257 * (a9.toNat + 2 ^ 28 * a10.toNat + 2 ^ 57 * a11.toNat + 2 ^ 85 * a12.toNat +
        2 ^ 114 * a13.toNat + 2 ^ 142 * a14.toNat + 2 ^ 171 * a15.toNat + 2 ^ 199 * a16.toNat +
        2 ^ 228 * last.toNat) := by
    rw [e0, e1, e2, e3, e4, e5, e6, e7, e8]
    unfold evW
    simp only [wval]
    push_cast
    ring
  clear e0 e1 e2 e3 e4 e5 e6 e7
  obtain ⟨b0, b1, b2, b3, b4, b5, b6, b7, b8, x0, E0, I0, U0, B0, X0, V0⟩ :=
    elimEven_spec a0 a1 a2 a3 a4 a5 a6 a7 a8 a9 [a10, a11, a12, a13, a14, a15, a16, last] hI hU
      (by omega) (by omega)
  obtain ⟨c0, c1, c2, c3, c4, c5, c6, c7, c8, x1, E1, I1, U1, B1, X1, V1⟩ :=
    elimOdd_spec b0 b1 b2 b3 b4 b5 b6 b7 b8 a10 [a11, a12, a13, a14, a15, a16, last] I0 U0
      (by omega) (by omega)
  obtain ⟨d0, d1, d2, d3, d4, d5, d6, d7, d8, x2, E2, I2, U2, B2, X2, V2⟩ :=
    elimEven_spec c0 c1 c2 c3 c4 c5 c6 c7 c8 a11 [a12, a13, a14, a15, a16, last] I1 U1
      (by omega) (by omega)
  obtain ⟨f0, f1, f2, f3, f4, f5, f6, f7, f8, x3, E3, I3, U3, B3, X3, V3⟩ :=
    elimOdd_spec d0 d1 d2 d3 d4 d5 d6 d7 d8 a12 [a13, a14, a15, a16, last] I2 U2
      (by omega) (by omega)
  obtain ⟨g0, g1, g2, g3, g4, g5, g6, g7, g8, x4, E4, I4, U4, B4, X4, V4⟩ :=
    elimEven_spec f0 f1 f2 f3 f4 f5 f6 f7 f8 a13 [a14, a15, a16, last] I3 U3
      (by omega) (by omega)
  obtain ⟨i0, i1, i2, i3, i4, i5, i6, i7, i8, x5, E5, I5, U5, B5, X5, V5⟩ :=
    elimOdd_spec g0 g1 g2 g3 g4 g5 g6 g7 g8 a14 [a15, a16, last] I4 U4
      (by omega) (by omega)
  obtain ⟨j0, j1, j2, j3, j4, j5, j6, j7, j8, x6, E6, I6, U6, B6, X6, V6⟩ :=
    elimEven_spec i0 i1 i2 i3 i4 i5 i6 i7 i8 a15 [a16, last] I5 U5
      (by omega) (by omega)
  obtain ⟨k0, k1, k2, k3, k4, k5, k6, k7, k8, x7, E7, I7, U7, B7, X7, V7⟩ :=
    elimOdd_spec j0 j1 j2 j3 j4 j5 j6 j7 j8 a16 [last] I6 U6
      (by omega) (by omega)
  obtain ⟨n0, n1, n2, n3, n4, n5, n6, n7, n8, x8, E8, I8, U8, B8, X8, V8⟩ :=
    elimEven_spec k0 k1 k2 k3 k4 k5 k6 k7 k8 last [] I7 U7
      (by omega) (by omega)
  refine ⟨n0, n1, n2, n3, n4, n5, n6, n7, n8, x0 + 2 ^ 29 * x1 + 2 ^ 57 * x2 + 2 ^ 86 * x3 +
    2 ^ 114 * x4 + 2 ^ 143 * x5 + 2 ^ 171 * x6 + 2 ^ 200 * x7 + 2 ^ 228 * x8, ?_, I8, U8,
    by omega, by omega, ?_⟩
  · simp only [List.cons_append, List.nil_append]
    unfold eliminate_terms
    rw [E0, E1, E2, E3, E4, E5, E6, E7, E8]
  · simp only [List.cons_append, List.nil_append]
    rw [hv]
    push_cast
    linear_combination V0 + 2 ^ 29 * V1 + 2 ^ 57 * V2 + 2 ^ 86 * V3 + 2 ^ 114 * V4 +
      2 ^ 143 * V5 + 2 ^ 171 * V6 + 2 ^ 200 * V7 + 2 ^ 228 * V8

/-- One turn of the loop of `compact_limbs`. -/
theorem compact_pair (t0 t1 c : UInt32) (hc : c.toNat ≤ 8) (h0 : 0 ≤ sv t0 + c.toNat)
    (h0' : sv t0 < 6 * 2 ^ 29 + 2 ^ 22) (h1 : 0 ≤ sv t1) (h1' : sv t1 < 6 * 2 ^ 29 + 2 ^ 22) :
    let a := t0 + c + ((t1 <<< 28) &&& BOTTOM_29_BITS)
    let b := (t1 >>> 1) + (a >>> 29)
    ((a &&& BOTTOM_29_BITS).toNat : Int) + 2 ^ 29 * (b &&& BOTTOM_28_BITS).toNat
        + 2 ^ 57 * (b >>> 28).toNat = sv t0 + 2 ^ 28 * sv t1 + c.toNat ∧
      (b >>> 28).toNat ≤ 8 ∧ (2 ^ 29 ≤ sv t1 → 1 ≤ (b >>> 28).toNat) ∧
      (a &&& BOTTOM_29_BITS).toNat < 2 ^ 29 ∧ (b &&& BOTTOM_28_BITS).toNat < 2 ^ 28 := by
  intro a b
  have s0 := sv_mod t0
  have s1 := sv_mod t1
  obtain ⟨z, hz⟩ : ∃ z, z = t1.toNat * 2 ^ 28 % 2 ^ 29 := ⟨_, rfl⟩
  have e1 : ((t1 <<< 28) &&& BOTTOM_29_BITS).toNat = z := by
    rw [hz, mask29, shl_toNat _ 28 (by decide), show (28 : UInt32).toNat = 28 from rfl]; omega
  have e2 : (t1 >>> 1).toNat = t1.toNat / 2 := shr_toNat t1 1 (by decide)
  have ht : t1.toNat * 2 ^ 28 = z + 2 ^ 29 * (t1.toNat / 2) := by omega
  have hz' : z ≤ 2 ^ 28 := by omega
  clear hz
  have ea : (a.toNat : Int) = sv t0 + c.toNat + z := by
    show ((t0 + c + ((t1 <<< 28) &&& BOTTOM_29_BITS)).toNat : Int) = _
    rw [UInt32.toNat_add, UInt32.toNat_add, e1]
    omega
  have eb : b.toNat = t1.toNat / 2 + a.toNat / 2 ^ 29 := by
    show ((t1 >>> 1) + (a >>> 29)).toNat = _
    rw [UInt32.toNat_add, e2, shr29]
    omega
  have ht1 : (t1.toNat : Int) = sv t1 := by omega
  rw [mask29, mask28, shr28]
  clear_value a b
  refine ⟨?_, ?_, ?_, ?_, ?_⟩ <;> omega

theorem compact_spec {t0 t1 t2 t3 t4 t5 t6 t7 t8 : UInt32}
    (hI : OdI (sv t0) (sv t1) (sv t2) (sv t3) (sv t4) (sv t5) (sv t6) (sv t7) (sv t8))
    (hU : Ubd (sv t0) (sv t1) (sv t2) (sv t3) (sv t4) (sv t5) (sv t6) (sv t7))
    (h8 : sv t8 < 2 ^ 31 + 2 ^ 29) :
    ∃ c : Nat, Good (compact_limbs [t0, t1, t2, t3, t4, t5, t6, t7, t8]) ∧
      (wval true (compact_limbs [t0, t1, t2, t3, t4, t5, t6, t7, t8]) : Int) + 2 * P * c
        = odW (sv t0) (sv t1) (sv t2) (sv t3) (sv t4) (sv t5) (sv t6) (sv t7) (sv t8) ∧
      (c = 0 → wval true (compact_limbs [t0, t1, t2, t3, t4, t5, t6, t7, t8]) < 2 ^ 257) := by
  obtain ⟨⟨i0, i1, i3, i5, i7⟩, i2, i4, i6, i8⟩ := hI
  obtain ⟨u0, u1, u2, u3, u4, u5, u6, u7⟩ := hU
  have c0 := compact_pair t0 t1 0 (by decide) (by simpa using i0) (by omega) i1 (by omega)
  simp only [] at c0
  rw [compact_limbs, compactLoop]
  generalize ha0 : t0 + (0 : UInt32) + ((t1 <<< 28) &&& BOTTOM_29_BITS) = a0 at *
  generalize hb0 : (t1 >>> 1) + (a0 >>> 29) = b0 at *
  obtain ⟨v0, w0, z0, ba0, bb0⟩ := c0
  have c1 := compact_pair t2 t3 (b0 >>> 28) w0 (by omega) (by omega) i3 (by omega)
  simp only [] at c1
  rw [compactLoop]
  generalize ha1 : t2 + (b0 >>> 28) + ((t3 <<< 28) &&& BOTTOM_29_BITS) = a1 at *
  generalize hb1 : (t3 >>> 1) + (a1 >>> 29) = b1 at *
  obtain ⟨v1, w1, z1, ba1, bb1⟩ := c1
  have c2 := compact_pair t4 t5 (b1 >>> 28) w1 (by omega) (by omega) i5 (by omega)
  simp only [] at c2
  rw [compactLoop]
  generalize ha2 : t4 + (b1 >>> 28) + ((t5 <<< 28) &&& BOTTOM_29_BITS) = a2 at *
  generalize hb2 : (t5 >>> 1) + (a2 >>> 29) = b2 at *
  obtain ⟨v2, w2, z2, ba2, bb2⟩ := c2
  have c3 := compact_pair t6 t7 (b2 >>> 28) w2 (by omega) (by omega) i7 (by omega)
  simp only [] at c3
  rw [compactLoop]
  generalize ha3 : t6 + (b2 >>> 28) + ((t7 <<< 28) &&& BOTTOM_29_BITS) = a3 at *
  generalize hb3 : (t7 >>> 1) + (a3 >>> 29) = b3 at *
  obtain ⟨v3, w3, z3, ba3, bb3⟩ := c3
  have s8 := sv_mod t8
  have e8 : ((t8 + (b3 >>> 28)).toNat : Int) = sv t8 + (b3 >>> 28).toNat := by
    rw [UInt32.toNat_add]
    omega
  rw [compactLoop]
  simp only []
  generalize hg8 : t8 + (b3 >>> 28) = g8 at *
  have m8 := mask29 g8
  have r8 := shr29 g8
  have hc : (g8 >>> 29).toNat ≤ 7 := by omega
  have hlen : [a0 &&& BOTTOM_29_BITS, b0 &&& BOTTOM_28_BITS, a1 &&& BOTTOM_29_BITS,
    b1 &&& BOTTOM_28_BITS, a2 &&& BOTTOM_29_BITS, b2 &&& BOTTOM_28_BITS, a3 &&& BOTTOM_29_BITS,
    b3 &&& BOTTOM_28_BITS, g8 &&& BOTTOM_29_BITS].length = 9 := rfl
  have hbd : Bounded (2 ^ 29) (2 ^ 28) true [a0 &&& BOTTOM_29_BITS, b0 &&& BOTTOM_28_BITS,
    a1 &&& BOTTOM_29_BITS, b1 &&& BOTTOM_28_BITS, a2 &&& BOTTOM_29_BITS, b2 &&& BOTTOM_28_BITS,
    a3 &&& BOTTOM_29_BITS, b3 &&& BOTTOM_28_BITS, g8 &&& BOTTOM_29_BITS] :=
    ⟨ba0, bb0, ba1, bb1, ba2, bb2, ba3, bb3, by omega, trivial⟩
  obtain ⟨f1, f2⟩ := reduce_carry_spec hlen hbd (g8 >>> 29) hc
  have hlt := wval_lt hlen hbd
  refine ⟨(g8 >>> 29).toNat, f1, ?_, ?_⟩
  · have f2' := congrArg (Nat.cast : Nat → Int) f2
    rw [wval9] at f2'
    push_cast at f2'
    rw [UInt32.toNat_zero] at v0
    have e29 : (g8.toNat : Int) = (g8 &&& BOTTOM_29_BITS).toNat + 2 ^ 29 * (g8 >>> 29).toNat := by
      omega
    unfold odW
    push_cast at v0 v1 v2 v3 e8 ⊢
    linear_combination f2' + v0 + 2 ^ 57 * v1 + 2 ^ 114 * v2 + 2 ^ 171 * v3 + 2 ^ 228 * e8
      - 2 ^ 228 * e29
  · intro hc0
    rw [hc0] at f2
    omega

/-- The reduction divides by 2^257 modulo the field order. -/
theorem reduce_degree_spec {bs : List UInt64} (h : bs.length = 17)
    (hl : ∀ x, bs.getLast? = some x → x.toNat < 2 ^ 60)
    (hv : wval64 true bs < (2 ^ 257 + 2 ^ 228) ^ 2) :
    Good (reduce_degree bs) ∧ wval true (reduce_degree bs) < 2 ^ 257 ∧
      (wval true (reduce_degree bs) : ZMod P) * 2 ^ 257 = (wval64 true bs : ZMod P) := by
  obtain ⟨ms, last, p1, p2, p3, p4, p5⟩ := propagate_carry_spec h hl
  obtain ⟨m0, m1, m2, m3, m4, m5, m6, m7, m8, k, q1, q2, q3, q4, q5, q6⟩ :=
    eliminate_spec p2 p3 p4
  obtain ⟨c, r1, r2, r3⟩ := compact_spec q2 q3 q4
  rw [← p1, p5] at q6
  rw [← p1] at q1
  have e : reduce_degree bs = compact_limbs [m0, m1, m2, m3, m4, m5, m6, m7, m8] := by
    unfold reduce_degree; rw [q1]
  rw [e]
  rw [← r2] at q6
  generalize wval true (compact_limbs [m0, m1, m2, m3, m4, m5, m6, m7, m8]) = w at *
  have hq : 2 ^ 257 * (w + 2 * P * c) = wval64 true bs + k * P := by exact_mod_cast q6
  refine ⟨r1, ?_, ?_⟩
  · rcases Nat.eq_zero_or_pos c with h0 | h0
    · exact r3 h0
    · have hkP : k * P ≤ 2 ^ 257 * P := Nat.mul_le_mul_right _ (by omega)
      have hPc : 2 * P * 1 ≤ 2 * P * c := Nat.mul_le_mul_left _ h0
      generalize 2 * P * c = y at *
      unfold P at *
      omega
  · have := congrArg (Nat.cast : Nat → ZMod P) hq
    push_cast at this
    rw [cast_P] at this
    linear_combination this

/-- The 64-bit number `x` is `v`, at most `n`. -/
def R (x : UInt64) (v n : Nat) : Prop := x.toNat = v ∧ v ≤ n

theorem R_get (l : UInt32) {n : Nat} (h : l.toNat < n + 1) : R l.toUInt64 l.toNat n :=
  ⟨UInt32.toNat_toUInt64 l, by omega⟩

theorem R_add {x y : UInt64} {v w n m : Nat} (h1 : R x v n) (h2 : R y w m)
    (h : n + m < 2 ^ 64) : R (x + y) (v + w) (n + m) := by
  obtain ⟨rfl, b1⟩ := h1
  obtain ⟨rfl, b2⟩ := h2
  refine ⟨?_, by omega⟩
  rw [UInt64.toNat_add, Nat.mod_eq_of_lt (by omega)]

theorem R_mul {x y : UInt64} {v w n m : Nat} (h1 : R x v n) (h2 : R y w m)
    (h : n * m < 2 ^ 64) : R (x * y) (v * w) (n * m) := by
  obtain ⟨rfl, b1⟩ := h1
  obtain ⟨rfl, b2⟩ := h2
  have hb := Nat.mul_le_mul b1 b2
  refine ⟨?_, hb⟩
  rw [UInt64.toNat_mul, Nat.mod_eq_of_lt (by omega)]

theorem R_shl1 {x : UInt64} {v n : Nat} (h1 : R x v n) (h : 2 * n < 2 ^ 64) :
    R (x <<< 1) (2 * v) (2 * n) := by
  obtain ⟨rfl, b1⟩ := h1
  refine ⟨?_, by omega⟩
  rw [UInt64.toNat_shiftLeft, show (1 : UInt64).toNat % 64 = 1 from rfl, Nat.shiftLeft_eq]
  omega

theorem R_shl2 {x : UInt64} {v n : Nat} (h1 : R x v n) (h : 4 * n < 2 ^ 64) :
    R (x <<< 2) (4 * v) (4 * n) := by
  obtain ⟨rfl, b1⟩ := h1
  refine ⟨?_, by omega⟩
  rw [UInt64.toNat_shiftLeft, show (2 : UInt64).toNat % 64 = 2 from rfl, Nat.shiftLeft_eq]
  omega

theorem mul_spec {a b : Mont} (ha : Good a) (hb : Good b) :
    Good (mul a b) ∧ wval true (mul a b) < 2 ^ 257 ∧ toF (mul a b) = toF a * toF b := by
  have hla := ha.lt
  have hlb := hb.lt
  obtain ⟨a0, a1, a2, a3, a4, a5, a6, a7, a8, rfl⟩ := nine ha.len
  obtain ⟨h0, h1, h2, h3, h4, h5, h6, h7, h8, -⟩ := ha.bd
  obtain ⟨b0, b1, b2, b3, b4, b5, b6, b7, b8, rfl⟩ := nine hb.len
  obtain ⟨k0, k1, k2, k3, k4, k5, k6, k7, k8, -⟩ := hb.bd
  have A0 : R (get64 [a0, a1, a2, a3, a4, a5, a6, a7, a8] 0) a0.toNat (2 ^ 30 - 1) := R_get a0 h0
  have A1 : R (get64 [a0, a1, a2, a3, a4, a5, a6, a7, a8] 1) a1.toNat (2 ^ 29 - 1) := R_get a1 h1
  have A2 : R (get64 [a0, a1, a2, a3, a4, a5, a6, a7, a8] 2) a2.toNat (2 ^ 30 - 1) := R_get a2 h2
  have A3 : R (get64 [a0, a1, a2, a3, a4, a5, a6, a7, a8] 3) a3.toNat (2 ^ 29 - 1) := R_get a3 h3
  have A4 : R (get64 [a0, a1, a2, a3, a4, a5, a6, a7, a8] 4) a4.toNat (2 ^ 30 - 1) := R_get a4 h4
  have A5 : R (get64 [a0, a1, a2, a3, a4, a5, a6, a7, a8] 5) a5.toNat (2 ^ 29 - 1) := R_get a5 h5
  have A6 : R (get64 [a0, a1, a2, a3, a4, a5, a6, a7, a8] 6) a6.toNat (2 ^ 30 - 1) := R_get a6 h6
  have A7 : R (get64 [a0, a1, a2, a3, a4, a5, a6, a7, a8] 7) a7.toNat (2 ^ 29 - 1) := R_get a7 h7
  have A8 : R (get64 [a0, a1, a2, a3, a4, a5, a6, a7, a8] 8) a8.toNat (2 ^ 30 - 1) := R_get a8 h8
  have B0 : R (get64 [b0, b1, b2, b3, b4, b5, b6, b7, b8] 0) b0.toNat (2 ^ 30 - 1) := R_get b0 k0
  have B1 : R (get64 [b0, b1, b2, b3, b4, b5, b6, b7, b8] 1) b1.toNat (2 ^ 29 - 1) := R_get b1 k1
  have B2 : R (get64 [b0, b1, b2, b3, b4, b5, b6, b7, b8] 2) b2.toNat (2 ^ 30 - 1) := R_get b2 k2
  have B3 : R (get64 [b0, b1, b2, b3, b4, b5, b6, b7, b8] 3) b3.toNat (2 ^ 29 - 1) := R_get b3 k3
  have B4 : R (get64 [b0, b1, b2, b3, b4, b5, b6, b7, b8] 4) b4.toNat (2 ^ 30 - 1) := R_get b4 k4
  have B5 : R (get64 [b0, b1, b2, b3, b4, b5, b6, b7, b8] 5) b5.toNat (2 ^ 29 - 1) := R_get b5 k5
  have B6 : R (get64 [b0, b1, b2, b3, b4, b5, b6, b7, b8] 6) b6.toNat (2 ^ 30 - 1) := R_get b6 k6
  have B7 : R (get64 [b0, b1, b2, b3, b4, b5, b6, b7, b8] 7) b7.toNat (2 ^ 29 - 1) := R_get b7 k7
  have B8 : R (get64 [b0, b1, b2, b3, b4, b5, b6, b7, b8] 8) b8.toNat (2 ^ 30 - 1) := R_get b8 k8
  have t0 := R_mul A0 B0 (by norm_num)
  have t1 := R_add (R_mul A0 B1 (by norm_num)) (R_mul A1 B0 (by norm_num)) (by norm_num)
  have t2 := R_add (R_add (R_mul A0 B2 (by norm_num)) (R_mul A1 (R_shl1 B1 (by norm_num)) (by
    norm_num)) (by norm_num)) (R_mul A2 B0 (by norm_num)) (by norm_num)
  have t3 := R_add (R_add (R_add (R_mul A0 B3 (by norm_num)) (R_mul A1 B2 (by norm_num)) (by
    norm_num)) (R_mul A2 B1 (by norm_num)) (by norm_num)) (R_mul A3 B0 (by norm_num)) (by
    norm_num)
  have t4 := R_add (R_add (R_add (R_add (R_mul A0 B4 (by norm_num)) (R_mul A1 (R_shl1 B3 (by
    norm_num)) (by norm_num)) (by norm_num)) (R_mul A2 B2 (by norm_num)) (by norm_num)) (R_mul
    A3 (R_shl1 B1 (by norm_num)) (by norm_num)) (by norm_num)) (R_mul A4 B0 (by norm_num)) (by
    norm_num)
  have t5 := R_add (R_add (R_add (R_add (R_add (R_mul A0 B5 (by norm_num)) (R_mul A1 B4 (by
    norm_num)) (by norm_num)) (R_mul A2 B3 (by norm_num)) (by norm_num)) (R_mul A3 B2 (by
    norm_num)) (by norm_num)) (R_mul A4 B1 (by norm_num)) (by norm_num)) (R_mul A5 B0 (by
    norm_num)) (by norm_num)
  have t6 := R_add (R_add (R_add (R_add (R_add (R_add (R_mul A0 B6 (by norm_num)) (R_mul A1
    (R_shl1 B5 (by norm_num)) (by norm_num)) (by norm_num)) (R_mul A2 B4 (by norm_num)) (by
    norm_num)) (R_mul A3 (R_shl1 B3 (by norm_num)) (by norm_num)) (by norm_num)) (R_mul A4 B2
    (by norm_num)) (by norm_num)) (R_mul A5 (R_shl1 B1 (by norm_num)) (by norm_num)) (by
    norm_num)) (R_mul A6 B0 (by norm_num)) (by norm_num)
  have t7 := R_add (R_add (R_add (R_add (R_add (R_add (R_add (R_mul A0 B7 (by norm_num)) (R_mul
    A1 B6 (by norm_num)) (by norm_num)) (R_mul A2 B5 (by norm_num)) (by norm_num)) (R_mul A3 B4
    (by norm_num)) (by norm_num)) (R_mul A4 B3 (by norm_num)) (by norm_num)) (R_mul A5 B2 (by
    norm_num)) (by norm_num)) (R_mul A6 B1 (by norm_num)) (by norm_num)) (R_mul A7 B0 (by
    norm_num)) (by norm_num)
  have t8 := R_add (R_add (R_add (R_add (R_add (R_add (R_add (R_add (R_mul A0 B8 (by norm_num))
    (R_mul A1 (R_shl1 B7 (by norm_num)) (by norm_num)) (by norm_num)) (R_mul A2 B6 (by
    norm_num)) (by norm_num)) (R_mul A3 (R_shl1 B5 (by norm_num)) (by norm_num)) (by norm_num))
    (R_mul A4 B4 (by norm_num)) (by norm_num)) (R_mul A5 (R_shl1 B3 (by norm_num)) (by
    norm_num)) (by norm_num)) (R_mul A6 B2 (by norm_num)) (by norm_num)) (R_mul A7 (R_shl1 B1
    (by norm_num)) (by norm_num)) (by norm_num)) (R_mul A8 B0 (by norm_num)) (by norm_num)
  have t9 := R_add (R_add (R_add (R_add (R_add (R_add (R_add (R_mul A1 B8 (by norm_num)) (R_mul
    A2 B7 (by norm_num)) (by norm_num)) (R_mul A3 B6 (by norm_num)) (by norm_num)) (R_mul A4 B5
    (by norm_num)) (by norm_num)) (R_mul A5 B4 (by norm_num)) (by norm_num)) (R_mul A6 B3 (by
    norm_num)) (by norm_num)) (R_mul A7 B2 (by norm_num)) (by norm_num)) (R_mul A8 B1 (by
    norm_num)) (by norm_num)
  have t10 := R_add (R_add (R_add (R_add (R_add (R_add (R_mul A2 B8 (by norm_num)) (R_mul A3
    (R_shl1 B7 (by norm_num)) (by norm_num)) (by norm_num)) (R_mul A4 B6 (by norm_num)) (by
    norm_num)) (R_mul A5 (R_shl1 B5 (by norm_num)) (by norm_num)) (by norm_num)) (R_mul A6 B4
    (by norm_num)) (by norm_num)) (R_mul A7 (R_shl1 B3 (by norm_num)) (by norm_num)) (by
    norm_num)) (R_mul A8 B2 (by norm_num)) (by norm_num)
  have t11 := R_add (R_add (R_add (R_add (R_add (R_mul A3 B8 (by norm_num)) (R_mul A4 B7 (by
    norm_num)) (by norm_num)) (R_mul A5 B6 (by norm_num)) (by norm_num)) (R_mul A6 B5 (by
    norm_num)) (by norm_num)) (R_mul A7 B4 (by norm_num)) (by norm_num)) (R_mul A8 B3 (by
    norm_num)) (by norm_num)
  have t12 := R_add (R_add (R_add (R_add (R_mul A4 B8 (by norm_num)) (R_mul A5 (R_shl1 B7 (by
    norm_num)) (by norm_num)) (by norm_num)) (R_mul A6 B6 (by norm_num)) (by norm_num)) (R_mul
    A7 (R_shl1 B5 (by norm_num)) (by norm_num)) (by norm_num)) (R_mul A8 B4 (by norm_num)) (by
    norm_num)
  have t13 := R_add (R_add (R_add (R_mul A5 B8 (by norm_num)) (R_mul A6 B7 (by norm_num)) (by
    norm_num)) (R_mul A7 B6 (by norm_num)) (by norm_num)) (R_mul A8 B5 (by norm_num)) (by
    norm_num)
  have t14 := R_add (R_add (R_mul A6 B8 (by norm_num)) (R_mul A7 (R_shl1 B7 (by norm_num)) (by
    norm_num)) (by norm_num)) (R_mul A8 B6 (by norm_num)) (by norm_num)
  have t15 := R_add (R_mul A7 B8 (by norm_num)) (R_mul A8 B7 (by norm_num)) (by norm_num)
  have t16 := R_mul A8 B8 (by norm_num)
  have hv : ∃ bs, mul [a0, a1, a2, a3, a4, a5, a6, a7, a8] [b0, b1, b2, b3, b4, b5, b6, b7, b8]
      = reduce_degree bs ∧ bs.length = 17 ∧ (∀ x, bs.getLast? = some x → x.toNat < 2 ^ 60) ∧
      wval64 true bs = wval true [a0, a1, a2, a3, a4, a5, a6, a7, a8]
        * wval true [b0, b1, b2, b3, b4, b5, b6, b7, b8] := by
    refine ⟨_, rfl, rfl, ?_, ?_⟩
    · intro x hx
      simp only [List.getLast?_cons_cons, List.getLast?_singleton, Option.some.injEq] at hx
      subst hx
      rw [t16.1]
      have := t16.2
      omega
    · rw [wval9, wval9]
      simp only [wval64, t0.1, t1.1, t2.1, t3.1, t4.1, t5.1, t6.1, t7.1, t8.1, t9.1, t10.1, t11.1, t12.1, t13.1, t14.1, t15.1, t16.1]
      clear t0 t1 t2 t3 t4 t5 t6 t7 t8 t9 t10 t11 t12 t13 t14 t15 t16
      ring
  obtain ⟨bs, g1, g2, g3, g4⟩ := hv
  have hlt : wval64 true bs < (2 ^ 257 + 2 ^ 228) ^ 2 := by
    rw [g4, pow_two]
    exact Nat.mul_lt_mul'' hla hlb
  obtain ⟨r1, r2, r3⟩ := reduce_degree_spec g2 g3 hlt
  rw [← g1] at r1 r2 r3
  refine ⟨r1, r2, ?_⟩
  unfold toF
  rw [g4] at r3
  push_cast at r3
  have h0 := two_pow_ne_zero
  generalize (2 : ZMod P) ^ 257 = w at *
  field_simp
  linear_combination r3

theorem square_spec {a : Mont} (ha : Good a) :
    Good (square a) ∧ wval true (square a) < 2 ^ 257 ∧ toF (square a) = toF a * toF a := by
  have hla := ha.lt
  obtain ⟨a0, a1, a2, a3, a4, a5, a6, a7, a8, rfl⟩ := nine ha.len
  obtain ⟨h0, h1, h2, h3, h4, h5, h6, h7, h8, -⟩ := ha.bd
  have A0 : R (get64 [a0, a1, a2, a3, a4, a5, a6, a7, a8] 0) a0.toNat (2 ^ 30 - 1) := R_get a0 h0
  have A1 : R (get64 [a0, a1, a2, a3, a4, a5, a6, a7, a8] 1) a1.toNat (2 ^ 29 - 1) := R_get a1 h1
  have A2 : R (get64 [a0, a1, a2, a3, a4, a5, a6, a7, a8] 2) a2.toNat (2 ^ 30 - 1) := R_get a2 h2
  have A3 : R (get64 [a0, a1, a2, a3, a4, a5, a6, a7, a8] 3) a3.toNat (2 ^ 29 - 1) := R_get a3 h3
  have A4 : R (get64 [a0, a1, a2, a3, a4, a5, a6, a7, a8] 4) a4.toNat (2 ^ 30 - 1) := R_get a4 h4
  have A5 : R (get64 [a0, a1, a2, a3, a4, a5, a6, a7, a8] 5) a5.toNat (2 ^ 29 - 1) := R_get a5 h5
  have A6 : R (get64 [a0, a1, a2, a3, a4, a5, a6, a7, a8] 6) a6.toNat (2 ^ 30 - 1) := R_get a6 h6
  have A7 : R (get64 [a0, a1, a2, a3, a4, a5, a6, a7, a8] 7) a7.toNat (2 ^ 29 - 1) := R_get a7 h7
  have A8 : R (get64 [a0, a1, a2, a3, a4, a5, a6, a7, a8] 8) a8.toNat (2 ^ 30 - 1) := R_get a8 h8
  have t0 := R_mul A0 A0 (by norm_num)
  have t1 := R_mul A0 (R_shl1 A1 (by norm_num)) (by norm_num)
  have t2 := R_add (R_mul A0 (R_shl1 A2 (by norm_num)) (by norm_num)) (R_mul A1 (R_shl1 A1 (by
    norm_num)) (by norm_num)) (by norm_num)
  have t3 := R_add (R_mul A0 (R_shl1 A3 (by norm_num)) (by norm_num)) (R_mul A1 (R_shl1 A2 (by
    norm_num)) (by norm_num)) (by norm_num)
  have t4 := R_add (R_add (R_mul A0 (R_shl1 A4 (by norm_num)) (by norm_num)) (R_mul A1 (R_shl2
    A3 (by norm_num)) (by norm_num)) (by norm_num)) (R_mul A2 A2 (by norm_num)) (by norm_num)
  have t5 := R_add (R_add (R_mul A0 (R_shl1 A5 (by norm_num)) (by norm_num)) (R_mul A1 (R_shl1
    A4 (by norm_num)) (by norm_num)) (by norm_num)) (R_mul A2 (R_shl1 A3 (by norm_num)) (by
    norm_num)) (by norm_num)
  have t6 := R_add (R_add (R_add (R_mul A0 (R_shl1 A6 (by norm_num)) (by norm_num)) (R_mul A1
    (R_shl2 A5 (by norm_num)) (by norm_num)) (by norm_num)) (R_mul A2 (R_shl1 A4 (by norm_num))
    (by norm_num)) (by norm_num)) (R_mul A3 (R_shl1 A3 (by norm_num)) (by norm_num)) (by
    norm_num)
  have t7 := R_add (R_add (R_add (R_mul A0 (R_shl1 A7 (by norm_num)) (by norm_num)) (R_mul A1
    (R_shl1 A6 (by norm_num)) (by norm_num)) (by norm_num)) (R_mul A2 (R_shl1 A5 (by norm_num))
    (by norm_num)) (by norm_num)) (R_mul A3 (R_shl1 A4 (by norm_num)) (by norm_num)) (by
    norm_num)
  have t8 := R_add (R_add (R_add (R_add (R_mul A0 (R_shl1 A8 (by norm_num)) (by norm_num))
    (R_mul A1 (R_shl2 A7 (by norm_num)) (by norm_num)) (by norm_num)) (R_mul A2 (R_shl1 A6 (by
    norm_num)) (by norm_num)) (by norm_num)) (R_mul A3 (R_shl2 A5 (by norm_num)) (by norm_num))
    (by norm_num)) (R_mul A4 A4 (by norm_num)) (by norm_num)
  have t9 := R_add (R_add (R_add (R_mul A1 (R_shl1 A8 (by norm_num)) (by norm_num)) (R_mul A2
    (R_shl1 A7 (by norm_num)) (by norm_num)) (by norm_num)) (R_mul A3 (R_shl1 A6 (by norm_num))
    (by norm_num)) (by norm_num)) (R_mul A4 (R_shl1 A5 (by norm_num)) (by norm_num)) (by
    norm_num)
  have t10 := R_add (R_add (R_add (R_mul A2 (R_shl1 A8 (by norm_num)) (by norm_num)) (R_mul A3
    (R_shl2 A7 (by norm_num)) (by norm_num)) (by norm_num)) (R_mul A4 (R_shl1 A6 (by norm_num))
    (by norm_num)) (by norm_num)) (R_mul A5 (R_shl1 A5 (by norm_num)) (by norm_num)) (by
    norm_num)
  have t11 := R_add (R_add (R_mul A3 (R_shl1 A8 (by norm_num)) (by norm_num)) (R_mul A4 (R_shl1
    A7 (by norm_num)) (by norm_num)) (by norm_num)) (R_mul A5 (R_shl1 A6 (by norm_num)) (by
    norm_num)) (by norm_num)
  have t12 := R_add (R_add (R_mul A4 (R_shl1 A8 (by norm_num)) (by norm_num)) (R_mul A5 (R_shl2
    A7 (by norm_num)) (by norm_num)) (by norm_num)) (R_mul A6 A6 (by norm_num)) (by norm_num)
  have t13 := R_add (R_mul A5 (R_shl1 A8 (by norm_num)) (by norm_num)) (R_mul A6 (R_shl1 A7 (by
    norm_num)) (by norm_num)) (by norm_num)
  have t14 := R_add (R_mul A6 (R_shl1 A8 (by norm_num)) (by norm_num)) (R_mul A7 (R_shl1 A7 (by
    norm_num)) (by norm_num)) (by norm_num)
  have t15 := R_mul A7 (R_shl1 A8 (by norm_num)) (by norm_num)
  have t16 := R_mul A8 A8 (by norm_num)
  have hv : ∃ bs, square [a0, a1, a2, a3, a4, a5, a6, a7, a8]
      = reduce_degree bs ∧ bs.length = 17 ∧ (∀ x, bs.getLast? = some x → x.toNat < 2 ^ 60) ∧
      wval64 true bs = wval true [a0, a1, a2, a3, a4, a5, a6, a7, a8]
        * wval true [a0, a1, a2, a3, a4, a5, a6, a7, a8] := by
    refine ⟨_, rfl, rfl, ?_, ?_⟩
    · intro x hx
      simp only [List.getLast?_cons_cons, List.getLast?_singleton, Option.some.injEq] at hx
      subst hx
      rw [t16.1]
      have := t16.2
      omega
    · rw [wval9]
      simp only [wval64, t0.1, t1.1, t2.1, t3.1, t4.1, t5.1, t6.1, t7.1, t8.1, t9.1, t10.1, t11.1, t12.1, t13.1, t14.1, t15.1, t16.1]
      clear t0 t1 t2 t3 t4 t5 t6 t7 t8 t9 t10 t11 t12 t13 t14 t15 t16
      ring
  obtain ⟨bs, g1, g2, g3, g4⟩ := hv
  have hlt : wval64 true bs < (2 ^ 257 + 2 ^ 228) ^ 2 := by
    rw [g4, pow_two]
    exact Nat.mul_lt_mul'' hla hla
  obtain ⟨r1, r2, r3⟩ := reduce_degree_spec g2 g3 hlt
  rw [← g1] at r1 r2 r3
  refine ⟨r1, r2, ?_⟩
  unfold toF
  rw [g4] at r3
  push_cast at r3
  have h0 := two_pow_ne_zero
  generalize (2 : ZMod P) ^ 257 = w at *
  field_simp
  linear_combination r3

end Mont

end Verif.P256
