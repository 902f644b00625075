import Verif.P256.MontModel
import Verif.P256.Int256Lemmas2
import Verif.P256.Primes

/-! Addition, subtraction and small multiples of elements in Montgomery form. -/

namespace Verif.P256

namespace Mont

/-- The number a list of limbs stands for; the first limb has 29 bits if `even`, else 28. -/
def wval : Bool → List UInt32 → Nat
  | _, [] => 0
  | true, l :: ls => l.toNat + 2 ^ 29 * wval false ls
  | false, l :: ls => l.toNat + 2 ^ 28 * wval true ls

/-- The weight of the limb after `n` limbs. -/
def wt : Bool → Nat → Nat
  | _, 0 => 1
  | true, n + 1 => 2 ^ 29 * wt false n
  | false, n + 1 => 2 ^ 28 * wt true n

/-- Bounds for the limbs of 29 and of 28 bits. -/
def Bounded (b29 b28 : Nat) : Bool → List UInt32 → Prop
  | _, [] => True
  | true, l :: ls => l.toNat < b29 ∧ Bounded b29 b28 false ls
  | false, l :: ls => l.toNat < b28 ∧ Bounded b29 b28 true ls

theorem wt9 : wt true 9 = 2 ^ 257 := by decide +kernel

theorem mask29 (x : UInt32) : (x &&& BOTTOM_29_BITS).toNat = x.toNat % 2 ^ 29 := by
  rw [UInt32.toNat_and, show BOTTOM_29_BITS.toNat = 2 ^ 29 - 1 from rfl,
    Nat.and_two_pow_sub_one_eq_mod]

theorem mask28 (x : UInt32) : (x &&& BOTTOM_28_BITS).toNat = x.toNat % 2 ^ 28 := by
  rw [UInt32.toNat_and, show BOTTOM_28_BITS.toNat = 2 ^ 28 - 1 from rfl,
    Nat.and_two_pow_sub_one_eq_mod]

theorem shr_toNat (x k : UInt32) (hk : k.toNat < 32) : (x >>> k).toNat = x.toNat / 2 ^ k.toNat := by
  rw [UInt32.toNat_shiftRight, Nat.mod_eq_of_lt hk, Nat.shiftRight_eq_div_pow]

theorem shl_toNat (x k : UInt32) (hk : k.toNat < 32) :
    (x <<< k).toNat = x.toNat * 2 ^ k.toNat % 2 ^ 32 := by
  rw [UInt32.toNat_shiftLeft, Nat.mod_eq_of_lt hk, Nat.shiftLeft_eq]

theorem shr29 (x : UInt32) : (x >>> 29).toNat = x.toNat / 2 ^ 29 := shr_toNat x 29 (by decide)
theorem shr28 (x : UInt32) : (x >>> 28).toNat = x.toNat / 2 ^ 28 := shr_toNat x 28 (by decide)

theorem nine {l : List UInt32} (h : l.length = 9) :
    ∃ a0 a1 a2 a3 a4 a5 a6 a7 a8, l = [a0, a1, a2, a3, a4, a5, a6, a7, a8] := by
  match l, h with
  | [a0, a1, a2, a3, a4, a5, a6, a7, a8], _ => exact ⟨a0, a1, a2, a3, a4, a5, a6, a7, a8, rfl⟩

/-- The carry loop keeps the value and leaves limbs of 29 and 28 bits. -/
theorem chain_spec : ∀ (ls : List UInt32) (even : Bool) (c : UInt32), c.toNat ≤ 15 →
    Bounded (2 ^ 32 - 15) (2 ^ 32 - 15) even ls →
    (chain even c ls).1.length = ls.length ∧ Bounded (2 ^ 29) (2 ^ 28) even (chain even c ls).1 ∧
    (chain even c ls).2.toNat ≤ 15 ∧
    wval even (chain even c ls).1 + wt even ls.length * (chain even c ls).2.toNat
      = c.toNat + wval even ls
  | [], even, c, hc, _ => by
    refine ⟨rfl, by simp [chain, Bounded], hc, ?_⟩
    simp [chain, wval, wt]
  | l :: ls, true, c, hc, hb => by
    obtain ⟨h1, h2⟩ := hb
    have e : (l + c).toNat = l.toNat + c.toNat := by rw [UInt32.toNat_add]; omega
    have e29 := shr29 (l + c)
    have m29 := mask29 (l + c)
    obtain ⟨g1, g2, g3, g4⟩ := chain_spec ls false ((l + c) >>> 29) (by omega) h2
    rw [chain]
    simp only [if_true]
    refine ⟨by simp [g1], ⟨by omega, g2⟩, g3, ?_⟩
    simp only [wval, List.length_cons, wt, m29]
    generalize wval false (chain false ((l + c) >>> 29) ls).1 = v at *
    rw [Nat.mul_assoc]
    generalize wt false ls.length * (chain false ((l + c) >>> 29) ls).2.toNat = w at *
    omega
  | l :: ls, false, c, hc, hb => by
    obtain ⟨h1, h2⟩ := hb
    have e : (l + c).toNat = l.toNat + c.toNat := by rw [UInt32.toNat_add]; omega
    have e28 := shr28 (l + c)
    have m28 := mask28 (l + c)
    obtain ⟨g1, g2, g3, g4⟩ := chain_spec ls true ((l + c) >>> 28) (by omega) h2
    rw [chain]
    simp only [Bool.false_eq_true, if_false]
    refine ⟨by simp [g1], ⟨by omega, g2⟩, g3, ?_⟩
    simp only [wval, List.length_cons, wt, m28]
    generalize wval true (chain true ((l + c) >>> 28) ls).1 = v at *
    rw [Nat.mul_assoc]
    generalize wt true ls.length * (chain true ((l + c) >>> 28) ls).2.toNat = w at *
    omega

theorem wval9 (a0 a1 a2 a3 a4 a5 a6 a7 a8 : UInt32) :
    wval true [a0, a1, a2, a3, a4, a5, a6, a7, a8] =
      a0.toNat + 2 ^ 29 * a1.toNat + 2 ^ 57 * a2.toNat + 2 ^ 86 * a3.toNat + 2 ^ 114 * a4.toNat +
        2 ^ 143 * a5.toNat + 2 ^ 171 * a6.toNat + 2 ^ 200 * a7.toNat + 2 ^ 228 * a8.toNat := by
  simp only [wval]
  omega

theorem wval_lt {l : List UInt32} (h : l.length = 9) (hb : Bounded (2 ^ 29) (2 ^ 28) true l) :
    wval true l < 2 ^ 257 := by
  obtain ⟨a0, a1, a2, a3, a4, a5, a6, a7, a8, rfl⟩ := nine h
  obtain ⟨h0, h1, h2, h3, h4, h5, h6, h7, h8, -⟩ := hb
  rw [wval9]
  omega

/-- The state between operations: limbs of at most 30 and 29 bits, and a value that is not much
    above 2^257. -/
structure Good (m : Mont) : Prop where
  len : m.length = 9
  bd : Bounded (2 ^ 30) (2 ^ 29) true m
  lt : wval true m < 2 ^ 257 + 2 ^ 228

theorem reduce_carry_spec {l : List UInt32} (h : l.length = 9)
    (hb : Bounded (2 ^ 29) (2 ^ 28) true l) (c : UInt32) (hc : c.toNat ≤ 7) :
    Good (reduce_carry l c) ∧
      wval true (reduce_carry l c) + 2 * P * c.toNat = wval true l + 2 ^ 257 * c.toNat := by
  have hlt := wval_lt h hb
  obtain ⟨a0, a1, a2, a3, a4, a5, a6, a7, a8, rfl⟩ := nine h
  obtain ⟨h0, h1, h2, h3, h4, h5, h6, h7, h8, -⟩ := hb
  have s1 : (c <<< 1).toNat = c.toNat * 2 := by
    have : (c <<< 1).toNat = c.toNat * 2 ^ 1 % 2 ^ 32 := shl_toNat c 1 (by decide)
    omega
  have s11 : (c <<< 11).toNat = c.toNat * 2 ^ 11 := by
    have : (c <<< 11).toNat = c.toNat * 2 ^ 11 % 2 ^ 32 := shl_toNat c 11 (by decide)
    omega
  have s22 : (c <<< 22).toNat = c.toNat * 2 ^ 22 := by
    have : (c <<< 22).toNat = c.toNat * 2 ^ 22 % 2 ^ 32 := shl_toNat c 22 (by decide)
    omega
  have s25 : (c <<< 25).toNat = c.toNat * 2 ^ 25 := by
    have : (c <<< 25).toNat = c.toNat * 2 ^ 25 % 2 ^ 32 := shl_toNat c 25 (by decide)
    omega
  have key : ∃ b0 b3 b4 b5 b6 b7 : UInt32,
      reduce_carry [a0, a1, a2, a3, a4, a5, a6, a7, a8] c = [b0, a1, a2, b3, b4, b5, b6, b7, a8] ∧
      b0.toNat = a0.toNat + c.toNat * 2 ∧
      b3.toNat + c.toNat * 2 ^ 11 = a3.toNat + (if c.toNat = 0 then 0 else 2 ^ 28) ∧
      b4.toNat = a4.toNat + (if c.toNat = 0 then 0 else 2 ^ 29 - 1) ∧
      b5.toNat = a5.toNat + (if c.toNat = 0 then 0 else 2 ^ 28 - 1) ∧
      b6.toNat + c.toNat * 2 ^ 22 = a6.toNat + (if c.toNat = 0 then 0 else 2 ^ 29 - 1) ∧
      b7.toNat + (if c.toNat = 0 then 0 else 1) = a7.toNat + c.toNat * 2 ^ 25 := by
    have k29' : (0x20000000 - 1 : UInt32) = 0x1fffffff := rfl
    have k28' : (0x10000000 - 1 : UInt32) = 0x0fffffff := rfl
    have k28 : (0x10000000 : UInt32).toNat = 2 ^ 28 := rfl
    have m29 : (0x1fffffff : UInt32).toNat = 2 ^ 29 - 1 := rfl
    have m28 : (0x0fffffff : UInt32).toNat = 2 ^ 28 - 1 := rfl
    have m1 : (1 : UInt32).toNat = 1 := rfl
    refine ⟨_, _, _, _, _, _, rfl, ?_, ?_, ?_, ?_, ?_, ?_⟩
    all_goals
      by_cases h0' : c = 0
      · subst h0'
        simp
      · have hne : c.toNat ≠ 0 := fun h => h0' (UInt32.toNat_inj.1 (by simpa using h))
        have hb : (c == 0) = false := by simpa using h0'
        simp only [hb, hne, Bool.false_eq_true, if_false, k29', k28', UInt32.toNat_add,
          UInt32.toNat_sub, s1, s11, s22, s25, k28, m29, m28, m1]
        omega
  obtain ⟨b0, b3, b4, b5, b6, b7, e, e0, e3, e4, e5, e6, e7⟩ := key
  rw [e]
  have hv : wval true [b0, a1, a2, b3, b4, b5, b6, b7, a8] + 2 * P * c.toNat
      = wval true [a0, a1, a2, a3, a4, a5, a6, a7, a8] + 2 ^ 257 * c.toNat := by
    rw [wval9, wval9]
    unfold P
    by_cases hne : c.toNat = 0
    · simp only [hne, if_true] at *
      omega
    · simp only [hne, if_false] at *
      omega
  refine ⟨⟨rfl, ?_, ?_⟩, hv⟩
  · by_cases hne : c.toNat = 0
    · simp only [hne, if_true] at *
      exact ⟨by omega, by omega, by omega, by omega, by omega, by omega, by omega, by omega,
        by omega, trivial⟩
    · simp only [hne, if_false] at *
      exact ⟨by omega, by omega, by omega, by omega, by omega, by omega, by omega, by omega,
        by omega, trivial⟩
  · unfold P at hv
    omega

/-- The field element behind limbs. -/
noncomputable def toF (m : Mont) : ZMod P := (wval true m : ZMod P) * ((2 : ZMod P) ^ 257)⁻¹

theorem two_ne_zero' : (2 : ZMod P) ≠ 0 := by
  have : ((2 : Nat) : ZMod P) ≠ 0 := by
    rw [Ne, ZMod.natCast_eq_zero_iff]
    intro h
    have := Nat.le_of_dvd (by norm_num) h
    unfold P at this
    omega
  exact_mod_cast this

theorem two_pow_ne_zero : (2 : ZMod P) ^ 257 ≠ 0 := pow_ne_zero _ two_ne_zero'

theorem cast_P : ((P : Nat) : ZMod P) = 0 := ZMod.natCast_self P

theorem finish_spec {ls : List UInt32} (h : ls.length = 9)
    (hb : Bounded (2 ^ 32 - 15) (2 ^ 32 - 15) true ls) (hv : wval true ls < 2 ^ 260) :
    Good (reduce_carry (chain true 0 ls).1 (chain true 0 ls).2) ∧
      (wval true (reduce_carry (chain true 0 ls).1 (chain true 0 ls).2) : ZMod P)
        = (wval true ls : ZMod P) := by
  obtain ⟨g1, g2, g3, g4⟩ := chain_spec ls true 0 (by decide) hb
  rw [h] at g1
  rw [h, wt9, UInt32.toNat_zero, Nat.zero_add] at g4
  obtain ⟨g5, g6⟩ := reduce_carry_spec g1 g2 (chain true 0 ls).2 (by omega)
  refine ⟨g5, ?_⟩
  rw [g4] at g6
  have := congrArg (Nat.cast : Nat → ZMod P) g6
  push_cast at this
  rw [cast_P] at this
  linear_combination this

theorem add_spec {a b : Mont} (ha : Good a) (hb : Good b) :
    Good (add a b) ∧ toF (add a b) = toF a + toF b := by
  obtain ⟨a0, a1, a2, a3, a4, a5, a6, a7, a8, rfl⟩ := nine ha.len
  obtain ⟨b0, b1, b2, b3, b4, b5, b6, b7, b8, rfl⟩ := nine hb.len
  obtain ⟨h0, h1, h2, h3, h4, h5, h6, h7, h8, -⟩ := ha.bd
  obtain ⟨k0, k1, k2, k3, k4, k5, k6, k7, k8, -⟩ := hb.bd
  have e : ∀ x y : UInt32, x.toNat < 2 ^ 30 → y.toNat < 2 ^ 30 →
      (x + y).toNat = x.toNat + y.toNat := by
    intro x y hx hy
    rw [UInt32.toNat_add]; omega
  have e0 := e a0 b0 (by omega) (by omega)
  have e1 := e a1 b1 (by omega) (by omega)
  have e2 := e a2 b2 (by omega) (by omega)
  have e3 := e a3 b3 (by omega) (by omega)
  have e4 := e a4 b4 (by omega) (by omega)
  have e5 := e a5 b5 (by omega) (by omega)
  have e6 := e a6 b6 (by omega) (by omega)
  have e7 := e a7 b7 (by omega) (by omega)
  have e8 := e a8 b8 (by omega) (by omega)
  have hw : wval true (List.zipWith (· + ·) [a0, a1, a2, a3, a4, a5, a6, a7, a8]
      [b0, b1, b2, b3, b4, b5, b6, b7, b8]) = wval true [a0, a1, a2, a3, a4, a5, a6, a7, a8] +
      wval true [b0, b1, b2, b3, b4, b5, b6, b7, b8] := by
    simp only [List.zipWith_cons_cons, List.zipWith_nil_right]
    rw [wval9, wval9, wval9, e0, e1, e2, e3, e4, e5, e6, e7, e8]
    omega
  have hla := ha.lt
  have hlb := hb.lt
  obtain ⟨g1, g2⟩ := finish_spec (ls := List.zipWith (· + ·) [a0, a1, a2, a3, a4, a5, a6, a7, a8]
      [b0, b1, b2, b3, b4, b5, b6, b7, b8]) rfl
    (by
      simp only [List.zipWith_cons_cons, List.zipWith_nil_right]
      exact ⟨by omega, by omega, by omega, by omega, by omega, by omega, by omega, by omega,
        by omega, trivial⟩) (by omega)
  refine ⟨g1, ?_⟩
  unfold toF
  have e : add [a0, a1, a2, a3, a4, a5, a6, a7, a8] [b0, b1, b2, b3, b4, b5, b6, b7, b8]
    = reduce_carry (chain true 0 (List.zipWith (· + ·) [a0, a1, a2, a3, a4, a5, a6, a7, a8]
      [b0, b1, b2, b3, b4, b5, b6, b7, b8])).1 (chain true 0 (List.zipWith (· + ·)
      [a0, a1, a2, a3, a4, a5, a6, a7, a8] [b0, b1, b2, b3, b4, b5, b6, b7, b8])).2 := rfl
  rw [e, g2, hw]
  push_cast
  ring

theorem zero31_multiple : ∃ k, wval true ZERO31 = k * P := by
  refine ⟨wval true ZERO31 / P, ?_⟩
  decide +kernel

theorem sub_spec {a b : Mont} (ha : Good a) (hb : Good b) :
    Good (sub a b) ∧ toF (sub a b) = toF a - toF b := by
  obtain ⟨a0, a1, a2, a3, a4, a5, a6, a7, a8, rfl⟩ := nine ha.len
  obtain ⟨b0, b1, b2, b3, b4, b5, b6, b7, b8, rfl⟩ := nine hb.len
  obtain ⟨h0, h1, h2, h3, h4, h5, h6, h7, h8, -⟩ := ha.bd
  obtain ⟨k0, k1, k2, k3, k4, k5, k6, k7, k8, -⟩ := hb.bd
  have e : ∀ x y z : UInt32, x.toNat < 2 ^ 30 → y.toNat ≤ z.toNat →
      z.toNat ≤ 2 ^ 31 + 2 ^ 24 →
      (x + (z - y)).toNat + y.toNat = x.toNat + z.toNat := by
    intro x y z hx hy hz
    rw [UInt32.toNat_add, UInt32.toNat_sub]; omega
  have hz : ZERO31 = [2147483640, 1073741820, 2147483644, 1073750012, 2147483644, 1073741820,
    2164260860, 939524092, 2147483644] := by decide +kernel
  have z0 : (2147483640 : UInt32).toNat = 2147483640 := rfl
  have z1 : (1073741820 : UInt32).toNat = 1073741820 := rfl
  have z2 : (2147483644 : UInt32).toNat = 2147483644 := rfl
  have z3 : (1073750012 : UInt32).toNat = 1073750012 := rfl
  have z6 : (2164260860 : UInt32).toNat = 2164260860 := rfl
  have z7 : (939524092 : UInt32).toNat = 939524092 := rfl
  have e0 := e a0 b0 2147483640 (by omega) (by omega) (by omega)
  have e1 := e a1 b1 1073741820 (by omega) (by omega) (by omega)
  have e2 := e a2 b2 2147483644 (by omega) (by omega) (by omega)
  have e3 := e a3 b3 1073750012 (by omega) (by omega) (by omega)
  have e4 := e a4 b4 2147483644 (by omega) (by omega) (by omega)
  have e5 := e a5 b5 1073741820 (by omega) (by omega) (by omega)
  have e6 := e a6 b6 2164260860 (by omega) (by omega) (by omega)
  have e7 := e a7 b7 939524092 (by omega) (by omega) (by omega)
  have e8 := e a8 b8 2147483644 (by omega) (by omega) (by omega)
  have hw : wval true (List.zipWith (· + ·) [a0, a1, a2, a3, a4, a5, a6, a7, a8]
      (List.zipWith (· - ·) ZERO31 [b0, b1, b2, b3, b4, b5, b6, b7, b8]))
      + wval true [b0, b1, b2, b3, b4, b5, b6, b7, b8]
      = wval true [a0, a1, a2, a3, a4, a5, a6, a7, a8] + wval true ZERO31 := by
    rw [hz]
    simp only [List.zipWith_cons_cons, List.zipWith_nil_right]
    rw [wval9, wval9, wval9, wval9]
    clear hz
    omega
  have hla := ha.lt
  have hzlt : wval true ZERO31 < 2 ^ 259 + 2 ^ 258 := by decide +kernel
  obtain ⟨g1, g2⟩ := finish_spec (ls := List.zipWith (· + ·) [a0, a1, a2, a3, a4, a5, a6, a7, a8]
      (List.zipWith (· - ·) ZERO31 [b0, b1, b2, b3, b4, b5, b6, b7, b8])) rfl
    (by
      rw [hz]
      simp only [List.zipWith_cons_cons, List.zipWith_nil_right]
      exact ⟨by omega, by omega, by omega, by omega, by omega, by omega, by omega, by omega,
        by omega, trivial⟩) (by omega)
  refine ⟨g1, ?_⟩
  unfold toF
  have e : sub [a0, a1, a2, a3, a4, a5, a6, a7, a8] [b0, b1, b2, b3, b4, b5, b6, b7, b8]
    = reduce_carry (chain true 0 (List.zipWith (· + ·) [a0, a1, a2, a3, a4, a5, a6, a7, a8]
      (List.zipWith (· - ·) ZERO31 [b0, b1, b2, b3, b4, b5, b6, b7, b8]))).1
      (chain true 0 (List.zipWith (· + ·)
      [a0, a1, a2, a3, a4, a5, a6, a7, a8]
      (List.zipWith (· - ·) ZERO31 [b0, b1, b2, b3, b4, b5, b6, b7, b8]))).2 := rfl
  rw [e, g2]
  obtain ⟨k, hk⟩ := zero31_multiple
  rw [hk] at hw
  have hw' := congrArg (Nat.cast : Nat → ZMod P) hw
  push_cast at hw'
  rw [cast_P] at hw'
  linear_combination ((2 : ZMod P) ^ 257)⁻¹ * hw'

theorem mul_scalar3_spec {a : Mont} (ha : Good a) :
    Good (mul_scalar3 a) ∧ toF (mul_scalar3 a) = 3 * toF a := by
  obtain ⟨a0, a1, a2, a3, a4, a5, a6, a7, a8, rfl⟩ := nine ha.len
  obtain ⟨h0, h1, h2, h3, h4, h5, h6, h7, h8, -⟩ := ha.bd
  have e : ∀ x : UInt32, x.toNat < 2 ^ 30 → (x * 3).toNat = 3 * x.toNat := by
    intro x hx
    rw [UInt32.toNat_mul, show (3 : UInt32).toNat = 3 from rfl]; omega
  have e0 := e a0 (by omega)
  have e1 := e a1 (by omega)
  have e2 := e a2 (by omega)
  have e3 := e a3 (by omega)
  have e4 := e a4 (by omega)
  have e5 := e a5 (by omega)
  have e6 := e a6 (by omega)
  have e7 := e a7 (by omega)
  have e8 := e a8 (by omega)
  have hw : wval true ([a0, a1, a2, a3, a4, a5, a6, a7, a8].map (· * 3))
      = 3 * wval true [a0, a1, a2, a3, a4, a5, a6, a7, a8] := by
    simp only [List.map_cons, List.map_nil]
    rw [wval9, wval9, e0, e1, e2, e3, e4, e5, e6, e7, e8]
    omega
  have hla := ha.lt
  obtain ⟨g1, g2⟩ := finish_spec (ls := [a0, a1, a2, a3, a4, a5, a6, a7, a8].map (· * 3)) rfl
    (by
      simp only [List.map_cons, List.map_nil]
      exact ⟨by omega, by omega, by omega, by omega, by omega, by omega, by omega, by omega,
        by omega, trivial⟩) (by omega)
  refine ⟨g1, ?_⟩
  unfold toF
  have e : mul_scalar3 [a0, a1, a2, a3, a4, a5, a6, a7, a8]
    = reduce_carry (chain true 0 ([a0, a1, a2, a3, a4, a5, a6, a7, a8].map (· * 3))).1
      (chain true 0 ([a0, a1, a2, a3, a4, a5, a6, a7, a8].map (· * 3))).2 := rfl
  rw [e, g2, hw]
  push_cast
  ring

theorem shiftChain_spec (k : UInt32) (hk : k = 1 ∨ k = 2) :
    ∀ (ls : List UInt32) (even : Bool) (c : UInt32), c.toNat ≤ 15 →
    Bounded (2 ^ 30) (2 ^ 29) even ls →
    (shiftChain k even c ls).1.length = ls.length ∧
    Bounded (2 ^ 29) (2 ^ 28) even (shiftChain k even c ls).1 ∧
    (shiftChain k even c ls).2.toNat ≤ 15 ∧
    wval even (shiftChain k even c ls).1 + wt even ls.length * (shiftChain k even c ls).2.toNat
      = c.toNat + 2 ^ k.toNat * wval even ls
  | [], even, c, hc, _ => by
    refine ⟨rfl, by simp [shiftChain, Bounded], hc, ?_⟩
    simp [shiftChain, wval, wt]
  | l :: ls, true, c, hc, hb => by
    obtain ⟨h1, h2⟩ := hb
    have n : (l >>> (29 - k)).toNat = l.toNat / 2 ^ (29 - k.toNat) := by
      rcases hk with rfl | rfl
      · exact shr_toNat l 28 (by decide)
      · exact shr_toNat l 27 (by decide)
    have m29 := mask29 (l <<< k)
    have sk : (l <<< k).toNat = l.toNat * 2 ^ k.toNat % 2 ^ 32 := by
      rcases hk with rfl | rfl
      · exact shl_toNat l 1 (by decide)
      · exact shl_toNat l 2 (by decide)
    have hkn : k.toNat = 1 ∨ k.toNat = 2 := by rcases hk with rfl | rfl <;> simp
    have e : (((l <<< k) &&& BOTTOM_29_BITS) + c).toNat
        = ((l <<< k) &&& BOTTOM_29_BITS).toNat + c.toNat := by rw [UInt32.toNat_add]; omega
    generalize hy : ((l <<< k) &&& BOTTOM_29_BITS) + c = y at *
    have e29 := shr29 y
    have m29' := mask29 y
    have ec : ((l >>> (29 - k)) + (y >>> 29)).toNat
        = l.toNat / 2 ^ (29 - k.toNat) + y.toNat / 2 ^ 29 := by
      rw [UInt32.toNat_add, n, e29]
      rcases hkn with h | h <;> rw [h] at sk ⊢ <;> omega
    obtain ⟨g1, g2, g3, g4⟩ := shiftChain_spec k hk ls false ((l >>> (29 - k)) + (y >>> 29))
      (by rw [ec]; rcases hkn with h | h <;> rw [h] at sk ⊢ <;> omega) h2
    rw [shiftChain]
    simp only [if_true, hy]
    refine ⟨by simp [g1], ⟨by omega, g2⟩, g3, ?_⟩
    simp only [wval, List.length_cons, wt, m29']
    generalize shiftChain k false ((l >>> (29 - k)) + (y >>> 29)) ls = z at *
    rw [Nat.mul_assoc]
    generalize wt false ls.length * z.2.toNat = w at *
    rw [ec] at g4
    rcases hkn with h | h <;> rw [h] at sk g4 ⊢ <;> omega
  | l :: ls, false, c, hc, hb => by
    obtain ⟨h1, h2⟩ := hb
    have n : (l >>> (28 - k)).toNat = l.toNat / 2 ^ (28 - k.toNat) := by
      rcases hk with rfl | rfl
      · exact shr_toNat l 27 (by decide)
      · exact shr_toNat l 26 (by decide)
    have m28 := mask28 (l <<< k)
    have sk : (l <<< k).toNat = l.toNat * 2 ^ k.toNat % 2 ^ 32 := by
      rcases hk with rfl | rfl
      · exact shl_toNat l 1 (by decide)
      · exact shl_toNat l 2 (by decide)
    have hkn : k.toNat = 1 ∨ k.toNat = 2 := by rcases hk with rfl | rfl <;> simp
    have e : (((l <<< k) &&& BOTTOM_28_BITS) + c).toNat
        = ((l <<< k) &&& BOTTOM_28_BITS).toNat + c.toNat := by rw [UInt32.toNat_add]; omega
    generalize hy : ((l <<< k) &&& BOTTOM_28_BITS) + c = y at *
    have e28 := shr28 y
    have m28' := mask28 y
    have ec : ((l >>> (28 - k)) + (y >>> 28)).toNat
        = l.toNat / 2 ^ (28 - k.toNat) + y.toNat / 2 ^ 28 := by
      rw [UInt32.toNat_add, n, e28]
      rcases hkn with h | h <;> rw [h] at sk ⊢ <;> omega
    obtain ⟨g1, g2, g3, g4⟩ := shiftChain_spec k hk ls true ((l >>> (28 - k)) + (y >>> 28))
      (by rw [ec]; rcases hkn with h | h <;> rw [h] at sk ⊢ <;> omega) h2
    rw [shiftChain]
    simp only [Bool.false_eq_true, if_false, hy]
    refine ⟨by simp [g1], ⟨by omega, g2⟩, g3, ?_⟩
    simp only [wval, List.length_cons, wt, m28']
    generalize shiftChain k true ((l >>> (28 - k)) + (y >>> 28)) ls = z at *
    rw [Nat.mul_assoc]
    generalize wt true ls.length * z.2.toNat = w at *
    rw [ec] at g4
    rcases hkn with h | h <;> rw [h] at sk g4 ⊢ <;> omega

theorem shift_finish {a : Mont} (ha : Good a) (k : UInt32) (hk : k = 1 ∨ k = 2) :
    Good (reduce_carry (shiftChain k true 0 a).1 (shiftChain k true 0 a).2) ∧
      toF (reduce_carry (shiftChain k true 0 a).1 (shiftChain k true 0 a).2)
        = 2 ^ k.toNat * toF a := by
  obtain ⟨g1, g2, g3, g4⟩ := shiftChain_spec k hk a true 0 (by decide) ha.bd
  rw [ha.len] at g1
  rw [ha.len, wt9, UInt32.toNat_zero, Nat.zero_add] at g4
  have hl := ha.lt
  have hkn : k.toNat = 1 ∨ k.toNat = 2 := by rcases hk with rfl | rfl <;> simp
  obtain ⟨g5, g6⟩ := reduce_carry_spec g1 g2 (shiftChain k true 0 a).2
    (by rcases hkn with h | h <;> rw [h] at g4 <;> omega)
  refine ⟨g5, ?_⟩
  rw [g4] at g6
  have := congrArg (Nat.cast : Nat → ZMod P) g6
  push_cast at this
  rw [cast_P] at this
  unfold toF
  linear_combination ((2 : ZMod P) ^ 257)⁻¹ * this

theorem mul_scalar2_spec {a : Mont} (ha : Good a) :
    Good (mul_scalar2 a) ∧ toF (mul_scalar2 a) = 2 * toF a := by
  have := shift_finish ha 1 (Or.inl rfl)
  simpa [mul_scalar2] using this

theorem mul_scalar4_spec {a : Mont} (ha : Good a) :
    Good (mul_scalar4 a) ∧ toF (mul_scalar4 a) = 4 * toF a := by
  have := shift_finish ha 2 (Or.inr rfl)
  rw [show (2 : UInt32).toNat = 2 from rfl] at this
  have h4 : (2 : ZMod P) ^ 2 = 4 := by norm_num
  rw [h4] at this
  exact this

end Mont

end Verif.P256
