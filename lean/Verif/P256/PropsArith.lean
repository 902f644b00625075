import Verif.P256.EcLemmas

/-! C40: the arithmetic of P-256 is exact. `val` is the number that the eight digits of an integer
    stand for, `Wf` that there are eight; `P` and `N` are the primes of FIPS 186-4 (proved to be
    primes in `Primes`). -/

set_option exponentiation.threshold 600

namespace Verif.P256

open Int256 Spec

/-- C40. Addition and subtraction of integers, with their carry and borrow. -/
theorem C40_integers {a b : Int256} (ha : Wf a) (hb : Wf b) :
    (Wf (add a b).1 ∧ val (add a b).1 + 2 ^ 256 * (add a b).2.toNat = val a + val b) ∧
    (∀ d : UInt32, Wf (add_digit a d).1 ∧
      val (add_digit a d).1 + 2 ^ 256 * (add_digit a d).2.toNat = val a + d.toNat) ∧
    (Wf (sub a b).1 ∧ ((sub a b).2 = 0 ↔ val b ≤ val a) ∧
      (val (sub a b).1 : Int) = (val a - val b : Int) % 2 ^ 256) ∧
    (ct_lt a b = true ↔ val a < val b) ∧ (is_zero a = true ↔ val a = 0) := by
  have e8 : (4294967296 : Nat) ^ 8 = 2 ^ 256 := by norm_num
  obtain ⟨l1, _, h1⟩ := add_spec (a := a) (b := b) (ha.trans hb.symm)
  obtain ⟨l2, h2, h3, h4⟩ := Int256.sub_spec (a := a) (b := b) (ha.trans hb.symm)
  rw [show a.length = 8 from ha, e8] at h1 h4
  refine ⟨⟨l1.trans ha, h1⟩, fun d => ?_, ⟨l2.trans ha, h2, ?_⟩, ?_, ?_⟩
  · obtain ⟨l, _, h⟩ := add_digit_spec a d
    rw [show a.length = 8 from ha, e8] at h
    exact ⟨l.trans ha, by omega⟩
  · have hva := val_lt8 ha
    have hvb := val_lt8 hb
    generalize val (sub a b).1 = r at *
    by_cases h : (sub a b).2 = 0
    · have := h3 h
      have := h2.1 h
      omega
    · have := h4 h
      have : val a < val b := Nat.lt_of_not_le fun hle => h (h2.2 hle)
      omega
  · rw [ct_lt_spec (ha.trans hb.symm), decide_eq_true_iff]
  · rw [is_zero_spec, decide_eq_true_iff]

/-- C40. Shifts and single bits. -/
theorem C40_shifts {a : Int256} (ha : Wf a) :
    (∀ n : UInt32, 0 < n.toNat → n.toNat < 32 →
      (Wf (shl a n).1 ∧ val (shl a n).1 + 2 ^ 256 * (shl a n).2.toNat = 2 ^ n.toNat * val a) ∧
      (Wf (shr n a) ∧ val (shr n a) = val a / 2 ^ n.toNat)) ∧
    ∀ i < 256, (bit a i).toNat = val a / 2 ^ i % 2 := by
  refine ⟨fun n h0 h => ⟨?_, ?_⟩, fun i hi => ?_⟩
  · obtain ⟨w, _, e⟩ := shl_spec ha n h0 h
    exact ⟨w, e⟩
  · obtain ⟨w, e⟩ := shr_spec n h0 h a
    exact ⟨w.trans ha, e⟩
  · exact bit_spec i (by rw [show a.length = 8 from ha]; omega)

/-- C40. Conversion from and to 32 bytes, most significant first. -/
theorem C40_bytes :
    (∀ bytes : List UInt8, bytes.length = 32 →
      Wf (from_bin bytes) ∧ val (from_bin bytes) = number bytes ∧ to_bin (from_bin bytes) = bytes) ∧
    ∀ a : Int256, Wf a →
      (to_bin a).length = 32 ∧ number (to_bin a) = val a ∧ from_bin (to_bin a) = a := by
  refine ⟨fun bytes h => ?_, fun a h => ?_⟩
  · obtain ⟨w, e⟩ := from_bin_spec h
    exact ⟨w, e, to_bin_from_bin h⟩
  · obtain ⟨l, e⟩ := to_bin_spec a
    exact ⟨by rw [l, show a.length = 8 from h], e, from_bin_to_bin h⟩

/-- C40. Arithmetic modulo the two primes: sums and differences of reduced numbers, products and
    powers of any numbers, reduction of a number, inverses of exponents. -/
theorem C40_modular {a b m : Int256} (ha : Wf a) (hb : Wf b) (hm : m = Int256.P ∨ m = Int256.N) :
    (val a < val m → val b < val m →
      val (modadd_vartime a b m) = (val a + val b) % val m ∧
      val (modsub_vartime a b m) = (val a + val m - val b) % val m) ∧
    val (modmul a b m) = val a * val b % val m ∧
    (∀ top : UInt32, val (modmul_top a b top m) = val a * (val b + 2 ^ 256 * top.toNat) % val m) ∧
    val (modpow a b m) = val a ^ val b % val m ∧
    val (modd a m) = val a % val m := by
  have hw : Wf m := by rcases hm with rfl | rfl <;> rfl
  have hbig : 2 ^ 256 - 2 ^ 224 ≤ val m := by
    rcases hm with rfl | rfl
    · exact P_big
    · exact N_big
  refine ⟨fun h1 h2 => ⟨(modadd_spec ha hb hw h1 h2).2, ?_⟩, (modmul_spec ha hb hw hbig).2,
    fun top => (modmul_top_spec top ha hb hw hbig).2, (modpow_spec ha hb hw hbig).2, ?_⟩
  · rw [(modsub_spec ha hb hw h1 h2.le).2]
    split
    · rename_i h
      rw [show val a + val m - val b = val a - val b + val m by omega, Nat.add_mod_right,
        Nat.mod_eq_of_lt (by omega)]
    · rw [Nat.mod_eq_of_lt (by omega)]
  · rw [(modd_spec (ha.trans hw.symm)).2]
    have := val_lt8 ha
    split
    · rename_i h
      rw [Nat.mod_eq_sub_mod h, Nat.mod_eq_of_lt (by omega)]
    · rw [Nat.mod_eq_of_lt (by omega)]

/-- C40. The inverse modulo the group order. -/
theorem C40_inverse {a : Exponent} (ha : Wf a) (h0 : 0 < val a) (hN : val a < N) :
    val (Exponent.inv a) < N ∧ val a * val (Exponent.inv a) % N = 1 := by
  obtain ⟨_, l, c⟩ := Exponent.inv_cast ha
  refine ⟨l, ?_⟩
  have h1 : ((val a * val (Exponent.inv a) : Nat) : ZMod N) = ((1 : Nat) : ZMod N) := by
    push_cast
    rw [c, mul_inv_cancel₀ (cast_ne h0 hN)]
  rw [ZMod.natCast_eq_natCast_iff'] at h1
  rw [h1]
  decide +kernel

example : ∃ a : Exponent, Wf a ∧ 0 < val a ∧ val a < N ∧ val (Exponent.inv a) ≠ val a :=
  ⟨[2, 0, 0, 0, 0, 0, 0, 0], rfl, by decide, by decide +kernel, by
    intro h
    have := (C40_inverse (a := [2, 0, 0, 0, 0, 0, 0, 0]) rfl (by decide) (by decide +kernel)).2
    rw [h] at this
    revert this
    decide +kernel⟩

/-! ### Computations in Montgomery form -/

/-- A computation with field elements: what point.rs does between the conversions. -/
inductive Computation
  | input (x : Gfp)
  | add (a b : Computation)
  | sub (a b : Computation)
  | mul (a b : Computation)
  | square (a : Computation)
  | twice (a : Computation)
  | thrice (a : Computation)
  | fourTimes (a : Computation)
  | inverse (a : Computation)

namespace Computation

/-- The computation as the code does it, on limbs. -/
def run : Computation → Mont
  | input x => Mont.field_to_montgomery x
  | add a b => Mont.add a.run b.run
  | sub a b => Mont.sub a.run b.run
  | mul a b => Mont.mul a.run b.run
  | square a => Mont.square a.run
  | twice a => Mont.mul_scalar2 a.run
  | thrice a => Mont.mul_scalar3 a.run
  | fourTimes a => Mont.mul_scalar4 a.run
  | inverse a => Mont.inv a.run

/-- What it means, in the field of integers modulo `P`. -/
def value : Computation → ZMod P
  | input x => (val x : ZMod P)
  | add a b => a.value + b.value
  | sub a b => a.value - b.value
  | mul a b => a.value * b.value
  | square a => a.value ^ 2
  | twice a => 2 * a.value
  | thrice a => 3 * a.value
  | fourTimes a => 4 * a.value
  | inverse a => a.value⁻¹

/-- The inputs have eight digits. -/
def Inputs : Computation → Prop
  | input x => Wf x
  | add a b => a.Inputs ∧ b.Inputs
  | sub a b => a.Inputs ∧ b.Inputs
  | mul a b => a.Inputs ∧ b.Inputs
  | square a => a.Inputs
  | twice a => a.Inputs
  | thrice a => a.Inputs
  | fourTimes a => a.Inputs
  | inverse a => a.Inputs

theorem run_holds : ∀ c : Computation, c.Inputs → Mont.Holds c.run c.value
  | input _, h => Mont.field_to_montgomery_spec h
  | add a b, h => (run_holds a h.1).add (run_holds b h.2)
  | sub a b, h => (run_holds a h.1).sub (run_holds b h.2)
  | mul a b, h => (run_holds a h.1).mul (run_holds b h.2)
  | square a, h => by
    have := (run_holds a h).square
    rw [← pow_two] at this
    exact this
  | twice a, h => (run_holds a h).mul_scalar2
  | thrice a, h => (run_holds a h).mul_scalar3
  | fourTimes a, h => (run_holds a h).mul_scalar4
  | inverse a, h => (run_holds a h).inv

end Computation

/-- C40. Every computation in Montgomery form that ends with a product (as all those in point.rs
    whose result is converted back) gives the one reduced number of the result in the field, however
    many operations there are and however the limbs carry. -/
theorem C40_montgomery (c d : Computation) (hc : c.Inputs) (hd : d.Inputs) :
    Wf (Mont.montgomery_to_field (Computation.mul c d).run) ∧
    val (Mont.montgomery_to_field (Computation.mul c d).run) = (c.value * d.value).val := by
  obtain ⟨gc, ec⟩ := c.run_holds hc
  obtain ⟨gd, ed⟩ := d.run_holds hd
  simp only [Computation.run]
  obtain ⟨g, l, e⟩ := Mont.mul_spec gc gd
  obtain ⟨w, v, f⟩ := Mont.montgomery_to_field_spec g l
  generalize Mont.montgomery_to_field (Mont.mul c.run d.run) = r at *
  refine ⟨w, ?_⟩
  rw [← ec, ← ed, ← e, ← f, Gfp.toF, ZMod.val_natCast_of_lt v]

/-- C40. The conversion to Montgomery form and back. -/
theorem C40_conversion {x : Gfp} (hx : Wf x) :
    val (Mont.montgomery_to_field (Mont.mul (Mont.field_to_montgomery x)
      (Mont.field_to_montgomery Int256.ONE))) = val x % P := by
  have h := (C40_montgomery (.input x) (.input Int256.ONE) hx rfl).2
  simp only [Computation.run, Computation.value] at h
  rw [h]
  have h1 : val Int256.ONE = 1 := by decide
  rw [h1, Nat.cast_one, mul_one, ZMod.val_natCast]

/-- A computation with an inverse: `(2 + 3) / 4` times `(7 - 8)`. -/
example : ∃ c d : Computation, c.Inputs ∧ d.Inputs ∧ (c.value * d.value) * 4 = -5 := by
  have h4 : (4 : ZMod P) ≠ 0 := by
    rw [show (4 : ZMod P) = 2 * 2 by norm_num]
    exact mul_ne_zero Mont.two_ne_zero' Mont.two_ne_zero'
  refine ⟨.mul (.add (.input [2, 0, 0, 0, 0, 0, 0, 0]) (.input [3, 0, 0, 0, 0, 0, 0, 0]))
      (.inverse (.input [4, 0, 0, 0, 0, 0, 0, 0])),
    .sub (.input [7, 0, 0, 0, 0, 0, 0, 0]) (.input [8, 0, 0, 0, 0, 0, 0, 0]),
    ⟨⟨rfl, rfl⟩, rfl⟩, ⟨rfl, rfl⟩, ?_⟩
  simp [Computation.value, val]
  field_simp
  norm_num

end Verif.P256
