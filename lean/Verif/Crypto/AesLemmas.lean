import Verif.Crypto.AesModel
import Verif.Crypto.AesSpec
namespace Verif.Crypto.Aes
open Verif.Crypto

theorem sbox_inv_sbox (x : UInt8) : sboxInv (sbox x) = x := by
  have h : ∀ i : Fin 256, sboxInv (sbox (UInt8.ofFin i)) = UInt8.ofFin i := by decide +kernel
  exact h x.toFin

/-- A square-and-multiply inverse, only used to exhibit the witness. -/
def ginv (x : UInt8) : UInt8 :=
  [1, 1, 1, 1, 1, 1, 0].foldl (fun acc (b : Nat) =>
    let s := Spec.gmul acc acc
    if b = 1 then Spec.gmul s x else s) x

theorem sbox_isSbox (x : UInt8) : Spec.IsSbox x (sbox x) := by
  have h : ∀ i : Fin 256, (if UInt8.ofFin i = 0 then ginv (UInt8.ofFin i) = 0
      else Spec.gmul (UInt8.ofFin i) (ginv (UInt8.ofFin i)) = 1) ∧
      sbox (UInt8.ofFin i) = Spec.affine (ginv (UInt8.ofFin i)) := by decide +kernel
  exact ⟨ginv x, h x.toFin⟩

theorem mul2_eq (x : UInt8) : mul2 x = Spec.gmul 2 x := by
  have h : ∀ i : Fin 256, mul2 (UInt8.ofFin i) = Spec.gmul 2 (UInt8.ofFin i) := by decide +kernel
  exact h x.toFin

theorem mul3_eq (x : UInt8) : mul3 x = Spec.gmul 3 x := by
  have h : ∀ i : Fin 256, mul3 (UInt8.ofFin i) = Spec.gmul 3 (UInt8.ofFin i) := by decide +kernel
  exact h x.toFin

theorem and_one_xor (a b : UInt8) : (a ^^^ b) &&& 1 = (a &&& 1) ^^^ (b &&& 1) := by
  apply UInt8.toBitVec_inj.1
  apply BitVec.eq_of_getLsbD_eq
  intro i _
  simp only [UInt8.toBitVec_and, UInt8.toBitVec_xor, BitVec.getLsbD_and, BitVec.getLsbD_xor]
  cases (BitVec.getLsbD a.toBitVec i) <;> cases (BitVec.getLsbD b.toBitVec i) <;> simp

theorem bit_cases (x : UInt8) : (x >>> 7) &&& 1 = 0 ∨ (x >>> 7) &&& 1 = 1 := by
  have h : ∀ i : Fin 256, (UInt8.ofFin i >>> 7) &&& 1 = 0 ∨ (UInt8.ofFin i >>> 7) &&& 1 = 1 := by decide +kernel
  exact h x.toFin

theorem mul2_xor (x y : UInt8) : mul2 (x ^^^ y) = mul2 x ^^^ mul2 y := by
  have h1 : (x ^^^ y) <<< 1 = (x <<< 1) ^^^ (y <<< 1) := UInt8.shiftLeft_xor
  have h2 : ((x ^^^ y) >>> (7 : UInt8)) &&& (1 : UInt8) =
      ((x >>> (7 : UInt8)) &&& (1 : UInt8)) ^^^ ((y >>> (7 : UInt8)) &&& (1 : UInt8)) := by
    rw [UInt8.shiftRight_xor, and_one_xor]
  unfold mul2
  rw [h1, h2]
  have h3 : ∀ u v : UInt8, (u = 0 ∨ u = 1) → (v = 0 ∨ v = 1) →
      (u ^^^ v) * 0x1b = (u * 0x1b) ^^^ (v * 0x1b) := by
    rintro u v (rfl | rfl) (rfl | rfl) <;> decide
  rw [h3 _ _ (bit_cases x) (bit_cases y)]
  simp only [UInt8.xor_assoc]
  congr 1
  rw [← UInt8.xor_assoc, ← UInt8.xor_assoc, UInt8.xor_comm (y <<< 1)]


theorem exists16 {b : Bytes} (h : b.length = 16) : ∃ a0 a1 a2 a3 a4 a5 a6 a7 a8 a9 a10 a11 a12 a13 a14 a15, b = [a0, a1, a2, a3, a4, a5, a6, a7, a8, a9, a10, a11, a12, a13, a14, a15] := by
  match b, h with
  | [a0, a1, a2, a3, a4, a5, a6, a7, a8, a9, a10, a11, a12, a13, a14, a15], _ => exact ⟨a0, a1, a2, a3, a4, a5, a6, a7, a8, a9, a10, a11, a12, a13, a14, a15, rfl⟩

theorem xor_left_comm (a b c : UInt8) : a ^^^ (b ^^^ c) = b ^^^ (a ^^^ c) := by
  rw [← UInt8.xor_assoc, UInt8.xor_comm a b, UInt8.xor_assoc]

theorem xor_cancel_left (a b : UInt8) : a ^^^ (a ^^^ b) = b := by
  rw [← UInt8.xor_assoc]; simp

theorem mul_xor9 (x y : UInt8) : mul9 (x ^^^ y) = mul9 x ^^^ mul9 y := by
  simp only [mul9, mul2_xor]; ac_rfl
theorem mul_xor11 (x y : UInt8) : mul11 (x ^^^ y) = mul11 x ^^^ mul11 y := by
  simp only [mul11, mul2_xor]; ac_rfl
theorem mul_xor13 (x y : UInt8) : mul13 (x ^^^ y) = mul13 x ^^^ mul13 y := by
  simp only [mul13, mul2_xor]; ac_rfl
theorem mul_xor14 (x y : UInt8) : mul14 (x ^^^ y) = mul14 x ^^^ mul14 y := by
  simp only [mul14, mul2_xor]; ac_rfl

theorem regroup (t00 t01 t02 t03 t10 t11 t12 t13 t20 t21 t22 t23 t30 t31 t32 t33 : UInt8) :
    (t00 ^^^ t01 ^^^ t02 ^^^ t03) ^^^ (t10 ^^^ t11 ^^^ t12 ^^^ t13) ^^^ (t20 ^^^ t21 ^^^ t22 ^^^ t23) ^^^ (t30 ^^^ t31 ^^^ t32 ^^^ t33) =
    (t00 ^^^ t10 ^^^ t20 ^^^ t30) ^^^ (t01 ^^^ t11 ^^^ t21 ^^^ t31) ^^^ (t02 ^^^ t12 ^^^ t22 ^^^ t32) ^^^ (t03 ^^^ t13 ^^^ t23 ^^^ t33) := by ac_rfl

theorem xor4 (a b c d e f g h : UInt8) : (a ^^^ b) ^^^ (c ^^^ d) ^^^ (e ^^^ f) ^^^ (g ^^^ h) =
    (a ^^^ c ^^^ e ^^^ g) ^^^ (b ^^^ d ^^^ f ^^^ h) := by ac_rfl

theorem col0 (x0 x1 x2 x3 : UInt8) :
    mul14 (mul2 x0 ^^^ mul3 x1 ^^^ x2 ^^^ x3) ^^^ mul11 (x0 ^^^ mul2 x1 ^^^ mul3 x2 ^^^ x3) ^^^ mul13 (x0 ^^^ x1 ^^^ mul2 x2 ^^^ mul3 x3) ^^^ mul9 (mul3 x0 ^^^ x1 ^^^ x2 ^^^ mul2 x3) = x0 := by
  have g0 : ∀ x : UInt8, mul14 (mul2 x) ^^^ mul11 x ^^^ mul13 x ^^^ mul9 (mul3 x) = x := by
    have h : ∀ i : Fin 256, (fun x : UInt8 => mul14 (mul2 x) ^^^ mul11 x ^^^ mul13 x ^^^ mul9 (mul3 x)) (UInt8.ofFin i) = (fun x : UInt8 => x) (UInt8.ofFin i) := by
      decide +kernel
    exact fun x => h x.toFin
  have g1 : ∀ x : UInt8, mul14 (mul3 x) ^^^ mul11 (mul2 x) ^^^ mul13 x ^^^ mul9 x = 0 := by
    have h : ∀ i : Fin 256, (fun x : UInt8 => mul14 (mul3 x) ^^^ mul11 (mul2 x) ^^^ mul13 x ^^^ mul9 x) (UInt8.ofFin i) = (fun x : UInt8 => 0) (UInt8.ofFin i) := by
      decide +kernel
    exact fun x => h x.toFin
  have g2 : ∀ x : UInt8, mul14 x ^^^ mul11 (mul3 x) ^^^ mul13 (mul2 x) ^^^ mul9 x = 0 := by
    have h : ∀ i : Fin 256, (fun x : UInt8 => mul14 x ^^^ mul11 (mul3 x) ^^^ mul13 (mul2 x) ^^^ mul9 x) (UInt8.ofFin i) = (fun x : UInt8 => 0) (UInt8.ofFin i) := by
      decide +kernel
    exact fun x => h x.toFin
  have g3 : ∀ x : UInt8, mul14 x ^^^ mul11 x ^^^ mul13 (mul3 x) ^^^ mul9 (mul2 x) = 0 := by
    have h : ∀ i : Fin 256, (fun x : UInt8 => mul14 x ^^^ mul11 x ^^^ mul13 (mul3 x) ^^^ mul9 (mul2 x)) (UInt8.ofFin i) = (fun x : UInt8 => 0) (UInt8.ofFin i) := by
      decide +kernel
    exact fun x => h x.toFin
  simp only [mul_xor9, mul_xor11, mul_xor13, mul_xor14]
  rw [regroup, g0 x0, g1 x1, g2 x2, g3 x3]
  simp

theorem col1 (x0 x1 x2 x3 : UInt8) :
    mul9 (mul2 x0 ^^^ mul3 x1 ^^^ x2 ^^^ x3) ^^^ mul14 (x0 ^^^ mul2 x1 ^^^ mul3 x2 ^^^ x3) ^^^ mul11 (x0 ^^^ x1 ^^^ mul2 x2 ^^^ mul3 x3) ^^^ mul13 (mul3 x0 ^^^ x1 ^^^ x2 ^^^ mul2 x3) = x1 := by
  have g0 : ∀ x : UInt8, mul9 (mul2 x) ^^^ mul14 x ^^^ mul11 x ^^^ mul13 (mul3 x) = 0 := by
    have h : ∀ i : Fin 256, (fun x : UInt8 => mul9 (mul2 x) ^^^ mul14 x ^^^ mul11 x ^^^ mul13 (mul3 x)) (UInt8.ofFin i) = (fun x : UInt8 => 0) (UInt8.ofFin i) := by
      decide +kernel
    exact fun x => h x.toFin
  have g1 : ∀ x : UInt8, mul9 (mul3 x) ^^^ mul14 (mul2 x) ^^^ mul11 x ^^^ mul13 x = x := by
    have h : ∀ i : Fin 256, (fun x : UInt8 => mul9 (mul3 x) ^^^ mul14 (mul2 x) ^^^ mul11 x ^^^ mul13 x) (UInt8.ofFin i) = (fun x : UInt8 => x) (UInt8.ofFin i) := by
      decide +kernel
    exact fun x => h x.toFin
  have g2 : ∀ x : UInt8, mul9 x ^^^ mul14 (mul3 x) ^^^ mul11 (mul2 x) ^^^ mul13 x = 0 := by
    have h : ∀ i : Fin 256, (fun x : UInt8 => mul9 x ^^^ mul14 (mul3 x) ^^^ mul11 (mul2 x) ^^^ mul13 x) (UInt8.ofFin i) = (fun x : UInt8 => 0) (UInt8.ofFin i) := by
      decide +kernel
    exact fun x => h x.toFin
  have g3 : ∀ x : UInt8, mul9 x ^^^ mul14 x ^^^ mul11 (mul3 x) ^^^ mul13 (mul2 x) = 0 := by
    have h : ∀ i : Fin 256, (fun x : UInt8 => mul9 x ^^^ mul14 x ^^^ mul11 (mul3 x) ^^^ mul13 (mul2 x)) (UInt8.ofFin i) = (fun x : UInt8 => 0) (UInt8.ofFin i) := by
      decide +kernel
    exact fun x => h x.toFin
  simp only [mul_xor9, mul_xor11, mul_xor13, mul_xor14]
  rw [regroup, g0 x0, g1 x1, g2 x2, g3 x3]
  simp

theorem col2 (x0 x1 x2 x3 : UInt8) :
    mul13 (mul2 x0 ^^^ mul3 x1 ^^^ x2 ^^^ x3) ^^^ mul9 (x0 ^^^ mul2 x1 ^^^ mul3 x2 ^^^ x3) ^^^ mul14 (x0 ^^^ x1 ^^^ mul2 x2 ^^^ mul3 x3) ^^^ mul11 (mul3 x0 ^^^ x1 ^^^ x2 ^^^ mul2 x3) = x2 := by
  have g0 : ∀ x : UInt8, mul13 (mul2 x) ^^^ mul9 x ^^^ mul14 x ^^^ mul11 (mul3 x) = 0 := by
    have h : ∀ i : Fin 256, (fun x : UInt8 => mul13 (mul2 x) ^^^ mul9 x ^^^ mul14 x ^^^ mul11 (mul3 x)) (UInt8.ofFin i) = (fun x : UInt8 => 0) (UInt8.ofFin i) := by
      decide +kernel
    exact fun x => h x.toFin
  have g1 : ∀ x : UInt8, mul13 (mul3 x) ^^^ mul9 (mul2 x) ^^^ mul14 x ^^^ mul11 x = 0 := by
    have h : ∀ i : Fin 256, (fun x : UInt8 => mul13 (mul3 x) ^^^ mul9 (mul2 x) ^^^ mul14 x ^^^ mul11 x) (UInt8.ofFin i) = (fun x : UInt8 => 0) (UInt8.ofFin i) := by
      decide +kernel
    exact fun x => h x.toFin
  have g2 : ∀ x : UInt8, mul13 x ^^^ mul9 (mul3 x) ^^^ mul14 (mul2 x) ^^^ mul11 x = x := by
    have h : ∀ i : Fin 256, (fun x : UInt8 => mul13 x ^^^ mul9 (mul3 x) ^^^ mul14 (mul2 x) ^^^ mul11 x) (UInt8.ofFin i) = (fun x : UInt8 => x) (UInt8.ofFin i) := by
      decide +kernel
    exact fun x => h x.toFin
  have g3 : ∀ x : UInt8, mul13 x ^^^ mul9 x ^^^ mul14 (mul3 x) ^^^ mul11 (mul2 x) = 0 := by
    have h : ∀ i : Fin 256, (fun x : UInt8 => mul13 x ^^^ mul9 x ^^^ mul14 (mul3 x) ^^^ mul11 (mul2 x)) (UInt8.ofFin i) = (fun x : UInt8 => 0) (UInt8.ofFin i) := by
      decide +kernel
    exact fun x => h x.toFin
  simp only [mul_xor9, mul_xor11, mul_xor13, mul_xor14]
  rw [regroup, g0 x0, g1 x1, g2 x2, g3 x3]
  simp

theorem col3 (x0 x1 x2 x3 : UInt8) :
    mul11 (mul2 x0 ^^^ mul3 x1 ^^^ x2 ^^^ x3) ^^^ mul13 (x0 ^^^ mul2 x1 ^^^ mul3 x2 ^^^ x3) ^^^ mul9 (x0 ^^^ x1 ^^^ mul2 x2 ^^^ mul3 x3) ^^^ mul14 (mul3 x0 ^^^ x1 ^^^ x2 ^^^ mul2 x3) = x3 := by
  have g0 : ∀ x : UInt8, mul11 (mul2 x) ^^^ mul13 x ^^^ mul9 x ^^^ mul14 (mul3 x) = 0 := by
    have h : ∀ i : Fin 256, (fun x : UInt8 => mul11 (mul2 x) ^^^ mul13 x ^^^ mul9 x ^^^ mul14 (mul3 x)) (UInt8.ofFin i) = (fun x : UInt8 => 0) (UInt8.ofFin i) := by
      decide +kernel
    exact fun x => h x.toFin
  have g1 : ∀ x : UInt8, mul11 (mul3 x) ^^^ mul13 (mul2 x) ^^^ mul9 x ^^^ mul14 x = 0 := by
    have h : ∀ i : Fin 256, (fun x : UInt8 => mul11 (mul3 x) ^^^ mul13 (mul2 x) ^^^ mul9 x ^^^ mul14 x) (UInt8.ofFin i) = (fun x : UInt8 => 0) (UInt8.ofFin i) := by
      decide +kernel
    exact fun x => h x.toFin
  have g2 : ∀ x : UInt8, mul11 x ^^^ mul13 (mul3 x) ^^^ mul9 (mul2 x) ^^^ mul14 x = 0 := by
    have h : ∀ i : Fin 256, (fun x : UInt8 => mul11 x ^^^ mul13 (mul3 x) ^^^ mul9 (mul2 x) ^^^ mul14 x) (UInt8.ofFin i) = (fun x : UInt8 => 0) (UInt8.ofFin i) := by
      decide +kernel
    exact fun x => h x.toFin
  have g3 : ∀ x : UInt8, mul11 x ^^^ mul13 x ^^^ mul9 (mul3 x) ^^^ mul14 (mul2 x) = x := by
    have h : ∀ i : Fin 256, (fun x : UInt8 => mul11 x ^^^ mul13 x ^^^ mul9 (mul3 x) ^^^ mul14 (mul2 x)) (UInt8.ofFin i) = (fun x : UInt8 => x) (UInt8.ofFin i) := by
      decide +kernel
    exact fun x => h x.toFin
  simp only [mul_xor9, mul_xor11, mul_xor13, mul_xor14]
  rw [regroup, g0 x0, g1 x1, g2 x2, g3 x3]
  simp

theorem set_cons0 (x a : UInt8) (l : Bytes) : (a :: l).set 0 x = x :: l := rfl
theorem set_consS (x a : UInt8) (l : Bytes) (n : Nat) : (a :: l).set (n + 1) x = a :: l.set n x := rfl
theorem getD_cons0 (a : UInt8) (l : Bytes) : (a :: l).getD 0 0 = a := rfl
theorem getD_consS (a : UInt8) (l : Bytes) (n : Nat) : (a :: l).getD (n + 1) 0 = l.getD n 0 := rfl

theorem mixColumns_eq (a0 a1 a2 a3 a4 a5 a6 a7 a8 a9 a10 a11 a12 a13 a14 a15 : UInt8) : mixColumns [a0, a1, a2, a3, a4, a5, a6, a7, a8, a9, a10, a11, a12, a13, a14, a15] =
    [mul2 a0 ^^^ mul3 a1 ^^^ a2 ^^^ a3, a0 ^^^ mul2 a1 ^^^ mul3 a2 ^^^ a3, a0 ^^^ a1 ^^^ mul2 a2 ^^^ mul3 a3, mul3 a0 ^^^ a1 ^^^ a2 ^^^ mul2 a3, mul2 a4 ^^^ mul3 a5 ^^^ a6 ^^^ a7, a4 ^^^ mul2 a5 ^^^ mul3 a6 ^^^ a7, a4 ^^^ a5 ^^^ mul2 a6 ^^^ mul3 a7, mul3 a4 ^^^ a5 ^^^ a6 ^^^ mul2 a7, mul2 a8 ^^^ mul3 a9 ^^^ a10 ^^^ a11, a8 ^^^ mul2 a9 ^^^ mul3 a10 ^^^ a11, a8 ^^^ a9 ^^^ mul2 a10 ^^^ mul3 a11, mul3 a8 ^^^ a9 ^^^ a10 ^^^ mul2 a11, mul2 a12 ^^^ mul3 a13 ^^^ a14 ^^^ a15, a12 ^^^ mul2 a13 ^^^ mul3 a14 ^^^ a15, a12 ^^^ a13 ^^^ mul2 a14 ^^^ mul3 a15, mul3 a12 ^^^ a13 ^^^ a14 ^^^ mul2 a15] := rfl

theorem invMixColumns_eq (a0 a1 a2 a3 a4 a5 a6 a7 a8 a9 a10 a11 a12 a13 a14 a15 : UInt8) : invMixColumns [a0, a1, a2, a3, a4, a5, a6, a7, a8, a9, a10, a11, a12, a13, a14, a15] =
    [mul14 a0 ^^^ mul11 a1 ^^^ mul13 a2 ^^^ mul9 a3, mul9 a0 ^^^ mul14 a1 ^^^ mul11 a2 ^^^ mul13 a3, mul13 a0 ^^^ mul9 a1 ^^^ mul14 a2 ^^^ mul11 a3, mul11 a0 ^^^ mul13 a1 ^^^ mul9 a2 ^^^ mul14 a3, mul14 a4 ^^^ mul11 a5 ^^^ mul13 a6 ^^^ mul9 a7, mul9 a4 ^^^ mul14 a5 ^^^ mul11 a6 ^^^ mul13 a7, mul13 a4 ^^^ mul9 a5 ^^^ mul14 a6 ^^^ mul11 a7, mul11 a4 ^^^ mul13 a5 ^^^ mul9 a6 ^^^ mul14 a7, mul14 a8 ^^^ mul11 a9 ^^^ mul13 a10 ^^^ mul9 a11, mul9 a8 ^^^ mul14 a9 ^^^ mul11 a10 ^^^ mul13 a11, mul13 a8 ^^^ mul9 a9 ^^^ mul14 a10 ^^^ mul11 a11, mul11 a8 ^^^ mul13 a9 ^^^ mul9 a10 ^^^ mul14 a11, mul14 a12 ^^^ mul11 a13 ^^^ mul13 a14 ^^^ mul9 a15, mul9 a12 ^^^ mul14 a13 ^^^ mul11 a14 ^^^ mul13 a15, mul13 a12 ^^^ mul9 a13 ^^^ mul14 a14 ^^^ mul11 a15, mul11 a12 ^^^ mul13 a13 ^^^ mul9 a14 ^^^ mul14 a15] := rfl

theorem invMix_mix {b : Bytes} (h : b.length = 16) : invMixColumns (mixColumns b) = b := by
  obtain ⟨a0, a1, a2, a3, a4, a5, a6, a7, a8, a9, a10, a11, a12, a13, a14, a15, rfl⟩ := exists16 h
  rw [mixColumns_eq, invMixColumns_eq]
  simp only [col0, col1, col2, col3]

theorem xorBlock_cons (a b : UInt8) (x y : Bytes) : xorBlock (a :: x) (b :: y) = (a ^^^ b) :: xorBlock x y := rfl
theorem xorBlock_nil : xorBlock [] [] = [] := rfl

theorem invMix_xor {a b : Bytes} (ha : a.length = 16) (hb : b.length = 16) :
    invMixColumns (xorBlock a b) = xorBlock (invMixColumns a) (invMixColumns b) := by
  obtain ⟨a0, a1, a2, a3, a4, a5, a6, a7, a8, a9, a10, a11, a12, a13, a14, a15, rfl⟩ := exists16 ha
  obtain ⟨b0, b1, b2, b3, b4, b5, b6, b7, b8, b9, b10, b11, b12, b13, b14, b15, rfl⟩ := exists16 hb
  simp only [xorBlock_cons, xorBlock_nil, invMixColumns_eq, mul_xor9, mul_xor11, mul_xor13, mul_xor14, xor4]

theorem shiftRows_eq (a0 a1 a2 a3 a4 a5 a6 a7 a8 a9 a10 a11 a12 a13 a14 a15 : UInt8) : shiftRows [a0, a1, a2, a3, a4, a5, a6, a7, a8, a9, a10, a11, a12, a13, a14, a15] = [a0, a5, a10, a15, a4, a9, a14, a3, a8, a13, a2, a7, a12, a1, a6, a11] := by
  simp only [shiftRows, swap, at', List.set_cons_succ, List.set_cons_zero, List.getD_cons_succ, List.getD_cons_zero]
theorem invShiftRows_eq (a0 a1 a2 a3 a4 a5 a6 a7 a8 a9 a10 a11 a12 a13 a14 a15 : UInt8) : invShiftRows [a0, a1, a2, a3, a4, a5, a6, a7, a8, a9, a10, a11, a12, a13, a14, a15] = [a0, a13, a10, a7, a4, a1, a14, a11, a8, a5, a2, a15, a12, a9, a6, a3] := by
  simp only [invShiftRows, swap, at', List.set_cons_succ, List.set_cons_zero, List.getD_cons_succ, List.getD_cons_zero]

theorem invShift_shift {b : Bytes} (h : b.length = 16) : invShiftRows (shiftRows b) = b := by
  obtain ⟨a0, a1, a2, a3, a4, a5, a6, a7, a8, a9, a10, a11, a12, a13, a14, a15, rfl⟩ := exists16 h
  rw [shiftRows_eq, invShiftRows_eq]

theorem invSub_sub (b : Bytes) : invSubBytes (subBytes b) = b := by
  unfold invSubBytes subBytes
  rw [List.map_map]
  conv => rhs; rw [← List.map_id b]
  congr 1; funext x; exact sbox_inv_sbox x

theorem len_sub (b : Bytes) : (subBytes b).length = b.length := by simp [subBytes]
theorem len_swap (b : Bytes) (i j : Nat) : (swap b i j).length = b.length := by simp [swap]
theorem len_shift (b : Bytes) : (shiftRows b).length = b.length := by simp [shiftRows, swap]
theorem len_mix (b : Bytes) : (mixColumns b).length = b.length := by simp [mixColumns, mixColumn]
theorem len_invMix (b : Bytes) : (invMixColumns b).length = b.length := by simp [invMixColumns, invMixColumn]
theorem len_xor {a b : Bytes} (ha : a.length = 16) (hb : b.length = 16) : (xorBlock a b).length = 16 := by
  simp [xorBlock, ha, hb]

end Verif.Crypto.Aes
