import Verif.P256.CurveLaw
import Verif.P256.FieldLemmas
import Mathlib.GroupTheory.OrderOfElement
import Mathlib.GroupTheory.Perm.Cycle.Type

/-! The curve P-256 in Mathlib's sense: it has no point of order two, the addition formulas are
    complete for it, and its group has the prime order `N`, generated by the base point. The
    definitions here compute with natural numbers for the kernel and model no code. -/

namespace Verif.P256

set_option exponentiation.threshold 600

/-- The coefficient `b` of the curve. -/
def bNat : Nat := 0x5ac635d8aa3a93e7b3ebbd55769886bc651d06b0cc53b0f63bce3c3e27d2604b

/-- The coefficient as a field element. -/
def bF : ZMod P := (bNat : ZMod P)

/-- The curve P-256: `y² = x³ - 3x + b` over the field with `P` elements. -/
abbrev E : WeierstrassCurve.Affine (ZMod P) := Law.curve bF

theorem val_B : val Int256.B = bNat := by decide +kernel

theorem P_pos : 0 < P := by decide +kernel

/-- A polynomial of degree two. -/
abbrev Tri := Nat × Nat × Nat

/-- The product of polynomials modulo `X³ - 3X + b`. -/
def triMul (a c : Tri) : Tri :=
  ((a.1 * c.1 + (a.2.1 * c.2.2 + a.2.2 * c.2.1) * (P - bNat)) % P,
   (a.1 * c.2.1 + a.2.1 * c.1 + 3 * (a.2.1 * c.2.2 + a.2.2 * c.2.1) +
      a.2.2 * c.2.2 * (P - bNat)) % P,
   (a.1 * c.2.2 + a.2.1 * c.2.1 + a.2.2 * c.1 + 3 * (a.2.2 * c.2.2)) % P)

/-- The value of a polynomial. -/
def triEval (r : ZMod P) (a : Tri) : ZMod P := a.1 + a.2.1 * r + a.2.2 * r ^ 2

theorem cast_sub_b : ((P - bNat : Nat) : ZMod P) = -bF := by
  have h : bNat ≤ P := by decide +kernel
  rw [Nat.cast_sub h, ZMod.natCast_self, zero_sub, bF]

theorem triEval_mul {r : ZMod P} (hr : r ^ 3 - 3 * r + bF = 0) (a c : Tri) :
    triEval r (triMul a c) = triEval r a * triEval r c := by
  simp only [triEval, triMul, ZMod.natCast_mod]
  push_cast [cast_sub_b]
  linear_combination (-(a.2.1 * c.2.2 + a.2.2 * c.2.1 : ZMod P) - a.2.2 * c.2.2 * r) * hr

/-- Powers of a polynomial, over the binary digits of the exponent. -/
def triPow : Nat → Tri → Nat → Tri → Tri
  | 0, _, _, acc => acc
  | fuel + 1, a, e, acc =>
    triPow fuel (triMul a a) (e / 2) (if e % 2 = 1 then triMul acc a else acc)

theorem triEval_pow {r : ZMod P} (hr : r ^ 3 - 3 * r + bF = 0) :
    ∀ (fuel : Nat) (a : Tri) (e : Nat) (acc : Tri), e < 2 ^ fuel →
      triEval r (triPow fuel a e acc) = triEval r acc * triEval r a ^ e := by
  intro fuel
  induction fuel with
  | zero =>
    intro a e acc h
    have : e = 0 := by simpa using h
    simp [triPow, this]
  | succ fuel ih =>
    intro a e acc h
    unfold triPow
    have he : e / 2 < 2 ^ fuel := by rw [pow_succ] at h; omega
    rw [ih _ _ _ he]
    have e2 : e = 2 * (e / 2) + e % 2 := by omega
    rw [triEval_mul hr]
    split
    · rename_i h1
      conv_rhs => rw [e2, h1, pow_succ, pow_mul]
      rw [triEval_mul hr]; ring
    · have h1 : e % 2 = 0 := by omega
      conv_rhs => rw [e2, h1, add_zero, pow_mul]
      ring

/-- `X ^ P` modulo `X³ - 3X + b`. -/
def triFrob : Tri :=
  (66434390973925144466073271287821796038003695194169110494110089305650096453661,
   12402202686218762177567235911775779164004716598278868847786114277539554646092,
   24678849118215552148312087830792888746041224110560601850711771001608500700145)

/-- The inverse of `X ^ P - X` modulo `X³ - 3X + b`. -/
def triInv : Tri :=
  (76626890310466861426869089647039036757962535851890885406097439786770458211455,
   74462945259064871768191128030512052509059297803194871526163573358218695456204,
   34768139465301476436978405170953382516735956999154666452188405812258086013549)

theorem triPow_P : triPow 256 (0, 1, 0) P (1, 0, 0) = triFrob := by decide +kernel

theorem triMul_inv : triMul triInv (triFrob.1, triFrob.2.1 - 1, triFrob.2.2) = (1, 0, 0) := by
  decide +kernel

/-- The curve has no point of order two: its cubic has no root in the field. -/
theorem no_root (r : ZMod P) : r ^ 3 - 3 * r + bF ≠ 0 := by
  intro hr
  have h1 := triEval_pow hr 256 (0, 1, 0) P (1, 0, 0) (by decide +kernel)
  rw [triPow_P] at h1
  have h2 : triEval r (0, 1, 0) = r := by simp [triEval]
  have h3 : triEval r (1, 0, 0) = 1 := by simp [triEval]
  rw [h2, h3, one_mul, ZMod.pow_card] at h1
  have h4 := triEval_mul hr triInv (triFrob.1, triFrob.2.1 - 1, triFrob.2.2)
  rw [triMul_inv, h3] at h4
  have h5 : triEval r (triFrob.1, triFrob.2.1 - 1, triFrob.2.2) = 0 := by
    have hle : 1 ≤ triFrob.2.1 := by decide +kernel
    simp only [triEval] at h1 ⊢
    rw [Nat.cast_sub hle]
    push_cast
    linear_combination h1
  rw [h5, mul_zero] at h4
  exact one_ne_zero h4

theorem odd_E : Law.Odd bF := ⟨Mont.two_ne_zero', no_root⟩

/-! Computing with points. -/

/-- Projective coordinates. -/
abbrev NP := Nat × Nat × Nat

/-- Sums by the formulas of `Law.addX`, `Law.addY` and `Law.addZ`, with numbers below `P`. -/
def nadd (p q : NP) : NP :=
  let t0 := p.1 * q.1 % P
  let t1 := p.2.1 * q.2.1 % P
  let t2 := p.2.2 * q.2.2 % P
  let t3 := (p.1 * q.2.1 + q.1 * p.2.1) % P
  let t4 := (p.2.1 * q.2.2 + q.2.1 * p.2.2) % P
  let t5 := (p.1 * q.2.2 + q.1 * p.2.2) % P
  let u := 3 * (t5 + (P - bNat) * t2) % P
  let v := 3 * (bNat * t5 + (P - 3) * t2 + (P - 1) * t0) % P
  let w := (3 * t0 + (P - 3) * t2) % P
  let um := t1 + (P - u)
  let up := t1 + u
  ((t3 * up + (P - t4) * v) % P, (up * um + w * v) % P, (t4 * um + t3 * w) % P)

/-- The coordinates `p` are those of the point `Q`. -/
def NRep (p : NP) (Q : E.Point) : Prop :=
  Law.Represents bF (p.1 : ZMod P) (p.2.1 : ZMod P) (p.2.2 : ZMod P) Q

theorem cast_sub_lt {a : Nat} (h : a ≤ P) : ((P - a : Nat) : ZMod P) = -(a : ZMod P) := by
  rw [Nat.cast_sub h, ZMod.natCast_self, zero_sub]

theorem nadd_spec {p q : NP} {A B : E.Point} (hp : NRep p A) (hq : NRep q B) :
    NRep (nadd p q) (A + B) := by
  have h := Law.add_represents odd_E hp hq
  unfold NRep
  have h1 : ((P - 1 : Nat) : ZMod P) = -1 := by
    rw [cast_sub_lt (by decide +kernel)]; norm_num
  have h3 : ((P - 3 : Nat) : ZMod P) = -3 := by
    rw [cast_sub_lt (by decide +kernel)]; norm_num
  have e1 : (((nadd p q).1 : Nat) : ZMod P) =
      Law.addX bF p.1 p.2.1 p.2.2 q.1 q.2.1 q.2.2 := by
    simp only [nadd, Law.addX, ZMod.natCast_mod]
    push_cast [cast_sub_b, h1, h3, cast_sub_lt (Nat.mod_lt _ P_pos).le, ZMod.natCast_mod]
    simp only [bF]
    ring
  have e2 : (((nadd p q).2.1 : Nat) : ZMod P) =
      Law.addY bF p.1 p.2.1 p.2.2 q.1 q.2.1 q.2.2 := by
    simp only [nadd, Law.addY, ZMod.natCast_mod]
    push_cast [cast_sub_b, h1, h3, cast_sub_lt (Nat.mod_lt _ P_pos).le, ZMod.natCast_mod]
    simp only [bF]
    ring
  have e3 : (((nadd p q).2.2 : Nat) : ZMod P) =
      Law.addZ bF p.1 p.2.1 p.2.2 q.1 q.2.1 q.2.2 := by
    simp only [nadd, Law.addZ, ZMod.natCast_mod]
    push_cast [cast_sub_b, h1, h3, cast_sub_lt (Nat.mod_lt _ P_pos).le, ZMod.natCast_mod]
    simp only [bF]
    ring
  rw [e1, e2, e3]
  exact h

/-- Multiples of a point, over the binary digits of the factor. -/
def nmulAux : Nat → NP → Nat → NP → NP
  | 0, _, _, acc => acc
  | fuel + 1, a, e, acc =>
    nmulAux fuel (nadd a a) (e / 2) (if e % 2 = 1 then nadd acc a else acc)

theorem nmulAux_spec : ∀ (fuel : Nat) (a : NP) (e : Nat) (acc : NP) (A B : E.Point),
    e < 2 ^ fuel → NRep a A → NRep acc B → NRep (nmulAux fuel a e acc) (B + e • A) := by
  intro fuel
  induction fuel with
  | zero =>
    intro a e acc A B h ha hb
    have : e = 0 := by simpa using h
    subst this
    simpa [nmulAux] using hb
  | succ fuel ih =>
    intro a e acc A B h ha hb
    unfold nmulAux
    have he : e / 2 < 2 ^ fuel := by rw [pow_succ] at h; omega
    have e2 : e = 2 * (e / 2) + e % 2 := by omega
    split
    · rename_i h1
      have := ih _ _ _ _ _ he (nadd_spec ha ha) (nadd_spec hb ha)
      have e3 : B + e • A = B + A + (e / 2) • (A + A) := by
        conv_lhs => rw [e2, h1]
        rw [add_nsmul, mul_comm, mul_nsmul', two_nsmul, one_nsmul]
        abel
      rwa [e3]
    · have h1 : e % 2 = 0 := by omega
      have := ih _ _ _ _ _ he (nadd_spec ha ha) hb
      have e3 : B + e • A = B + (e / 2) • (A + A) := by
        conv_lhs => rw [e2, h1]
        rw [add_zero, mul_comm, mul_nsmul', two_nsmul]
      rwa [e3]

def nzero : NP := (0, 1, 0)

theorem nzero_spec : NRep nzero 0 := by
  refine ⟨by simp [nzero], by simp [nzero], by simp [nzero]⟩

def nmul (n : Nat) (p : NP) : NP := nmulAux 256 p n nzero

theorem nmul_spec {n : Nat} (hn : n < 2 ^ 256) {p : NP} {A : E.Point} (h : NRep p A) :
    NRep (nmul n p) (n • A) := by
  have := nmulAux_spec 256 p n nzero A 0 hn h nzero_spec
  rwa [zero_add] at this

/-- The base point's coordinates. -/
def gx : Nat := 0x6b17d1f2e12c4247f8bce6e563a440f277037d812deb33a0f4a13945d898c296
def gy : Nat := 0x4fe342e2fe1a7f9b8ee7eb4a7c0f9e162bce33576b315ececbb6406837bf51f5

theorem equation_of_nat {x y : Nat} (h : y * y % P = (x * x * x + (P - 3) * x + bNat) % P) :
    (y : ZMod P) ^ 2 = (x : ZMod P) ^ 3 - 3 * x + bF := by
  have h3 : ((P - 3 : Nat) : ZMod P) = -3 := by
    rw [cast_sub_lt (by decide +kernel)]; norm_num
  have := (ZMod.natCast_eq_natCast_iff _ _ P).2 h
  push_cast [h3] at this
  rw [bF]
  linear_combination this

theorem g_on : E.Nonsingular (gx : ZMod P) (gy : ZMod P) :=
  Law.nonsingular odd_E (equation_of_nat (by decide +kernel))

/-- The base point of P-256. -/
def G : E.Point := .some _ _ g_on

theorem g_rep : NRep (gx, gy, 1) G := by
  have := Law.represents_one g_on
  simpa [NRep, G] using this

theorem nmul_N : (nmul N (gx, gy, 1)).2.2 = 0 := by decide +kernel

theorem zero_of_z {p : NP} {A : E.Point} (h : NRep p A) (hz : p.2.2 = 0) : A = 0 := by
  cases A with
  | zero => rfl
  | some x y n => exact absurd (by rw [hz]; simp) h.1

theorem smul_G_zero (n : Nat) (hn : n < 2 ^ 256) (h : (nmul n (gx, gy, 1)).2.2 = 0) :
    n • G = 0 :=
  zero_of_z (nmul_spec hn g_rep) h

theorem N_lt : N < 2 ^ 256 := by decide +kernel

/-- The base point's order divides `N`. -/
theorem N_G : N • G = 0 := smul_G_zero N N_lt nmul_N

theorem G_ne_zero : G ≠ 0 := WeierstrassCurve.Affine.Point.some_ne_zero _

/-- The base point has order `N`. -/
theorem order_G : addOrderOf G = N :=
  addOrderOf_eq_prime N_G G_ne_zero

/-! The number of points. -/

/-- A point from its first coordinate and one bit. -/
def code : E.Point → Option (ZMod P × Bool)
  | .zero => none
  | .some x y _ => some (x, decide (y.val % 2 = 0))

theorem y_of_parity {y y' : ZMod P} (h0 : y ≠ 0) (h : y' = -y) : y'.val % 2 ≠ y.val % 2 := by
  subst h
  have hv : (-y).val = P - y.val := by
    rw [ZMod.neg_val, if_neg h0]
  have hlt := ZMod.val_lt y
  have hodd : P % 2 = 1 := by decide +kernel
  omega

theorem code_injective : Function.Injective code := by
  intro A B h
  cases A with
  | zero =>
    cases B with
    | zero => rfl
    | some x y n => simp [code] at h
  | some x y n =>
    cases B with
    | zero => simp [code] at h
    | some x' y' n' =>
      simp only [code, Option.some.injEq, Prod.mk.injEq, decide_eq_decide] at h
      obtain ⟨hx, hp⟩ := h
      subst hx
      have e := Law.equation_iff.1 n.1
      have e' := Law.equation_iff.1 n'.1
      have hy0 := Law.y_ne_zero odd_E e
      have : (y' - y) * (y' + y) = 0 := by linear_combination e' - e
      rcases mul_eq_zero.1 this with h | h
      · have : y' = y := sub_eq_zero.1 h
        subst this
        rfl
      · have hq : y' = -y := by linear_combination h
        have := y_of_parity hy0 hq
        omega

instance : Finite E.Point := Finite.of_injective _ code_injective

theorem card_le : Nat.card E.Point ≤ 2 * P + 1 := by
  have h := Nat.card_le_card_of_injective _ code_injective
  have : Nat.card (Option (ZMod P × Bool)) = 2 * P + 1 := by
    rw [Finite.card_option, Nat.card_prod, Nat.card_zmod]
    simp [mul_comm]
  rwa [this] at h

/-- No point has order two. -/
theorem two_torsion {A : E.Point} (h : 2 • A = 0) : A = 0 := by
  cases A with
  | zero => rfl
  | some x y n =>
    rw [two_nsmul] at h
    have hneg := eq_neg_of_add_eq_zero_left h
    rw [WeierstrassCurve.Affine.Point.neg_some] at hneg
    have hy : y = E.negY x y := by
      injection hneg
    have e := Law.equation_iff.1 n.1
    simp only [WeierstrassCurve.Affine.negY, Law.curve] at hy
    exact absurd (by linear_combination hy) (mul_ne_zero odd_E.two (Law.y_ne_zero odd_E e))

/-- The group of the curve has `N` elements. -/
theorem card_E : Nat.card E.Point = N := by
  have hd : N ∣ Nat.card E.Point := by
    rw [← order_G]
    exact addOrderOf_dvd_natCard G
  obtain ⟨k, hk⟩ := hd
  have hle := card_le
  have hpos : 0 < Nat.card E.Point := Nat.card_pos
  have hPN : 2 * P + 1 < N * 3 := by decide +kernel
  have hk3 : k < 3 := by
    by_contra hge
    have : N * 3 ≤ N * k := Nat.mul_le_mul_left _ (by omega)
    omega
  have hk0 : k ≠ 0 := by
    rintro rfl
    omega
  have hk2 : k ≠ 2 := by
    rintro rfl
    have : Fact (Nat.Prime 2) := ⟨Nat.prime_two⟩
    obtain ⟨A, hA⟩ := exists_prime_addOrderOf_dvd_card' (G := E.Point) 2 ⟨N, by rw [hk]; ring⟩
    have h2 : 2 • A = 0 := by rw [← hA]; exact addOrderOf_nsmul_eq_zero A
    have := two_torsion h2
    rw [this, addOrderOf_zero] at hA
    omega
  have : k = 1 := by omega
  rw [hk, this, mul_one]

/-- `N` annihilates every point. -/
theorem N_smul (A : E.Point) : N • A = 0 := by
  rw [← card_E]
  exact card_nsmul_eq_zero'

/-- Every point other than infinity has order `N`. -/
theorem order_point {A : E.Point} (h : A ≠ 0) : addOrderOf A = N :=
  addOrderOf_eq_prime (N_smul A) h

theorem smul_eq_zero {A : E.Point} (h : A ≠ 0) (n : Nat) : n • A = 0 ↔ N ∣ n := by
  rw [← order_point h]
  exact addOrderOf_dvd_iff_nsmul_eq_zero.symm

/-- Multiples depend on the factor modulo `N` only. -/
theorem smul_mod (A : E.Point) (n : Nat) : (n % N) • A = n • A := by
  conv_rhs => rw [← Nat.mod_add_div n N, add_nsmul, mul_nsmul, N_smul, nsmul_zero, add_zero]

end Verif.P256
