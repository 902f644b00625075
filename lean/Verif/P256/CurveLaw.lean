import Mathlib.AlgebraicGeometry.EllipticCurve.Affine.Point
import Mathlib.Tactic.LinearCombination
import Mathlib.Tactic.FieldSimp
import Mathlib.Tactic.Ring

/-! The addition formulas of point.rs as formulas over a field, proved complete: for a curve
    `y² = x³ - 3x + b` without points of order two they give the sum of every two points, in
    Mathlib's group of the curve. -/

namespace Verif.P256.Law

variable {F : Type} [Field F] [DecidableEq F]

/-- The curve `y² = x³ - 3x + b`. -/
def curve (b : F) : WeierstrassCurve.Affine F :=
  { a₁ := 0, a₂ := 0, a₃ := 0, a₄ := -3, a₆ := b }

/-- What is required of the curve: the characteristic is not two, and no point has order two. -/
structure Odd (b : F) : Prop where
  two : (2 : F) ≠ 0
  root : ∀ x : F, x ^ 3 - 3 * x + b ≠ 0

omit [DecidableEq F] in
theorem equation_iff {b x y : F} : (curve b).Equation x y ↔ y ^ 2 = x ^ 3 - 3 * x + b := by
  rw [WeierstrassCurve.Affine.equation_iff]
  simp only [curve]
  constructor <;> intro h <;> linear_combination h

omit [DecidableEq F] in
theorem y_ne_zero {b x y : F} (ho : Odd b) (h : y ^ 2 = x ^ 3 - 3 * x + b) : y ≠ 0 := by
  intro hy
  subst hy
  exact ho.root x (by rw [← h]; ring)

theorem nonsingular {b x y : F} (ho : Odd b) (h : y ^ 2 = x ^ 3 - 3 * x + b) :
    (curve b).Nonsingular x y := by
  rw [WeierstrassCurve.Affine.nonsingular_iff']
  refine ⟨equation_iff.2 h, Or.inr ?_⟩
  simp only [curve, zero_mul, add_zero]
  exact mul_ne_zero ho.two (y_ne_zero ho h)

/-- `X`, `Y`, `Z` are projective coordinates of the point. -/
def Represents (b X Y Z : F) : (curve b).Point → Prop
  | .zero => X = 0 ∧ Z = 0 ∧ Y ≠ 0
  | .some x y _ => Z ≠ 0 ∧ X = x * Z ∧ Y = y * Z

omit [DecidableEq F] in
theorem Represents.scale {b X Y Z c : F} {Q : (curve b).Point} (h : Represents b X Y Z Q)
    (hc : c ≠ 0) : Represents b (c * X) (c * Y) (c * Z) Q := by
  cases Q with
  | zero =>
    obtain ⟨hx, hz, hy⟩ := h
    exact ⟨by rw [hx, mul_zero], by rw [hz, mul_zero], mul_ne_zero hc hy⟩
  | some x y _ =>
    obtain ⟨hz, hx, hy⟩ := h
    exact ⟨mul_ne_zero hc hz, by rw [hx]; ring, by rw [hy]; ring⟩

/-- point.rs 491-548, the first coordinate of the sum. -/
def addX (b x₁ y₁ z₁ x₂ y₂ z₂ : F) : F :=
  (x₁ * y₂ + x₂ * y₁) * (y₁ * y₂ + 3 * (x₁ * z₂ + x₂ * z₁ - b * (z₁ * z₂))) -
    (y₁ * z₂ + y₂ * z₁) * (3 * (b * (x₁ * z₂ + x₂ * z₁) - 3 * (z₁ * z₂) - x₁ * x₂))

/-- The second coordinate. -/
def addY (b x₁ y₁ z₁ x₂ y₂ z₂ : F) : F :=
  (y₁ * y₂ + 3 * (x₁ * z₂ + x₂ * z₁ - b * (z₁ * z₂))) *
      (y₁ * y₂ - 3 * (x₁ * z₂ + x₂ * z₁ - b * (z₁ * z₂))) +
    (3 * (x₁ * x₂) - 3 * (z₁ * z₂)) * (3 * (b * (x₁ * z₂ + x₂ * z₁) - 3 * (z₁ * z₂) - x₁ * x₂))

/-- The third coordinate. -/
def addZ (b x₁ y₁ z₁ x₂ y₂ z₂ : F) : F :=
  (y₁ * z₂ + y₂ * z₁) * (y₁ * y₂ - 3 * (x₁ * z₂ + x₂ * z₁ - b * (z₁ * z₂))) +
    (x₁ * y₂ + x₂ * y₁) * (3 * (x₁ * x₂) - 3 * (z₁ * z₂))

/-- point.rs 274-319, the coordinates of the double. -/
def dblX (b x y z : F) : F :=
  (y ^ 2 - 3 * (b * z ^ 2 - 2 * (x * z))) * (2 * (x * y)) -
    (2 * (y * z)) * (3 * (b * (2 * (x * z)) - 3 * z ^ 2 - x ^ 2))

def dblY (b x y z : F) : F :=
  (y ^ 2 - 3 * (b * z ^ 2 - 2 * (x * z))) * (y ^ 2 + 3 * (b * z ^ 2 - 2 * (x * z))) +
    (3 * x ^ 2 - 3 * z ^ 2) * (3 * (b * (2 * (x * z)) - 3 * z ^ 2 - x ^ 2))

def dblZ (_b _x y z : F) : F := 4 * ((2 * (y * z)) * y ^ 2)

/-- Two points with different first coordinates. -/
theorem add_chord {b x₁ y₁ x₂ y₂ : F} (ho : Odd b) (h₁ : (curve b).Nonsingular x₁ y₁)
    (h₂ : (curve b).Nonsingular x₂ y₂) (hx : x₁ ≠ x₂) :
    Represents b (addX b x₁ y₁ 1 x₂ y₂ 1) (addY b x₁ y₁ 1 x₂ y₂ 1) (addZ b x₁ y₁ 1 x₂ y₂ 1)
      (.some x₁ y₁ h₁ + .some x₂ y₂ h₂ : (curve b).Point) := by
  have e₁ := equation_iff.1 h₁.1
  have e₂ := equation_iff.1 h₂.1
  have hd : x₁ - x₂ ≠ 0 := sub_ne_zero.2 hx
  obtain ⟨d, hdd⟩ : ∃ d, d = x₁ - x₂ := ⟨_, rfl⟩
  -- the third coordinate is the second coordinate of the difference
  have hz : addZ b x₁ y₁ 1 x₂ y₂ 1 ≠ 0 := by
    have hs : (curve b).Nonsingular x₂ (-y₂) := nonsingular ho (by rw [← e₂]; ring)
    have hn := WeierstrassCurve.Affine.nonsingular_add h₁ hs (fun h => hx h.1)
    have hy := y_ne_zero ho (equation_iff.1 hn.1)
    rw [WeierstrassCurve.Affine.slope_of_X_ne hx] at hy
    simp only [WeierstrassCurve.Affine.addY, WeierstrassCurve.Affine.negAddY,
      WeierstrassCurve.Affine.negY, WeierstrassCurve.Affine.addX, curve] at hy
    intro h0
    apply hy
    have key : addZ b x₁ y₁ 1 x₂ y₂ 1 =
        -((y₁ + y₂) * (x₁ * (x₁ - x₂) ^ 2 - ((y₁ + y₂) ^ 2 - (x₁ + x₂) * (x₁ - x₂) ^ 2)) -
          y₁ * (x₁ - x₂) ^ 3) := by
      unfold addZ
      linear_combination (-y₁ - 2 * y₂) * e₁ + (-2 * y₁ - y₂) * e₂
    rw [h0] at key
    field_simp
    linear_combination key
  have hpt := WeierstrassCurve.Affine.Point.add_some (h₁ := h₁) (h₂ := h₂) (fun h => hx h.1)
  rw [hpt]
  refine ⟨hz, ?_, ?_⟩
  · rw [WeierstrassCurve.Affine.slope_of_X_ne hx]
    simp only [WeierstrassCurve.Affine.addX, curve]
    field_simp
    unfold addX addZ
    linear_combination ((-3*x₁^2*x₂*y₂) + (-3*x₁*y₁*x₂^2) + 3*x₁*y₁ + 3*x₁*x₂^2*y₂ + 3*x₁*y₂ + (-1*y₁^2*y₂) + 6*y₁*x₂ + y₁*y₂^2 + (-3*y₁*b) + 2*x₂^3*y₂ + (-9*x₂*y₂) + y₂^3 + 2*y₂*b) * e₁ + (3*x₁^3*y₁ + x₁^3*y₂ + 3*x₁^2*y₁*x₂ + (-3*x₁^2*x₂*y₂) + (-3*x₁*y₁*x₂^2) + (-12*x₁*y₁) + 3*x₁*y₂ + 3*y₁*x₂ + (-1*y₁*y₂^2) + 3*y₁*b + 3*x₂*y₂ + (-2*y₂*b)) * e₂
  · rw [WeierstrassCurve.Affine.slope_of_X_ne hx]
    simp only [WeierstrassCurve.Affine.addY, WeierstrassCurve.Affine.negAddY,
      WeierstrassCurve.Affine.negY, WeierstrassCurve.Affine.addX, curve]
    field_simp
    unfold addY addZ
    linear_combination (3*x₁^2*y₁*x₂*y₂ + 9*x₁^2*x₂^4 + (-18*x₁^2*x₂^2) + (-15*x₁^2*x₂*y₂^2) + 9*x₁^2 + 3*x₁*y₁^2*x₂^2 + (-3*x₁*y₁^2) + (-6*x₁*y₁*x₂^2*y₂) + (-6*x₁*x₂^5) + (-12*x₁*x₂^3) + 15*x₁*x₂^2*y₂^2 + 12*x₁*x₂^2*b + 18*x₁*x₂ + 15*x₁*y₂^2 + (-12*x₁*b) + y₁^3*y₂ + (-6*y₁^2*x₂) + (-2*y₁^2*y₂^2) + 3*y₁^2*b + (-2*y₁*x₂^3*y₂) + 15*y₁*x₂*y₂ + (-5*y₁*y₂*b) + 12*x₂^4 + (-2*x₂^3*y₂^2) + (-6*x₂^3*b) + (-9*x₂*y₂^2) + (-6*x₂*b) + 2*y₂^4 + (-2*y₂^2*b) + 3*b^2) * e₁ + ((-9*x₁^5*x₂) + 6*x₁^4*x₂^2 + 3*x₁^4 + 2*x₁^3*y₁*y₂ + 42*x₁^3*x₂ + 2*x₁^3*y₂^2 + 6*x₁^3*b + 6*x₁^2*y₁*x₂*y₂ + (-27*x₁^2*x₂^2) + (-3*x₁^2*x₂*y₂^2) + (-27*x₁^2*x₂*b) + (-45*x₁^2) + (-3*x₁*y₁*x₂^2*y₂) + (-15*x₁*y₁*y₂) + 15*x₁*x₂^2*b + 27*x₁*x₂ + 21*x₁*b + (-1*y₁*y₂^3) + 5*y₁*y₂*b + (-9*x₂^2) + 3*x₂*y₂^2 + (-3*x₂*b) + (-1*y₂^2*b) + (-3*b^2)) * e₂

/-- A point and itself. -/
theorem add_tangent {b x y : F} (ho : Odd b) (h₁ h₂ : (curve b).Nonsingular x y) :
    Represents b (addX b x y 1 x y 1) (addY b x y 1 x y 1) (addZ b x y 1 x y 1)
      (.some x y h₁ + .some x y h₂ : (curve b).Point) := by
  have e₁ := equation_iff.1 h₁.1
  have hy := y_ne_zero ho e₁
  have h2 := ho.two
  have hxy : ¬(x = x ∧ y = (curve b).negY x y) := by
    simp only [WeierstrassCurve.Affine.negY, curve]
    intro h
    exact mul_ne_zero h2 hy (by linear_combination h.2)
  have hzv : addZ b x y 1 x y 1 = 8 * y ^ 3 := by
    unfold addZ
    linear_combination (-6 * y) * e₁
  have h8 : (8 : F) * y ^ 3 ≠ 0 := by
    have : (8 : F) * y ^ 3 = (2 * y) ^ 3 := by ring
    rw [this]
    exact pow_ne_zero _ (mul_ne_zero h2 hy)
  have hs : (curve b).slope x x y y = (3 * x ^ 2 - 3) / (2 * y) := by
    rw [WeierstrassCurve.Affine.slope_of_Y_ne rfl (fun h => hxy ⟨rfl, h⟩)]
    simp only [WeierstrassCurve.Affine.negY, curve]
    congr 1 <;> ring
  rw [WeierstrassCurve.Affine.Point.add_some hxy]
  have h2y : (2 * y) ≠ 0 := mul_ne_zero h2 hy
  refine ⟨by rw [hzv]; exact h8, ?_, ?_⟩
  · rw [hs]
    have key : addX b x y 1 x y 1 * (2 * y) ^ 2 =
        addZ b x y 1 x y 1 * ((3 * x ^ 2 - 3) ^ 2 - 2 * x * (2 * y) ^ 2) := by
      unfold addX addZ
      linear_combination (54*x^4*y + (-108*x^2*y) + 24*x*y^3 + 54*y) * e₁
    have hv : (curve b).addX x x ((3 * x ^ 2 - 3) / (2 * y)) =
        ((3 * x ^ 2 - 3) ^ 2 - 2 * x * (2 * y) ^ 2) / (2 * y) ^ 2 := by
      simp only [WeierstrassCurve.Affine.addX, curve]
      generalize 2 * y = w at *
      field_simp
      ring
    rw [hv, div_mul_eq_mul_div, eq_div_iff (pow_ne_zero _ h2y)]
    linear_combination key
  · rw [hs]
    have key : addY b x y 1 x y 1 * (2 * y) ^ 3 =
        addZ b x y 1 x y 1 * ((3 * x ^ 2 - 3) * (x * (2 * y) ^ 2 -
          ((3 * x ^ 2 - 3) ^ 2 - 2 * x * (2 * y) ^ 2)) - y * (2 * y) ^ 3) := by
      unfold addY addZ
      linear_combination ((-162*x^6*y) + 486*x^4*y + (-486*x^2*y) + (-144*x*y^3) + 24*y^5 + 72*y^3*b + 162*y) * e₁
    have hv : (curve b).addY x x y ((3 * x ^ 2 - 3) / (2 * y)) =
        ((3 * x ^ 2 - 3) * (x * (2 * y) ^ 2 -
          ((3 * x ^ 2 - 3) ^ 2 - 2 * x * (2 * y) ^ 2)) - y * (2 * y) ^ 3) / (2 * y) ^ 3 := by
      simp only [WeierstrassCurve.Affine.addY, WeierstrassCurve.Affine.negAddY,
        WeierstrassCurve.Affine.negY, WeierstrassCurve.Affine.addX, curve]
      clear key hzv h8 hs
      generalize 2 * y = w at *
      field_simp
      ring
    rw [hv, div_mul_eq_mul_div, eq_div_iff (pow_ne_zero _ h2y)]
    linear_combination key

/-- A point and its opposite. -/
theorem add_opposite {b x y : F} (ho : Odd b) (h₁ : (curve b).Nonsingular x y)
    (h₂ : (curve b).Nonsingular x (-y)) :
    Represents b (addX b x y 1 x (-y) 1) (addY b x y 1 x (-y) 1) (addZ b x y 1 x (-y) 1)
      (.some x y h₁ + .some x (-y) h₂ : (curve b).Point) := by
  have e₁ := equation_iff.1 h₁.1
  have hy := y_ne_zero ho e₁
  have h2 := ho.two
  rw [WeierstrassCurve.Affine.Point.add_of_Y_eq rfl
    (by simp only [WeierstrassCurve.Affine.negY, curve]; ring)]
  refine ⟨by unfold addX; ring, by unfold addZ; ring, ?_⟩
  have hxy : ¬(x = x ∧ y = (curve b).negY x y) := by
    simp only [WeierstrassCurve.Affine.negY, curve]
    intro h
    exact mul_ne_zero h2 hy (by linear_combination h.2)
  have hn := WeierstrassCurve.Affine.nonsingular_add h₁ h₁ hxy
  have hy' := y_ne_zero ho (equation_iff.1 hn.1)
  have hs : (curve b).slope x x y y = (3 * x ^ 2 - 3) / (2 * y) := by
    rw [WeierstrassCurve.Affine.slope_of_Y_ne rfl (fun h => hxy ⟨rfl, h⟩)]
    simp only [WeierstrassCurve.Affine.negY, curve]
    congr 1 <;> ring
  rw [hs] at hy'
  simp only [WeierstrassCurve.Affine.addY, WeierstrassCurve.Affine.negAddY,
    WeierstrassCurve.Affine.negY, WeierstrassCurve.Affine.addX, curve] at hy'
  intro h0
  apply hy'
  have key : addY b x y 1 x (-y) 1 =
      (3 * x ^ 2 - 3) * (x * (2 * y) ^ 2 - ((3 * x ^ 2 - 3) ^ 2 - 2 * x * (2 * y) ^ 2)) -
        y * (2 * y) ^ 3 := by
    unfold addY
    linear_combination ((-27*x^3) + 9*x + 9*y^2 + 9*b) * e₁
  rw [h0] at key
  field_simp
  linear_combination -key

omit [DecidableEq F] in
theorem represents_one {b x y : F} (h : (curve b).Nonsingular x y) :
    Represents b x y 1 (.some x y h) := ⟨one_ne_zero, by ring, by ring⟩

/-- The sum of two affine points. -/
theorem add_affine {b x₁ y₁ x₂ y₂ : F} (ho : Odd b) (h₁ : (curve b).Nonsingular x₁ y₁)
    (h₂ : (curve b).Nonsingular x₂ y₂) :
    Represents b (addX b x₁ y₁ 1 x₂ y₂ 1) (addY b x₁ y₁ 1 x₂ y₂ 1) (addZ b x₁ y₁ 1 x₂ y₂ 1)
      (.some x₁ y₁ h₁ + .some x₂ y₂ h₂ : (curve b).Point) := by
  by_cases hx : x₁ = x₂
  · subst hx
    have e₁ := equation_iff.1 h₁.1
    have e₂ := equation_iff.1 h₂.1
    have : (y₁ - y₂) * (y₁ + y₂) = 0 := by linear_combination e₁ - e₂
    rcases mul_eq_zero.1 this with h | h
    · have : y₁ = y₂ := sub_eq_zero.1 h
      subst this
      exact add_tangent ho h₁ h₂
    · have : y₂ = -y₁ := by linear_combination h
      subst this
      exact add_opposite ho h₁ h₂
  · exact add_chord ho h₁ h₂ hx

/-- The formulas of `add_assign` give the sum of every two points. -/
theorem add_represents {b X₁ Y₁ Z₁ X₂ Y₂ Z₂ : F} {Q₁ Q₂ : (curve b).Point} (ho : Odd b)
    (h₁ : Represents b X₁ Y₁ Z₁ Q₁) (h₂ : Represents b X₂ Y₂ Z₂ Q₂) :
    Represents b (addX b X₁ Y₁ Z₁ X₂ Y₂ Z₂) (addY b X₁ Y₁ Z₁ X₂ Y₂ Z₂)
      (addZ b X₁ Y₁ Z₁ X₂ Y₂ Z₂) (Q₁ + Q₂) := by
  cases Q₁ with
  | zero =>
    obtain ⟨hx, hz, hy⟩ := h₁
    subst hx hz
    rw [← WeierstrassCurve.Affine.Point.zero_def, zero_add]
    cases Q₂ with
    | zero =>
      obtain ⟨hx, hz, hy₂⟩ := h₂
      subst hx hz
      refine ⟨by unfold addX; ring, by unfold addZ; ring, ?_⟩
      have : addY b 0 Y₁ 0 0 Y₂ 0 = (Y₁ * Y₂) ^ 2 := by unfold addY; ring
      rw [this]
      exact pow_ne_zero _ (mul_ne_zero hy hy₂)
    | some x y h =>
      have hz := h₂
      obtain ⟨hz, hx, hY⟩ := h₂
      have e := equation_iff.1 h.1
      have hy0 := y_ne_zero ho e
      have hc : Y₁ ^ 2 * (y * Z₂) ≠ 0 := mul_ne_zero (pow_ne_zero _ hy) (mul_ne_zero hy0 hz)
      have := (represents_one h).scale (mul_ne_zero hc hz)
      subst hx hY
      have ex : addX b 0 Y₁ 0 (x * Z₂) (y * Z₂) Z₂ = Y₁ ^ 2 * (y * Z₂) * Z₂ * x := by
        unfold addX; ring
      have ey : addY b 0 Y₁ 0 (x * Z₂) (y * Z₂) Z₂ = Y₁ ^ 2 * (y * Z₂) * Z₂ * y := by
        unfold addY; ring
      have ez : addZ b 0 Y₁ 0 (x * Z₂) (y * Z₂) Z₂ = Y₁ ^ 2 * (y * Z₂) * Z₂ * 1 := by
        unfold addZ; ring
      rw [ex, ey, ez]
      exact this
  | some x₁ y₁ n₁ =>
    obtain ⟨hz, hx, hY⟩ := h₁
    have e := equation_iff.1 n₁.1
    have hy0 := y_ne_zero ho e
    subst hx hY
    cases Q₂ with
    | zero =>
      obtain ⟨hx, hz₂, hy⟩ := h₂
      subst hx hz₂
      rw [← WeierstrassCurve.Affine.Point.zero_def, add_zero]
      have hc : Y₂ ^ 2 * (y₁ * Z₁) ≠ 0 := mul_ne_zero (pow_ne_zero _ hy) (mul_ne_zero hy0 hz)
      have := (represents_one n₁).scale (mul_ne_zero hc hz)
      have ex : addX b (x₁ * Z₁) (y₁ * Z₁) Z₁ 0 Y₂ 0 = Y₂ ^ 2 * (y₁ * Z₁) * Z₁ * x₁ := by
        unfold addX; ring
      have ey : addY b (x₁ * Z₁) (y₁ * Z₁) Z₁ 0 Y₂ 0 = Y₂ ^ 2 * (y₁ * Z₁) * Z₁ * y₁ := by
        unfold addY; ring
      have ez : addZ b (x₁ * Z₁) (y₁ * Z₁) Z₁ 0 Y₂ 0 = Y₂ ^ 2 * (y₁ * Z₁) * Z₁ * 1 := by
        unfold addZ; ring
      rw [ex, ey, ez]
      exact this
    | some x₂ y₂ n₂ =>
      obtain ⟨hz₂, hx₂, hY₂⟩ := h₂
      subst hx₂ hY₂
      have hc : (Z₁ * Z₂) ^ 2 ≠ 0 := pow_ne_zero _ (mul_ne_zero hz hz₂)
      have := (add_affine ho n₁ n₂).scale hc
      have ex : addX b (x₁ * Z₁) (y₁ * Z₁) Z₁ (x₂ * Z₂) (y₂ * Z₂) Z₂ =
          (Z₁ * Z₂) ^ 2 * addX b x₁ y₁ 1 x₂ y₂ 1 := by unfold addX; ring
      have ey : addY b (x₁ * Z₁) (y₁ * Z₁) Z₁ (x₂ * Z₂) (y₂ * Z₂) Z₂ =
          (Z₁ * Z₂) ^ 2 * addY b x₁ y₁ 1 x₂ y₂ 1 := by unfold addY; ring
      have ez : addZ b (x₁ * Z₁) (y₁ * Z₁) Z₁ (x₂ * Z₂) (y₂ * Z₂) Z₂ =
          (Z₁ * Z₂) ^ 2 * addZ b x₁ y₁ 1 x₂ y₂ 1 := by unfold addZ; ring
      rw [ex, ey, ez]
      exact this

/-- The formulas of `double` give the sum of the point with itself. -/
theorem dbl_represents {b X Y Z : F} {Q : (curve b).Point} (ho : Odd b)
    (h : Represents b X Y Z Q) :
    Represents b (dblX b X Y Z) (dblY b X Y Z) (dblZ b X Y Z) (Q + Q) := by
  have hs := add_represents ho h h
  have ex : dblX b X Y Z = addX b X Y Z X Y Z := by unfold dblX addX; ring
  have ey : dblY b X Y Z = addY b X Y Z X Y Z := by unfold dblY addY; ring
  have ez : dblZ b X Y Z = addZ b X Y Z X Y Z := by
    cases Q with
    | zero =>
      obtain ⟨hx, hz, hy⟩ := h
      subst hx hz
      unfold dblZ addZ
      ring
    | some x y n =>
      obtain ⟨hz, hx, hY⟩ := h
      have e := equation_iff.1 n.1
      subst hx hY
      unfold dblZ addZ
      linear_combination (6 * y * Z ^ 4) * e
  rw [ex, ey, ez]
  exact hs

end Verif.P256.Law
