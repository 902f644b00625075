import Verif.P256.CurveLemmas
import Verif.P256.PointModel

/-! The points of the model stand for points of the curve: sums, doubles and conversions. -/

namespace Verif.P256

set_option exponentiation.threshold 600

namespace Mont

/-- A `Good` that computes. -/
def goodCheck (m : Mont) : Bool :=
  match m with
  | [a0, a1, a2, a3, a4, a5, a6, a7, a8] =>
    [a0, a2, a4, a6, a8].all (fun a => decide (a.toNat < 2 ^ 30)) &&
      [a1, a3, a5, a7].all (fun a => decide (a.toNat < 2 ^ 29)) &&
      decide (wval true [a0, a1, a2, a3, a4, a5, a6, a7, a8] < 2 ^ 257)
  | _ => false

theorem good_of_check {m : Mont} (h : goodCheck m = true) : Good m ∧ wval true m < 2 ^ 257 := by
  unfold goodCheck at h
  split at h
  · rename_i a0 a1 a2 a3 a4 a5 a6 a7 a8
    simp only [List.all_cons, List.all_nil, Bool.and_true, Bool.and_eq_true, decide_eq_true_eq] at h
    obtain ⟨⟨⟨h0, h2, h4, h6, h8⟩, h1, h3, h5, h7⟩, hl⟩ := h
    exact ⟨⟨rfl, ⟨h0, h1, h2, h3, h4, h5, h6, h7, h8, trivial⟩, by omega⟩, hl⟩
  · cases h

/-- The number a list of limbs holds in Montgomery form, computed: `2 ^ 257` has this inverse. -/
def toNat (m : Mont) : Nat :=
  wval true m * 0x7fffffff00000001fffffffe8000000100000000ffffffff0000000180000000 % P

theorem inv_R : ((0x7fffffff00000001fffffffe8000000100000000ffffffff0000000180000000 : Nat) : ZMod P)
    = ((2 : ZMod P) ^ 257)⁻¹ := by
  refine eq_inv_of_mul_eq_one_left ?_
  have h : (0x7fffffff00000001fffffffe8000000100000000ffffffff0000000180000000 * 2 ^ 257) % P
      = 1 % P := by decide +kernel
  have := (ZMod.natCast_eq_natCast_iff _ _ P).2 h
  rw [Nat.cast_mul, Nat.cast_pow, Nat.cast_ofNat (n := 2), Nat.cast_one] at this
  exact this

theorem toNat_spec (m : Mont) : ((toNat m : Nat) : ZMod P) = toF m := by
  unfold toNat toF
  rw [ZMod.natCast_mod, Nat.cast_mul, inv_R]

theorem holds_of_nat {m : Mont} {x : Nat} (hg : goodCheck m = true) (h : toNat m = x) :
    Holds m (x : ZMod P) :=
  ⟨(good_of_check hg).1, by rw [← h, toNat_spec]⟩

theorem holds_B : Holds B bF := holds_of_nat (by decide +kernel) (by decide +kernel)

theorem holds_ONE : Holds ONE 1 := by
  have := holds_of_nat (m := ONE) (x := 1) (by decide +kernel) (by decide +kernel)
  simpa using this

end Mont

open Mont (Holds Good)

/-- The affine coordinates `a` are those of the point `A`, which is not infinity. -/
structure Aff.Is (a : Aff) (A : E.Point) : Prop where
  gx : Good a.x
  gy : Good a.y
  rep : Law.Represents bF (Mont.toF a.x) (Mont.toF a.y) 1 A

/-- The projective coordinates `p` are those of the point `A`. -/
structure Proj.Is (p : Proj) (A : E.Point) : Prop where
  gx : Good p.x
  gy : Good p.y
  gz : Good p.z
  rep : Law.Represents bF (Mont.toF p.x) (Mont.toF p.y) (Mont.toF p.z) A

namespace Proj

theorem from_affine_is {a : Aff} {A : E.Point} (h : a.Is A) : (from_affine a).Is A :=
  ⟨h.gx, h.gy, Mont.holds_ONE.1, by
    have := h.rep
    rw [← Mont.holds_ONE.2] at this
    exact this⟩

theorem is_of_holds {p : Proj} {X Y Z : ZMod P} {A : E.Point} (hx : Holds p.x X) (hy : Holds p.y Y)
    (hz : Holds p.z Z) (h : Law.Represents bF X Y Z A) : p.Is A :=
  ⟨hx.1, hy.1, hz.1, by rw [hx.2, hy.2, hz.2]; exact h⟩

theorem eqH {m : Mont} {x y : ZMod P} (h : Holds m x) (e : x = y) : Holds m y := e ▸ h

theorem add_holds {p q : Proj} {x1 y1 z1 x2 y2 z2 : ZMod P} (hX : Holds p.x x1)
    (hY : Holds p.y y1) (hZ : Holds p.z z1) (hX' : Holds q.x x2) (hY' : Holds q.y y2)
    (hZ' : Holds q.z z2) :
    Holds (add p q).x (Law.addX bF x1 y1 z1 x2 y2 z2) ∧
    Holds (add p q).y (Law.addY bF x1 y1 z1 x2 y2 z2) ∧
    Holds (add p q).z (Law.addZ bF x1 y1 z1 x2 y2 z2) := by
  have t0 := hX.mul hX'
  have t1 := hY.mul hY'
  have t2 := hZ.mul hZ'
  have t3 := (((hX.add hY).mul (hX'.add hY')).sub (t0.add t1))
  have t4 := (((hY.add hZ).mul (hY'.add hZ')).sub (t1.add t2))
  have y := (((hX.add hZ).mul (hX'.add hZ')).sub (t0.add t2))
  have x := (y.sub (Mont.holds_B.mul t2)).mul_scalar3
  have z := t1.sub x
  have x' := t1.add x
  have t2' := t2.mul_scalar3
  have y' := (((Mont.holds_B.mul y).sub t2').sub t0).mul_scalar3
  have t0' := t0.mul_scalar3.sub t2'
  have rx := (t3.mul x').sub (t4.mul y')
  have ry := (x'.mul z).add (t0'.mul y')
  have rz := (t4.mul z).add (t3.mul t0')
  refine ⟨eqH rx ?_, eqH ry ?_, eqH rz ?_⟩
  · unfold Law.addX; ring
  · unfold Law.addY; ring
  · unfold Law.addZ; ring

theorem add_is {p q : Proj} {A B : E.Point} (hp : p.Is A) (hq : q.Is B) :
    (add p q).Is (A + B) := by
  obtain ⟨rx, ry, rz⟩ := add_holds ⟨hp.gx, rfl⟩ ⟨hp.gy, rfl⟩ ⟨hp.gz, rfl⟩ ⟨hq.gx, rfl⟩
    ⟨hq.gy, rfl⟩ ⟨hq.gz, rfl⟩
  exact is_of_holds rx ry rz (Law.add_represents odd_E hp.rep hq.rep)

theorem add_mixed_is {p : Proj} {q : Aff} {A B : E.Point} (hp : p.Is A) (hq : q.Is B) :
    (add_mixed p q).Is (A + B) := by
  have hX : Holds p.x (Mont.toF p.x) := ⟨hp.gx, rfl⟩
  have hY : Holds p.y (Mont.toF p.y) := ⟨hp.gy, rfl⟩
  have hZ : Holds p.z (Mont.toF p.z) := ⟨hp.gz, rfl⟩
  have hX' : Holds q.x (Mont.toF q.x) := ⟨hq.gx, rfl⟩
  have hY' : Holds q.y (Mont.toF q.y) := ⟨hq.gy, rfl⟩
  have hs := Law.add_represents odd_E hp.rep hq.rep
  generalize Mont.toF p.x = x1 at *
  generalize Mont.toF p.y = y1 at *
  generalize Mont.toF p.z = z1 at *
  generalize Mont.toF q.x = x2 at *
  generalize Mont.toF q.y = y2 at *
  have t0 := hX.mul hX'
  have t1 := hY.mul hY'
  have t3 := (((hX.add hY).mul (hX'.add hY')).sub (t0.add t1))
  have t4 := (hY'.mul hZ).add hY
  have y := (hX'.mul hZ).add hX
  have x := (y.sub (Mont.holds_B.mul hZ)).mul_scalar3
  have z := t1.sub x
  have x' := t1.add x
  have t2' := hZ.mul_scalar3
  have y' := (((Mont.holds_B.mul y).sub t2').sub t0).mul_scalar3
  have t0' := t0.mul_scalar3.sub t2'
  have rx := (t3.mul x').sub (t4.mul y')
  have ry := (x'.mul z).add (t0'.mul y')
  have rz := (t4.mul z).add (t3.mul t0')
  refine is_of_holds (eqH rx ?_) (eqH ry ?_) (eqH rz ?_) hs
  · unfold Law.addX; ring
  · unfold Law.addY; ring
  · unfold Law.addZ; ring

theorem double_is {p : Proj} {A : E.Point} (hp : p.Is A) : (double p).Is (A + A) := by
  have hX : Holds p.x (Mont.toF p.x) := ⟨hp.gx, rfl⟩
  have hY : Holds p.y (Mont.toF p.y) := ⟨hp.gy, rfl⟩
  have hZ : Holds p.z (Mont.toF p.z) := ⟨hp.gz, rfl⟩
  have hs := Law.dbl_represents odd_E hp.rep
  generalize Mont.toF p.x = x1 at *
  generalize Mont.toF p.y = y1 at *
  generalize Mont.toF p.z = z1 at *
  have t0 := hX.square
  have t1 := hY.square
  have t2 := hZ.square
  have t3 := (hX.mul hY).mul_scalar2
  have z := (hX.mul hZ).mul_scalar2
  have y := ((Mont.holds_B.mul t2).sub z).mul_scalar3
  have x := t1.sub y
  have y' := t1.add y
  have y'' := x.mul y'
  have x' := x.mul t3
  have t2' := t2.mul_scalar3
  have z' := (((Mont.holds_B.mul z).sub t2').sub t0).mul_scalar3
  have t0' := (t0.mul_scalar3.sub t2').mul z'
  have ry := y''.add t0'
  have t0'' := (hY.mul hZ).mul_scalar2
  have rx := x'.sub (t0''.mul z')
  have rz := (t0''.mul t1).mul_scalar4
  refine is_of_holds (eqH rx ?_) (eqH ry ?_) (eqH rz ?_) hs
  · unfold Law.dblX; ring
  · unfold Law.dblY; ring
  · unfold Law.dblZ; ring

end Proj

/-- The point `p` of the code is the point `A` of the curve: two integers below the field order
    that are the coordinates of `A`; `A` is not infinity. -/
structure Point.Is (p : Point) (A : E.Point) : Prop where
  wx : Wf p.x
  wy : Wf p.y
  lx : val p.x < P
  ly : val p.y < P
  eq : ∃ h, A = .some (Gfp.toF p.x) (Gfp.toF p.y) h

namespace Point

theorem Is.ne_zero {p : Point} {A : E.Point} (h : p.Is A) : A ≠ 0 := by
  obtain ⟨_, rfl⟩ := h.eq
  exact WeierstrassCurve.Affine.Point.some_ne_zero _

theorem to_affine_is {p : Point} {A : E.Point} (h : p.Is A) : (to_affine p).Is A := by
  obtain ⟨hn, rfl⟩ := h.eq
  have hx := Mont.field_to_montgomery_spec h.wx
  have hy := Mont.field_to_montgomery_spec h.wy
  refine ⟨hx.1, hy.1, ?_⟩
  show Law.Represents bF (Mont.toF (Mont.field_to_montgomery p.x))
    (Mont.toF (Mont.field_to_montgomery p.y)) 1 _
  rw [hx.2, hy.2]
  exact Law.represents_one hn

/-- The conversion from projective coordinates: two quotients (zero for a zero denominator). -/
theorem from_projective_holds {p : Proj} {X Y Z : ZMod P} (hX : Holds p.x X) (hY : Holds p.y Y)
    (hZ : Holds p.z Z) :
    (Wf (from_projective p).x ∧ val (from_projective p).x < P ∧
      Gfp.toF (from_projective p).x = X * Z⁻¹) ∧
    (Wf (from_projective p).y ∧ val (from_projective p).y < P ∧
      Gfp.toF (from_projective p).y = Y * Z⁻¹) := by
  have hi := hZ.inv
  obtain ⟨gx, lx, ex⟩ := Mont.mul_spec hX.1 hi.1
  obtain ⟨gy, ly, ey⟩ := Mont.mul_spec hY.1 hi.1
  obtain ⟨wx, vx, fx⟩ := Mont.montgomery_to_field_spec gx lx
  obtain ⟨wy, vy, fy⟩ := Mont.montgomery_to_field_spec gy ly
  rw [ex, hi.2, hX.2] at fx
  rw [ey, hi.2, hY.2] at fy
  obtain ⟨r, hr⟩ : ∃ r, r = from_projective p := ⟨_, rfl⟩
  have rx : r.x = Mont.montgomery_to_field (Mont.mul p.x (Mont.inv p.z)) := by
    simp only [hr, from_projective, from_affine, Proj.to_affine]
  have ry : r.y = Mont.montgomery_to_field (Mont.mul p.y (Mont.inv p.z)) := by
    simp only [hr, from_projective, from_affine, Proj.to_affine]
  rw [← hr]
  rw [← rx] at wx vx fx
  rw [← ry] at wy vy fy
  exact ⟨⟨wx, vx, fx⟩, ⟨wy, vy, fy⟩⟩

/-- The conversion from projective coordinates: the point, or two zeros for infinity. -/
theorem from_projective_spec {p : Proj} {A : E.Point} (h : p.Is A) :
    (A ≠ 0 → (from_projective p).Is A) ∧
      (A = 0 → Wf (from_projective p).x ∧ val (from_projective p).x = 0 ∧
        val (from_projective p).y = 0) := by
  obtain ⟨⟨wx, vx, fx⟩, wy, vy, fy⟩ := from_projective_holds (p := p) ⟨h.gx, rfl⟩ ⟨h.gy, rfl⟩
    ⟨h.gz, rfl⟩
  have hrep := h.rep
  generalize from_projective p = r at *
  refine ⟨fun hA => ?_, fun hA => ?_⟩
  · cases A with
    | zero => exact absurd rfl hA
    | some x y n =>
      obtain ⟨hz, hx, hy⟩ := hrep
      refine ⟨wx, wy, vx, vy, ?_⟩
      have e1 : Gfp.toF r.x = x := by
        rw [fx, hx, mul_assoc, mul_inv_cancel₀ hz, mul_one]
      have e2 : Gfp.toF r.y = y := by
        rw [fy, hy, mul_assoc, mul_inv_cancel₀ hz, mul_one]
      have : E.Nonsingular (Gfp.toF r.x) (Gfp.toF r.y) := by
        rw [e1, e2]; exact n
      refine ⟨this, ?_⟩
      congr 1
      · exact e1.symm
      · exact e2.symm
  · subst hA
    obtain ⟨hx, hz, hy⟩ := hrep
    rw [hz, inv_zero, mul_zero] at fx fy
    have key : ∀ x : Gfp, val x < P → x.toF = 0 → val x = 0 := by
      intro x hlt h0
      unfold Gfp.toF at h0
      rw [ZMod.natCast_eq_zero_iff] at h0
      exact Nat.eq_zero_of_dvd_of_lt h0 hlt
    exact ⟨wx, key _ vx fx, key _ vy fy⟩

end Point

end Verif.P256
