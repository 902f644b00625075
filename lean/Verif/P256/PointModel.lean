import Verif.P256.Precomputed

/-! Points of the curve, libraries/crypto/src/ec/point.rs. -/

namespace Verif.P256

open Int256

/-- point.rs 32-36, `PointP256`. -/
structure Point where
  x : Gfp
  y : Gfp
deriving DecidableEq, Inhabited, Repr

/-- point.rs 143-148, `PointProjective`: stands for `x / z`, `y / z`. -/
structure Proj where
  x : Mont
  y : Mont
  z : Mont
deriving DecidableEq, Inhabited, Repr

/-- point.rs 163-167, `PointAffine`. -/
structure Aff where
  x : Mont
  y : Mont
deriving DecidableEq, Inhabited, Repr

namespace Aff

/-- point.rs 423-434. -/
def select_point (table : List (Mont × Mont)) (index : UInt32) : Aff :=
  (List.range 15).foldl (fun p i =>
    if UInt32.ofNat i + 1 == index then
      ⟨(table.getD i (Mont.ZERO, Mont.ZERO)).1, (table.getD i (Mont.ZERO, Mont.ZERO)).2⟩
    else p) ⟨Mont.ZERO, Mont.ZERO⟩

end Aff

namespace Proj

/-- The initial value of points in loops, point.rs 323-327: not a point. -/
def zero : Proj := ⟨Mont.ZERO, Mont.ZERO, Mont.ZERO⟩

/-- point.rs 178-184. -/
def from_affine (p : Aff) : Proj := ⟨p.x, p.y, Mont.ONE⟩

/-- point.rs 197-202. -/
def to_affine (p : Proj) : Aff :=
  let zinv := Mont.inv p.z
  ⟨Mont.mul p.x zinv, Mont.mul p.y zinv⟩

/-- point.rs 205-218. -/
def select_point (table : List Proj) (index : UInt32) : Proj :=
  (List.range 15).foldl (fun p i =>
    if UInt32.ofNat i + 1 == index then table.getD i zero else p) zero

/-- point.rs 222-271. -/
def add_mixed (self : Proj) (other : Aff) : Proj :=
  let t0 := Mont.mul self.x other.x
  let t1 := Mont.mul self.y other.y
  let t2 := self.z
  let t3 := Mont.add self.x self.y
  let t4 := Mont.add other.x other.y
  let t3 := Mont.mul t3 t4
  let t4 := Mont.add t0 t1
  let t3 := Mont.sub t3 t4
  let t4 := Mont.mul other.y self.z
  let t4 := Mont.add t4 self.y
  let y := Mont.mul other.x self.z
  let y := Mont.add y self.x
  let z := Mont.mul Mont.B t2
  let x := Mont.sub y z
  let x := Mont.mul_scalar3 x
  let z := Mont.sub t1 x
  let x := Mont.add t1 x
  let y := Mont.mul Mont.B y
  let t2 := Mont.mul_scalar3 t2
  let y := Mont.sub y t2
  let y := Mont.sub y t0
  let y := Mont.mul_scalar3 y
  let t0 := Mont.mul_scalar3 t0
  let t0 := Mont.sub t0 t2
  let t1 := Mont.mul t4 y
  let t2 := Mont.mul t0 y
  let y := Mont.mul x z
  let y := Mont.add y t2
  let x := Mont.mul t3 x
  let x := Mont.sub x t1
  let z := Mont.mul t4 z
  let t1 := Mont.mul t3 t0
  let z := Mont.add z t1
  ⟨x, y, z⟩

/-- point.rs 274-319. -/
def double (self : Proj) : Proj :=
  let t0 := Mont.square self.x
  let t1 := Mont.square self.y
  let t2 := Mont.square self.z
  let t3 := Mont.mul self.x self.y
  let t3 := Mont.mul_scalar2 t3
  let z := Mont.mul self.x self.z
  let z := Mont.mul_scalar2 z
  let y := Mont.mul Mont.B t2
  let y := Mont.sub y z
  let y := Mont.mul_scalar3 y
  let x := Mont.sub t1 y
  let y := Mont.add t1 y
  let y := Mont.mul x y
  let x := Mont.mul x t3
  let t2 := Mont.mul_scalar3 t2
  let z := Mont.mul Mont.B z
  let z := Mont.sub z t2
  let z := Mont.sub z t0
  let z := Mont.mul_scalar3 z
  let t0 := Mont.mul_scalar3 t0
  let t0 := Mont.sub t0 t2
  let t0 := Mont.mul t0 z
  let y := Mont.add y t0
  let t0 := Mont.mul self.y self.z
  let t0 := Mont.mul_scalar2 t0
  let z := Mont.mul t0 z
  let x := Mont.sub x z
  let z := Mont.mul t0 t1
  let z := Mont.mul_scalar4 z
  ⟨x, y, z⟩

/-- point.rs 491-548. -/
def add (self other : Proj) : Proj :=
  let t0 := Mont.mul self.x other.x
  let t1 := Mont.mul self.y other.y
  let t2 := Mont.mul self.z other.z
  let t3 := Mont.add self.x self.y
  let t4 := Mont.add other.x other.y
  let t3 := Mont.mul t3 t4
  let t4 := Mont.add t0 t1
  let t3 := Mont.sub t3 t4
  let t4 := Mont.add self.y self.z
  let x := Mont.add other.y other.z
  let t4 := Mont.mul t4 x
  let x := Mont.add t1 t2
  let t4 := Mont.sub t4 x
  let x := Mont.add self.x self.z
  let y := Mont.add other.x other.z
  let x := Mont.mul x y
  let y := Mont.add t0 t2
  let y := Mont.sub x y
  let z := Mont.mul Mont.B t2
  let x := Mont.sub y z
  let x := Mont.mul_scalar3 x
  let z := Mont.sub t1 x
  let x := Mont.add t1 x
  let y := Mont.mul Mont.B y
  let t2 := Mont.mul_scalar3 t2
  let y := Mont.sub y t2
  let y := Mont.sub y t0
  let y := Mont.mul_scalar3 y
  let t0 := Mont.mul_scalar3 t0
  let t0 := Mont.sub t0 t2
  let t1 := Mont.mul t4 y
  let t2 := Mont.mul t0 y
  let y := Mont.mul x z
  let y := Mont.add y t2
  let x := Mont.mul t3 x
  let x := Mont.sub x t1
  let z := Mont.mul t4 z
  let t1 := Mont.mul t3 t0
  let z := Mont.add z t1
  ⟨x, y, z⟩

/-- The end of a turn in `scalar_base_mul` (point.rs 346-351) and in `scalar_mul` (471-476): the
    point `n` with the flag that it is infinity becomes `p` or the sum `t`. `p` with `index` zero
    is infinity. -/
def accumulate (n : Proj) (n_is_inf : Bool) (p t : Proj) (index : UInt32) : Proj × Bool :=
  let n := if n_is_inf then p else n
  let p_is_inf := index == 0
  let n := if !(p_is_inf || n_is_inf) then t else n
  (n, n_is_inf && p_is_inf)

/-- point.rs 336-341: the four bits of the comb at turn `i` for the table at `j` = 0 or 32. -/
def combIndex (scalar : Exponent) (i j : Nat) : UInt32 :=
  bit scalar (31 - i + j) ||| (bit scalar (95 - i + j) <<< 1) |||
    (bit scalar (159 - i + j) <<< 2) ||| (bit scalar (223 - i + j) <<< 3)

/-- point.rs 335-352, the inner loop's turn. -/
def combStep (scalar : Exponent) (i table_offset : Nat) (st : Proj × Bool) : Proj × Bool :=
  let j := 32 * table_offset
  let index := combIndex scalar i j
  let p := Aff.select_point (if table_offset = 0 then PRECOMPUTED0 else PRECOMPUTED1) index
  let t := add_mixed st.1 p
  accumulate st.1 st.2 (from_affine p) t index

/-- point.rs 330-353, the outer loop's turn. -/
def combTurn (scalar : Exponent) (st : Proj × Bool) (i : Nat) : Proj × Bool :=
  let st := if i ≠ 0 then (double st.1, st.2) else st
  combStep scalar i 1 (combStep scalar i 0 st)

/-- point.rs 322-356. -/
def scalar_base_mul (scalar : Exponent) : Proj :=
  ((List.range 32).foldl (combTurn scalar) (zero, true)).1

end Proj

namespace Aff

/-- point.rs 446-449, the multiples of the point: the loop appends the multiples `i + 1` and `i + 2`
    for `i` = 1, 3, ..., 13; `k` turns remain. -/
def precomp (p : Aff) : Nat → List Proj → List Proj
  | 0, table => table
  | k + 1, table =>
    let i := table.length
    let d := Proj.double (table.getD (i >>> 1) Proj.zero)
    precomp p k (table ++ [d, Proj.add_mixed d p])

/-- point.rs 465-468: four bits of the scalar from position `255 - i` down. -/
def windowIndex (scalar : Exponent) (i : Nat) : UInt32 :=
  (bit scalar (255 - i) <<< 3) ||| (bit scalar (255 - i - 1) <<< 2) |||
    (bit scalar (255 - i - 2) <<< 1) ||| bit scalar (255 - i - 3)

/-- point.rs 458-477, one turn of the loop. -/
def windowTurn (table : List Proj) (scalar : Exponent) (st : Proj × Bool) (i : Nat) : Proj × Bool :=
  let n := if i ≠ 0 then Proj.double (Proj.double (Proj.double (Proj.double st.1))) else st.1
  let index := windowIndex scalar i
  let p := Proj.select_point table index
  let t := Proj.add n p
  Proj.accumulate n st.2 p t index

/-- point.rs 437-480. -/
def scalar_mul (p : Aff) (scalar : Exponent) : Proj :=
  let table := precomp p 7 [Proj.from_affine p]
  ((List.range 64).foldl (fun st k => windowTurn table scalar st (4 * k)) (Proj.zero, true)).1

end Aff

namespace Point

/-- point.rs 70-78. -/
def new_checked_vartime (x y : Int256) : Option Point := do
  let gfx ← Gfp.from_int_checked x
  let gfy ← Gfp.from_int_checked y
  if Gfp.is_valid_point_vartime gfx gfy then some ⟨gfx, gfy⟩ else none

/-- point.rs 51-60. -/
def from_bytes_uncompressed_vartime (bytes : List UInt8) : Option Point :=
  if bytes.length ≠ 65 ∨ bytes.head? ≠ some 0x04 then none
  else
    new_checked_vartime (from_bin ((bytes.drop 1).take 32)) (from_bin ((bytes.drop 33).take 32))

/-- point.rs 63-67. -/
def to_bytes_uncompressed (p : Point) : List UInt8 := 0x04 :: (to_bin p.x ++ to_bin p.y)

/-- point.rs 84-89, `PointP256::from_affine`. -/
def from_affine (a : Aff) : Point :=
  ⟨Mont.montgomery_to_field a.x, Mont.montgomery_to_field a.y⟩

/-- point.rs 80-82. -/
def from_projective (p : Proj) : Point := from_affine (Proj.to_affine p)

/-- point.rs 91-96. -/
def to_affine (p : Point) : Aff := ⟨Mont.field_to_montgomery p.x, Mont.field_to_montgomery p.y⟩

/-- point.rs 113-116. -/
def base_point_mul (n : Exponent) : Point := from_projective (Proj.scalar_base_mul n)

/-- point.rs 118-122. -/
def mul (p : Point) (n : Exponent) : Point :=
  from_projective (Aff.scalar_mul (to_affine p) n)

/-- point.rs 125-132. -/
def points_mul (p : Point) (n1 n2 : Exponent) : Point :=
  let p1 := Proj.scalar_base_mul n1
  let p2 := Aff.scalar_mul (to_affine p) n2
  from_projective (Proj.add p1 p2)

end Point

end Verif.P256
