import Verif.P256.FieldModel

/-! Field elements in Montgomery form, libraries/crypto/src/ec/montgomery.rs: an element `x` is
    `x * 2^257` modulo the field order, in nine limbs of 29 and 28 bits in turn. The limbs are `u32`
    with the wrapping arithmetic of a release build. -/

namespace Verif.P256

/-- montgomery.rs 29-33, `Montgomery`; the array has length 9. -/
abbrev Mont := List UInt32

namespace Mont

/-- montgomery.rs 22. -/
def BOTTOM_28_BITS : UInt32 := 0x0fffffff

/-- montgomery.rs 23. -/
def BOTTOM_29_BITS : UInt32 := 0x1fffffff

/-- montgomery.rs 49-54. -/
def ZERO : Mont := [0, 0, 0, 0, 0, 0, 0, 0, 0]

/-- montgomery.rs 55-60. -/
def ONE : Mont :=
  [0x00000002, 0x00000000, 0x00000000, 0x0ffff800, 0x1fffffff, 0x0fffffff, 0x1fbfffff,
   0x01ffffff, 0x00000000]

/-- montgomery.rs 67-72. -/
def B : Mont :=
  [0x13897bbf, 0x09cdf622, 0x043090d8, 0x002e67c4, 0x176b5678, 0x02afdc84, 0x0d196888,
   0x0b090e90, 0x0b8600c3]

/-- montgomery.rs 92-104. -/
def ZERO31 : Mont :=
  [((1 : UInt32) <<< 31) - ((1 : UInt32) <<< 3),
   ((1 : UInt32) <<< 30) - ((1 : UInt32) <<< 2),
   ((1 : UInt32) <<< 31) - ((1 : UInt32) <<< 2),
   ((1 : UInt32) <<< 30) + ((1 : UInt32) <<< 13) - ((1 : UInt32) <<< 2),
   ((1 : UInt32) <<< 31) - ((1 : UInt32) <<< 2),
   ((1 : UInt32) <<< 30) - ((1 : UInt32) <<< 2),
   ((1 : UInt32) <<< 31) + ((1 : UInt32) <<< 24) - ((1 : UInt32) <<< 2),
   ((1 : UInt32) <<< 30) - ((1 : UInt32) <<< 27) - ((1 : UInt32) <<< 2),
   ((1 : UInt32) <<< 31) - ((1 : UInt32) <<< 2)]

/-- montgomery.rs 116-131, the loop: nine limbs of 29 and 28 bits in turn (`even`). -/
def toLimbs : Nat → Bool → Int256 → Mont
  | 0, _, _ => []
  | n + 1, even, shifted =>
    if even then
      (Int256.digit shifted 0 &&& BOTTOM_29_BITS) :: toLimbs n (!even) (Int256.shr 29 shifted)
    else
      (Int256.digit shifted 0 &&& BOTTOM_28_BITS) :: toLimbs n (!even) (Int256.shr 28 shifted)

/-- montgomery.rs 116-131. -/
def field_to_montgomery (gf : Gfp) : Mont := toLimbs 9 true (Gfp.mul gf Int256.R)

/-- montgomery.rs 137-146, one turn of the loop with the limb `i`. -/
def fieldStep (m : Mont) (i : Nat) (result : Int256) : Int256 × UInt32 :=
  let shift : UInt32 := if i &&& 1 = 0 then 29 else 28
  let (tmp, top1) := Int256.shl result shift
  let (r, top2) := Int256.add_digit tmp (m.getD i 0)
  (r, top1 ||| top2)

/-- montgomery.rs 133-149. -/
def montgomery_to_field (m : Mont) : Gfp :=
  let result := (Int256.add_digit Int256.ZERO (m.getD 8 0)).1
  let (result, top) := (List.range 8).foldl (fun st j => fieldStep m (7 - j) st.1) (result, 0)
  Gfp.mul_top Int256.R_INV result top

/-- montgomery.rs 153-155. -/
def get64 (m : Mont) (i : Nat) : UInt64 := (m.getD i 0).toUInt64

/-- montgomery.rs 443-454. -/
def reduce_carry (m : Mont) (carry : UInt32) : Mont :=
  match m with
  | [l0, l1, l2, l3, l4, l5, l6, l7, l8] =>
    let sel (x : UInt32) : UInt32 := if carry == 0 then 0 else x
    [l0 + (carry <<< 1),
     l1,
     l2,
     l3 + sel 0x10000000 - (carry <<< 11),
     l4 + sel (0x20000000 - 1),
     l5 + sel (0x10000000 - 1),
     l6 + sel (0x20000000 - 1) - (carry <<< 22),
     l7 + (carry <<< 25) - sel 1,
     l8]
  | m => m

/-- montgomery.rs 478-501, one limb of the loop of `propagate_carry` with the two big limbs before
    it and its own: the sum before the carry goes out. `even` is the parity of the limb. -/
def propLimb (even : Bool) (b2 b1 b0 : UInt64) (carry : UInt32) : UInt32 :=
  if even then
    ((b2 >>> 32).toUInt32 >>> 25) + (b1.toUInt32 >>> 28) +
      (((b1 >>> 32).toUInt32 <<< 4) &&& BOTTOM_29_BITS) + (b0.toUInt32 &&& BOTTOM_29_BITS) + carry
  else
    ((b2 >>> 32).toUInt32 >>> 25) + (b1.toUInt32 >>> 29) +
      (((b1 >>> 32).toUInt32 <<< 3) &&& BOTTOM_28_BITS) + (b0.toUInt32 &&& BOTTOM_28_BITS) + carry

/-- montgomery.rs 476-506, the loop of `propagate_carry` and the last limb. -/
def propLoop : Bool → UInt64 → UInt64 → UInt32 → List UInt64 → List UInt32
  | _, b2, b1, carry, [] =>
    [((b2 >>> 32).toUInt32 >>> 25) + (b1.toUInt32 >>> 29) + ((b1 >>> 32).toUInt32 <<< 3) + carry]
  | even, b2, b1, carry, b0 :: bs =>
    let l := propLimb even b2 b1 b0 carry
    if even then (l &&& BOTTOM_29_BITS) :: propLoop false b1 b0 (l >>> 29) bs
    else (l &&& BOTTOM_28_BITS) :: propLoop true b1 b0 (l >>> 28) bs

/-- montgomery.rs 465-506. -/
def propagate_carry : List UInt64 → List UInt32
  | b0 :: b1 :: bs =>
    let l1 := (b0.toUInt32 >>> 29) ||| (((b0 >>> 32).toUInt32 <<< 3) &&& BOTTOM_28_BITS)
    let l1 := l1 + (b1.toUInt32 &&& BOTTOM_28_BITS)
    (b0.toUInt32 &&& BOTTOM_29_BITS) :: (l1 &&& BOTTOM_28_BITS) ::
      propLoop true b0 b1 (l1 >>> 28) bs
  | _ => []

/-- montgomery.rs 513-536, the elimination of an even limb. The limbs from `limbs[i]` on; the
    limb that is set to 0 is dropped. -/
def elimEven : List UInt32 → List UInt32
  | l0 :: l1 :: l2 :: l3 :: l4 :: l5 :: l6 :: l7 :: l8 :: l9 :: ls =>
    let x := l0 &&& BOTTOM_29_BITS
    let sel (v : UInt32) : UInt32 := if x == 0 then 0 else v
    (l1 + (l0 >>> 29)) ::
    l2 ::
    (l3 + ((x <<< 10) &&& BOTTOM_28_BITS)) ::
    (l4 + (x >>> 18)) ::
    l5 ::
    (l6 + ((x <<< 21) &&& BOTTOM_29_BITS)) ::
    (l7 + (x >>> 8) + sel 0x10000000 - ((x <<< 24) &&& BOTTOM_28_BITS)) ::
    (l8 + sel (x - 1) - (x >>> 4) + sel 0x20000000 - x + ((x <<< 28) &&& BOTTOM_29_BITS)) ::
    (l9 + sel ((x >>> 1) - 1)) :: ls
  | ls => ls

/-- montgomery.rs 542-560, the elimination of an odd limb, the limbs from `limbs[i + 1]` on. -/
def elimOdd : List UInt32 → List UInt32
  | l0 :: l1 :: l2 :: l3 :: l4 :: l5 :: l6 :: l7 :: l8 :: l9 :: ls =>
    let x := l0 &&& BOTTOM_28_BITS
    let sel (v : UInt32) : UInt32 := if x == 0 then 0 else v
    (l1 + (l0 >>> 28)) ::
    l2 ::
    (l3 + ((x <<< 11) &&& BOTTOM_29_BITS)) ::
    (l4 + (x >>> 18)) ::
    l5 ::
    (l6 + ((x <<< 21) &&& BOTTOM_28_BITS)) ::
    (l7 + (x >>> 7) + sel 0x20000000 - ((x <<< 25) &&& BOTTOM_29_BITS)) ::
    (l8 + sel (x - 1) - (x >>> 4) + sel 0x10000000 - x) ::
    (l9 + sel (x - 1)) :: ls
  | ls => ls

/-- montgomery.rs 510-564: limbs 0 to 8 are eliminated, limbs 9 to 17 remain. -/
def eliminate_terms (limbs : List UInt32) : List UInt32 :=
  elimEven (elimOdd (elimEven (elimOdd (elimEven (elimOdd (elimEven (elimOdd (elimEven limbs))))))))

/-- montgomery.rs 572-590, the loop of `compact_limbs` over `tmp[9..]`, and the last limb (592-595):
    the limbs and the carry. -/
def compactLoop : UInt32 → List UInt32 → List UInt32 × UInt32
  | carry, t0 :: t1 :: ts =>
    let a := t0 + carry + ((t1 <<< 28) &&& BOTTOM_29_BITS)
    let b := (t1 >>> 1) + (a >>> 29)
    let (ls, c) := compactLoop (b >>> 28) ts
    ((a &&& BOTTOM_29_BITS) :: (b &&& BOTTOM_28_BITS) :: ls, c)
  | carry, [t] => ([(t + carry) &&& BOTTOM_29_BITS], (t + carry) >>> 29)
  | carry, [] => ([], carry)

/-- montgomery.rs 568-600, from `tmp[9]` on. -/
def compact_limbs (tmp : List UInt32) : Mont :=
  let (limbs, carry) := compactLoop 0 tmp
  reduce_carry limbs carry

/-- montgomery.rs 457-461. -/
def reduce_degree (big_limbs : List UInt64) : Mont :=
  compact_limbs (eliminate_terms (propagate_carry big_limbs))

/-- montgomery.rs 159-205. -/
def square (a : Mont) : Mont :=
  reduce_degree [
    get64 a 0 * get64 a 0,
    get64 a 0 * (get64 a 1 <<< 1),
    get64 a 0 * (get64 a 2 <<< 1) +
      get64 a 1 * (get64 a 1 <<< 1),
    get64 a 0 * (get64 a 3 <<< 1) +
      get64 a 1 * (get64 a 2 <<< 1),
    get64 a 0 * (get64 a 4 <<< 1) +
      get64 a 1 * (get64 a 3 <<< 2) +
      get64 a 2 * get64 a 2,
    get64 a 0 * (get64 a 5 <<< 1) +
      get64 a 1 * (get64 a 4 <<< 1) +
      get64 a 2 * (get64 a 3 <<< 1),
    get64 a 0 * (get64 a 6 <<< 1) +
      get64 a 1 * (get64 a 5 <<< 2) +
      get64 a 2 * (get64 a 4 <<< 1) +
      get64 a 3 * (get64 a 3 <<< 1),
    get64 a 0 * (get64 a 7 <<< 1) +
      get64 a 1 * (get64 a 6 <<< 1) +
      get64 a 2 * (get64 a 5 <<< 1) +
      get64 a 3 * (get64 a 4 <<< 1),
    get64 a 0 * (get64 a 8 <<< 1) +
      get64 a 1 * (get64 a 7 <<< 2) +
      get64 a 2 * (get64 a 6 <<< 1) +
      get64 a 3 * (get64 a 5 <<< 2) +
      get64 a 4 * get64 a 4,
    get64 a 1 * (get64 a 8 <<< 1) +
      get64 a 2 * (get64 a 7 <<< 1) +
      get64 a 3 * (get64 a 6 <<< 1) +
      get64 a 4 * (get64 a 5 <<< 1),
    get64 a 2 * (get64 a 8 <<< 1) +
      get64 a 3 * (get64 a 7 <<< 2) +
      get64 a 4 * (get64 a 6 <<< 1) +
      get64 a 5 * (get64 a 5 <<< 1),
    get64 a 3 * (get64 a 8 <<< 1) +
      get64 a 4 * (get64 a 7 <<< 1) +
      get64 a 5 * (get64 a 6 <<< 1),
    get64 a 4 * (get64 a 8 <<< 1) +
      get64 a 5 * (get64 a 7 <<< 2) +
      get64 a 6 * get64 a 6,
    get64 a 5 * (get64 a 8 <<< 1) +
      get64 a 6 * (get64 a 7 <<< 1),
    get64 a 6 * (get64 a 8 <<< 1) +
      get64 a 7 * (get64 a 7 <<< 1),
    get64 a 7 * (get64 a 8 <<< 1),
    get64 a 8 * get64 a 8]

/-- montgomery.rs 679-764. -/
def mul (a b : Mont) : Mont :=
  reduce_degree [
    get64 a 0 * get64 b 0,
    get64 a 0 * get64 b 1 +
      get64 a 1 * get64 b 0,
    get64 a 0 * get64 b 2 +
      get64 a 1 * (get64 b 1 <<< 1) +
      get64 a 2 * get64 b 0,
    get64 a 0 * get64 b 3 +
      get64 a 1 * get64 b 2 +
      get64 a 2 * get64 b 1 +
      get64 a 3 * get64 b 0,
    get64 a 0 * get64 b 4 +
      get64 a 1 * (get64 b 3 <<< 1) +
      get64 a 2 * get64 b 2 +
      get64 a 3 * (get64 b 1 <<< 1) +
      get64 a 4 * get64 b 0,
    get64 a 0 * get64 b 5 +
      get64 a 1 * get64 b 4 +
      get64 a 2 * get64 b 3 +
      get64 a 3 * get64 b 2 +
      get64 a 4 * get64 b 1 +
      get64 a 5 * get64 b 0,
    get64 a 0 * get64 b 6 +
      get64 a 1 * (get64 b 5 <<< 1) +
      get64 a 2 * get64 b 4 +
      get64 a 3 * (get64 b 3 <<< 1) +
      get64 a 4 * get64 b 2 +
      get64 a 5 * (get64 b 1 <<< 1) +
      get64 a 6 * get64 b 0,
    get64 a 0 * get64 b 7 +
      get64 a 1 * get64 b 6 +
      get64 a 2 * get64 b 5 +
      get64 a 3 * get64 b 4 +
      get64 a 4 * get64 b 3 +
      get64 a 5 * get64 b 2 +
      get64 a 6 * get64 b 1 +
      get64 a 7 * get64 b 0,
    get64 a 0 * get64 b 8 +
      get64 a 1 * (get64 b 7 <<< 1) +
      get64 a 2 * get64 b 6 +
      get64 a 3 * (get64 b 5 <<< 1) +
      get64 a 4 * get64 b 4 +
      get64 a 5 * (get64 b 3 <<< 1) +
      get64 a 6 * get64 b 2 +
      get64 a 7 * (get64 b 1 <<< 1) +
      get64 a 8 * get64 b 0,
    get64 a 1 * get64 b 8 +
      get64 a 2 * get64 b 7 +
      get64 a 3 * get64 b 6 +
      get64 a 4 * get64 b 5 +
      get64 a 5 * get64 b 4 +
      get64 a 6 * get64 b 3 +
      get64 a 7 * get64 b 2 +
      get64 a 8 * get64 b 1,
    get64 a 2 * get64 b 8 +
      get64 a 3 * (get64 b 7 <<< 1) +
      get64 a 4 * get64 b 6 +
      get64 a 5 * (get64 b 5 <<< 1) +
      get64 a 6 * get64 b 4 +
      get64 a 7 * (get64 b 3 <<< 1) +
      get64 a 8 * get64 b 2,
    get64 a 3 * get64 b 8 +
      get64 a 4 * get64 b 7 +
      get64 a 5 * get64 b 6 +
      get64 a 6 * get64 b 5 +
      get64 a 7 * get64 b 4 +
      get64 a 8 * get64 b 3,
    get64 a 4 * get64 b 8 +
      get64 a 5 * (get64 b 7 <<< 1) +
      get64 a 6 * get64 b 6 +
      get64 a 7 * (get64 b 5 <<< 1) +
      get64 a 8 * get64 b 4,
    get64 a 5 * get64 b 8 +
      get64 a 6 * get64 b 7 +
      get64 a 7 * get64 b 6 +
      get64 a 8 * get64 b 5,
    get64 a 6 * get64 b 8 +
      get64 a 7 * (get64 b 7 <<< 1) +
      get64 a 8 * get64 b 6,
    get64 a 7 * get64 b 8 +
      get64 a 8 * get64 b 7,
    get64 a 8 * get64 b 8]

/-- The carry loop shared by `add` (610-638), `sub` (646-674) and `mul_scalar3` (308-331) of
    montgomery.rs, on the limbs before the carries: the new limbs and the last carry. -/
def chain : Bool → UInt32 → List UInt32 → List UInt32 × UInt32
  | _, carry, [] => ([], carry)
  | even, carry, l :: ls =>
    let l := l + carry
    if even then
      let (ds, c) := chain false (l >>> 29) ls
      ((l &&& BOTTOM_29_BITS) :: ds, c)
    else
      let (ds, c) := chain true (l >>> 28) ls
      ((l &&& BOTTOM_28_BITS) :: ds, c)

/-- montgomery.rs 610-638. -/
def add (a b : Mont) : Mont :=
  let (limbs, carry) := chain true 0 (List.zipWith (· + ·) a b)
  reduce_carry limbs carry

/-- montgomery.rs 646-674. -/
def sub (a b : Mont) : Mont :=
  let (limbs, carry) := chain true 0
    (List.zipWith (· + ·) a (List.zipWith (· - ·) ZERO31 b))
  reduce_carry limbs carry

/-- montgomery.rs 308-331. -/
def mul_scalar3 (a : Mont) : Mont :=
  let (limbs, carry) := chain true 0 (a.map (· * 3))
  reduce_carry limbs carry

/-- The loops of `mul_scalar2` (277-305, `k = 1`) and `mul_scalar4` (335-363, `k = 2`) of
    montgomery.rs. -/
def shiftChain (k : UInt32) : Bool → UInt32 → List UInt32 → List UInt32 × UInt32
  | _, carry, [] => ([], carry)
  | even, carry, l :: ls =>
    if even then
      let next_carry := l >>> (29 - k)
      let l := ((l <<< k) &&& BOTTOM_29_BITS) + carry
      let (ds, c) := shiftChain k false (next_carry + (l >>> 29)) ls
      ((l &&& BOTTOM_29_BITS) :: ds, c)
    else
      let next_carry := l >>> (28 - k)
      let l := ((l <<< k) &&& BOTTOM_28_BITS) + carry
      let (ds, c) := shiftChain k true (next_carry + (l >>> 28)) ls
      ((l &&& BOTTOM_28_BITS) :: ds, c)

/-- montgomery.rs 277-305. -/
def mul_scalar2 (a : Mont) : Mont :=
  let (limbs, carry) := shiftChain 1 true 0 a
  reduce_carry limbs carry

/-- montgomery.rs 335-363. -/
def mul_scalar4 (a : Mont) : Mont :=
  let (limbs, carry) := shiftChain 2 true 0 a
  reduce_carry limbs carry

/-- `for _ in 0..n { tmp = tmp.square(); }`. -/
def squares : Nat → Mont → Mont
  | 0, x => x
  | n + 1, x => squares n (square x)

/-- montgomery.rs 208-274. -/
def inv (a : Mont) : Mont :=
  let tmp := square a
  let tmp := mul tmp a
  let e2 := tmp
  let tmp := square tmp
  let tmp := square tmp
  let tmp := mul tmp e2
  let e4 := tmp
  let tmp := squares 4 tmp
  let tmp := mul tmp e4
  let e8 := tmp
  let tmp := squares 8 tmp
  let tmp := mul tmp e8
  let e16 := tmp
  let tmp := squares 16 tmp
  let tmp := mul tmp e16
  let e32 := tmp
  let tmp := squares 32 tmp
  let e64 := tmp
  let tmp := mul tmp a
  let tmp := squares 192 tmp
  let tmp2 := mul e64 e32
  let tmp2 := squares 16 tmp2
  let tmp2 := mul tmp2 e16
  let tmp2 := squares 8 tmp2
  let tmp2 := mul tmp2 e8
  let tmp2 := squares 4 tmp2
  let tmp2 := mul tmp2 e4
  let tmp2 := square tmp2
  let tmp2 := square tmp2
  let tmp2 := mul tmp2 e2
  let tmp2 := square tmp2
  let tmp2 := square tmp2
  let tmp2 := mul tmp2 a
  mul tmp2 tmp

end Mont

end Verif.P256
