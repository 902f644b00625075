import Verif.P256.Int256Model

/-! Field elements (libraries/crypto/src/ec/gfp256.rs) and exponents
    (libraries/crypto/src/ec/exponent256.rs): both are 256-bit integers, kept below the field
    order and below the group order. -/

namespace Verif.P256

open Int256

/-! ### gfp256.rs -/

/-- gfp256.rs 28-30, `GFP256`. -/
abbrev Gfp := Int256

namespace Gfp

/-- gfp256.rs 40-46. -/
def from_int_checked (int : Int256) : Option Gfp :=
  if ct_lt int Int256.P then some int else none

/-- gfp256.rs 58-62. -/
def mul_top (x : Gfp) (other : Int256) (other_top : UInt32) : Gfp :=
  modmul_top x other other_top Int256.P

/-- gfp256.rs 94-98. -/
def add_vartime (a b : Gfp) : Gfp := modadd_vartime a b Int256.P

/-- gfp256.rs 100-104. -/
def sub_vartime (a b : Gfp) : Gfp := modsub_vartime a b Int256.P

/-- gfp256.rs 108-116. -/
def mul (a b : Gfp) : Gfp := modmul a b Int256.P

/-- gfp256.rs 71-92. -/
def is_valid_point_vartime (x y : Gfp) : Bool :=
  if is_zero x || is_zero y then false
  else
    let y2 := mul y y
    let x2 := mul x x
    let x3 := mul x2 x
    let xx := sub_vartime x3 x
    let xx := sub_vartime xx x
    let xx := sub_vartime xx x
    let xx := add_vartime xx Int256.B
    xx == y2

end Gfp

/-! ### exponent256.rs -/

/-- exponent256.rs 28-30, `ExponentP256`; also `NonZeroExponentP256` (103-105), whose `e` it is. -/
abbrev Exponent := Int256

namespace Exponent

/-- exponent256.rs 42-44. -/
def from_int_checked (int : Int256) : Option Exponent :=
  if ct_lt int Int256.N then some int else none

/-- exponent256.rs 54-58. -/
def modn (int : Int256) : Exponent := modd int Int256.N

/-- exponent256.rs 73-75. -/
def non_zero (e : Exponent) : Option Exponent := if !is_zero e then some e else none

/-- exponent256.rs 78-82. -/
def mul_top (e : Exponent) (other : Int256) (other_top : UInt32) : Exponent :=
  modmul_top e other other_top Int256.N

/-- exponent256.rs 86-94; the product of non-zero exponents (171-180) is the same. -/
def mul (a b : Exponent) : Exponent := modmul a b Int256.N

/-- exponent256.rs 136-139, `NonZeroExponentP256::from_int_checked`. -/
def nonZeroFromInt (int : Int256) : Option Exponent :=
  (from_int_checked int).bind fun e => if !is_zero e then some e else none

/-- exponent256.rs 118-133, one turn of the loop of `gen_uniform` with the eight words drawn:
    `none` draws again. -/
def genTry (words : List UInt32) : Option Exponent :=
  let x := gen_uniform_256 words
  if ct_lt N_MIN_2 x then none else some (add_digit x 1).1

/-- exponent256.rs 118-133; `draws` are the successive groups of eight words of the generator,
    `none` when the loop is still running at the end of them. -/
def gen_uniform : List (List UInt32) → Option Exponent
  | [] => none
  | w :: ws => match genTry w with
    | some e => some e
    | none => gen_uniform ws

/-- exponent256.rs 152-158. -/
def inv (e : Exponent) : Exponent := modpow e N_MIN_2 Int256.N

end Exponent

end Verif.P256
