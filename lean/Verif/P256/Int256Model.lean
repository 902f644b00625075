/-! The 256-bit integers of libraries/crypto/src/ec/int256.rs, as eight 32-bit digits, least
    significant first. `u32` and `u64` are `UInt32` and `UInt64` (arithmetic of a release build,
    which wraps). The signed `i64` borrows are integers: they stay between -2^33 and 2^33, so
    `as Digit` is the remainder by 2^32 and `>> 32` the rounded-down quotient. `subtle::Choice` is
    `Bool`, `CtOption` is `Option`; timing is not modelled. A loop over the digits is a recursion
    over the list of digits. -/

namespace Verif.P256

/-- int256.rs 37-41, `Int256`; the array has length 8 (hypothesis `Wf` in the theorems). -/
abbrev Int256 := List UInt32

/-- The length of the array of digits, int256.rs 25 (`NDIGITS`). -/
def Wf (x : Int256) : Prop := x.length = 8

namespace Int256

/-- int256.rs 60-65. -/
def N : Int256 :=
  [0xfc632551, 0xf3b9cac2, 0xa7179e84, 0xbce6faad, 0xffffffff, 0xffffffff, 0x00000000, 0xffffffff]

/-- int256.rs 67-72. -/
def N_MIN_2 : Int256 :=
  [0xfc63254f, 0xf3b9cac2, 0xa7179e84, 0xbce6faad, 0xffffffff, 0xffffffff, 0x00000000, 0xffffffff]

/-- int256.rs 74-79. -/
def P : Int256 :=
  [0xffffffff, 0xffffffff, 0xffffffff, 0x00000000, 0x00000000, 0x00000000, 0x00000001, 0xffffffff]

/-- int256.rs 81-86. -/
def B : Int256 :=
  [0x27d2604b, 0x3bce3c3e, 0xcc53b0f6, 0x651d06b0, 0x769886bc, 0xb3ebbd55, 0xaa3a93e7, 0x5ac635d8]

/-- int256.rs 88-93. -/
def R : Int256 :=
  [0x00000002, 0x00000000, 0x00000000, 0xfffffffe, 0xffffffff, 0xffffffff, 0xfffffffd, 0x00000001]

/-- int256.rs 95-100. -/
def R_INV : Int256 :=
  [0x80000000, 0x00000001, 0xffffffff, 0x00000000, 0x80000001, 0xfffffffe, 0x00000001, 0x7fffffff]

/-- int256.rs 102. -/
def ZERO : Int256 := [0, 0, 0, 0, 0, 0, 0, 0]

/-- int256.rs 103-105. -/
def ONE : Int256 := [1, 0, 0, 0, 0, 0, 0, 0]

/-- int256.rs 124-133: the eight words drawn from the generator, least significant first. `words`
    is what the generator returns. -/
def gen_uniform_256 (words : List UInt32) : Int256 := words.take 8

/-- byteorder's `BigEndian::read_u32` on four bytes. -/
def readU32 : List UInt8 → UInt32
  | [a, b, c, d] => (a.toUInt32 <<< 24) ||| (b.toUInt32 <<< 16) ||| (c.toUInt32 <<< 8) ||| d.toUInt32
  | _ => 0

/-- byteorder's `BigEndian::write_u32`. -/
def writeU32 (x : UInt32) : List UInt8 :=
  [(x >>> 24).toUInt8, (x >>> 16).toUInt8, (x >>> 8).toUInt8, x.toUInt8]

/-- int256.rs 136-142: the loop over the groups of four bytes; each group ends in front of the
    digits already read. -/
def fromBinLoop : Nat → List UInt8 → Int256 → Int256
  | 0, _, acc => acc
  | n + 1, src, acc => fromBinLoop n (src.drop 4) (readU32 (src.take 4) :: acc)

/-- int256.rs 136-142. -/
def from_bin (src : List UInt8) : Int256 := fromBinLoop 8 src []

/-- int256.rs 144-148: the digits from the most significant one, each in four bytes. -/
def to_bin (x : Int256) : List UInt8 := x.reverse.flatMap writeU32

/-- int256.rs 150-164. -/
def to_minimal_encoding (x : Int256) : List UInt8 :=
  let bytes := to_bin x
  match bytes.findIdx? (· ≠ 0) with
  | some pos =>
    (if bytes.getD pos 0 &&& 0x80 = 0x80 then [0x00] else []) ++ bytes.drop pos
  | none => [0x00]

/-- int256.rs 168-170. -/
def digit (x : Int256) (i : Nat) : UInt32 := x.getD i 0

/-- int256.rs 172-176. -/
def bit (x : Int256) (i : Nat) : UInt32 :=
  (x.getD (i / 32) 0 >>> UInt32.ofNat (i &&& 31)) &&& 1

/-- int256.rs 178-185. -/
def is_zero (x : Int256) : Bool := x.foldl (fun acc d => acc && d == 0) true

/-- int256.rs 203-208, the loop of `shl`: `prev` is the digit before. -/
def shlLoop (n : UInt32) : UInt32 → Int256 → Int256
  | _, [] => []
  | prev, d :: ds => ((d <<< n) ||| (prev >>> (32 - n))) :: shlLoop n d ds

/-- int256.rs 201-214; 0 < n < 32. The first digit has no digit before it. -/
def shl (x : Int256) (n : UInt32) : Int256 × UInt32 :=
  match x with
  | [] => ([], 0)
  | d :: ds => ((d <<< n) :: shlLoop n d ds, x.getD 7 0 >>> (32 - n))

/-- int256.rs 217-226; 0 < n < 32. -/
def shr (n : UInt32) : Int256 → Int256
  | [] => []
  | [d] => [d >>> n]
  | d :: e :: ds => ((d >>> n) ||| (e <<< (32 - n))) :: shr n (e :: ds)

/-- int256.rs 564-575, the loop of `&a + &b`. -/
def addLoop : UInt64 → Int256 → Int256 → Int256 × UInt64
  | carry, a :: as, b :: bs =>
    let carry := carry + (a.toUInt64 + b.toUInt64)
    let (ds, last) := addLoop (carry >>> 32) as bs
    (carry.toUInt32 :: ds, last)
  | carry, _, _ => ([], carry)

/-- int256.rs 564-575. -/
def add (a b : Int256) : Int256 × UInt32 :=
  let (ds, carry) := addLoop 0 a b
  (ds, carry.toUInt32)

/-- int256.rs 596-607, the loop of `&a + digit`. -/
def addDigitLoop : UInt64 → Int256 → Int256 × UInt64
  | carry, a :: as =>
    let carry := carry + a.toUInt64
    let (ds, last) := addDigitLoop (carry >>> 32) as
    (carry.toUInt32 :: ds, last)
  | carry, [] => ([], carry)

/-- int256.rs 596-607. -/
def add_digit (a : Int256) (d : UInt32) : Int256 × UInt32 :=
  let (ds, carry) := addDigitLoop d.toUInt64 a
  (ds, carry.toUInt32)

/-- `as Digit` of a signed double digit. -/
def toDigit (x : Int) : UInt32 := UInt32.ofNat (x % 4294967296).toNat

/-- int256.rs 616-628, the loop of `&a - &b`. -/
def subLoop : Int → Int256 → Int256 → Int256 × Int
  | borrow, a :: as, b :: bs =>
    let borrow := borrow + ((a.toNat : Int) - (b.toNat : Int))
    let (ds, last) := subLoop (borrow / 4294967296) as bs
    (toDigit borrow :: ds, last)
  | borrow, _, _ => ([], borrow)

/-- int256.rs 616-628. -/
def sub (a b : Int256) : Int256 × UInt32 :=
  let (ds, borrow) := subLoop 0 a b
  (ds, toDigit borrow)

/-- int256.rs 258-265, the loop of `add_conditional`. -/
def addCondLoop (choice : Bool) : UInt64 → Int256 → Int256 → Int256 × UInt64
  | carry, d :: ds, m :: ms =>
    let carry := carry + d.toUInt64
    let carry := carry + (if choice then m else 0).toUInt64
    let (ds, last) := addCondLoop choice (carry >>> 32) ds ms
    (carry.toUInt32 :: ds, last)
  | carry, _, _ => ([], carry)

/-- int256.rs 252-268; returns the new digits and the new top digit. -/
def add_conditional (dst modd : Int256) (top : UInt32) (choice : Bool) : Int256 × UInt32 :=
  let (ds, carry) := addCondLoop choice 0 dst modd
  (ds, carry.toUInt32 + top)

/-- int256.rs 278-285, the loop of `sub_conditional`. -/
def subCondLoop (choice : Bool) : Int → Int256 → Int256 → Int256 × Int
  | borrow, d :: ds, m :: ms =>
    let borrow := borrow + (d.toNat : Int)
    let borrow := borrow - ((if choice then m else 0).toNat : Int)
    let (ds, last) := subCondLoop choice (borrow / 4294967296) ds ms
    (toDigit borrow :: ds, last)
  | borrow, _, _ => ([], borrow)

/-- int256.rs 272-288; returns the new digits and whether the result is negative. -/
def sub_conditional (dst modd : Int256) (top : UInt32) (choice : Bool) : Int256 × Bool :=
  let (ds, borrow) := subCondLoop choice 0 dst modd
  (ds, toDigit (borrow + (top.toNat : Int)) == 0xffffffff)

/-- int256.rs 243-248. -/
def modd (x m : Int256) : Int256 :=
  let (digits, choice) := sub_conditional x m 0 true
  (add_conditional digits m 0 choice).1

/-- int256.rs 302-309. -/
def modsub_vartime (a b m : Int256) : Int256 :=
  let (diff, borrow) := sub a b
  if borrow ≠ 0 then (add diff m).1 else diff

/-- int256.rs 292-299. -/
def modadd_vartime (a b m : Int256) : Int256 :=
  let (sum, carry) := add a b
  let tmp := if carry ≠ 0 then (sub sum m).1 else sum
  modsub_vartime tmp m m

/-- int256.rs 369-376, the loop of `mul_add`. -/
def mulAddLoop (factor : UInt32) : UInt64 → Int256 → Int256 → Int256 × UInt64
  | carry, d :: ds, s :: ss =>
    let carry := carry + d.toUInt64
    let carry := carry + s.toUInt64 * factor.toUInt64
    let (ds, last) := mulAddLoop factor (carry >>> 32) ds ss
    (carry.toUInt32 :: ds, last)
  | carry, _, _ => ([], carry)

/-- int256.rs 368-379; returns the new digits and the carry digit. -/
def mul_add (dst src : Int256) (factor : UInt32) : Int256 × UInt32 :=
  let (ds, carry) := mulAddLoop factor 0 dst src
  (ds, carry.toUInt32)

/-- int256.rs 384-400; returns the new digits and the new top digit. -/
def sub_top (dst src : Int256) (top src_top : UInt32) : Int256 × UInt32 :=
  let (ds, borrow) := subLoop 0 dst src
  (ds, toDigit (borrow + (top.toNat : Int) - (src_top.toNat : Int)))

/-- int256.rs 323-331, the multiplication loop of `modmul_top`. The array `tmp` is split in the
    digits below the current window of eight (`low`, most recent first) and the window; moving on
    puts `top` at the end of the next window (line 326, and line 331 after the loop). -/
def mulLoop (a : Int256) : List UInt32 → List UInt32 → Int256 → List UInt32 × Int256
  | [], low, window => (low, window)
  | b :: bs, low, window =>
    let (w, top) := mul_add window a b
    mulLoop a bs (w.headD 0 :: low) (w.tail ++ [top])

/-- int256.rs 338-351, one turn of the reduction loop on the window and the digit above it: the
    new window. -/
def reduceWindow (m window : Int256) (top : UInt32) : Int256 :=
  let (reducer, top_reducer) := mul_add ZERO m top
  let (w, top) := sub_top window reducer top top_reducer
  (sub_conditional w m top (top == 1)).1

/-- int256.rs 335-354, the reduction loop: the window moves down one digit at a time; its highest
    digit becomes `top`. -/
def reduceLoop (m : Int256) : List UInt32 → Int256 → UInt32 → Int256
  | [], window, top => reduceWindow m window top
  | l :: low, window, top =>
    let w := reduceWindow m window top
    reduceLoop m low (l :: w.dropLast) (w.getLastD 0)

/-- int256.rs 319-363. -/
def modmul_top (a b : Int256) (top_b : UInt32) (m : Int256) : Int256 :=
  let (low, window) := mulLoop a b [] ZERO
  let (window, top) := mul_add window a top_b
  let w := reduceLoop m low window top
  let (w, choice) := sub_conditional w m 0 true
  (add_conditional w m 0 choice).1

/-- int256.rs 313-315. -/
def modmul (a b m : Int256) : Int256 := modmul_top a b 0 m

/-- int256.rs 411-416, `set_zero_to_idx`: what the first entry is set to. -/
def tblSelect (tbl : List Int256) (idx : UInt32) : Int256 :=
  (List.range 15).foldl
    (fun acc i => if UInt32.ofNat (i + 1) == idx then tbl.getD i [] else acc) ONE

/-- int256.rs 420-426: the powers `self^1` .. `self^15`. -/
def powTable (x m : Int256) : Nat → Int256 → List Int256
  | 0, _ => []
  | n + 1, cur => cur :: powTable x m n (modmul cur x m)

/-- int256.rs 429-443, one turn of the loop of `modpow`; `i` is as in the code. -/
def modpowStep (tbl : List Int256) (power m : Int256) (result : Int256) (i : Nat) : Int256 :=
  let result := modmul result result m
  let result := modmul result result m
  let result := modmul result result m
  let result := modmul result result m
  let idx := (bit power (i - 1) <<< 3) ||| (bit power (i - 2) <<< 2) |||
    (bit power (i - 3) <<< 1) ||| bit power (i - 4)
  let tbl0 := modmul (tblSelect tbl idx) result m
  if idx != 0 then tbl0 else result

/-- int256.rs 419-446. -/
def modpow (x power m : Int256) : Int256 :=
  let tbl := powTable x m 15 x
  (List.range 64).foldl (fun r j => modpowStep tbl power m r (256 - 4 * j)) ONE

/-- int256.rs 501-521, the loop of `ct_lt`. -/
def ltLoop : Int → Int256 → Int256 → Int
  | borrow, a :: as, b :: bs =>
    ltLoop ((borrow + ((a.toNat : Int) - (b.toNat : Int))) / 4294967296) as bs
  | borrow, _, _ => borrow

/-- int256.rs 501-521; `(borrow & 1) as u8`. -/
def ct_lt (a b : Int256) : Bool := ltLoop 0 a b % 2 == 1

end Int256

end Verif.P256
