import Verif.Crypto.CbcModel
/-!
# FIPS 197 (AES-256), written from the standard

Field arithmetic in GF(2^8) modulo x^8 + x^4 + x^3 + x + 1, the S-box as multiplicative inverse followed by
the affine map, the state as a 4×4 matrix `s r c`, and the word-oriented key expansion.
-/
namespace Verif.Crypto.Aes.Spec
open Verif.Crypto

/-- Multiplication of polynomials over GF(2) modulo `x^8+x^4+x^3+x+1` (FIPS 197, 4.2): Horner's rule over the
bits of `b`, most significant first. `xtime` is 4.2.1. -/
def xtime (a : Nat) : Nat := if 2 * a < 256 then 2 * a else (2 * a) ^^^ 0x11b

def gmulN (a b : Nat) : Nat :=
  [7, 6, 5, 4, 3, 2, 1, 0].foldl (fun acc i => xtime acc ^^^ (if b.testBit i then a else 0)) 0

def gmul (a b : UInt8) : UInt8 := UInt8.ofNat (gmulN a.toNat b.toNat)

/-- The affine transformation (5.1) of the S-box: `b'_i = b_i ⊕ b_{i+4} ⊕ b_{i+5} ⊕ b_{i+6} ⊕ b_{i+7} ⊕ c_i`
with indices mod 8 and `c = 0x63`. -/
def affine (b : UInt8) : UInt8 :=
  UInt8.ofNat ((List.range 8).foldl (fun acc i =>
    let t := fun k => b.toNat.testBit ((i + k) % 8)
    if ((t 0 ^^ t 4) ^^ (t 5 ^^ t 6)) ^^ (t 7 ^^ (0x63 : Nat).testBit i) then acc + 2 ^ i else acc) 0)

/-- `y` is the S-box image of `x`: the affine map of the inverse of `x` (0 is its own inverse). -/
def IsSbox (x y : UInt8) : Prop :=
  ∃ i : UInt8, (if x = 0 then i = 0 else gmul x i = 1) ∧ y = affine i

/-- The state: row, column. -/
abbrev State := Nat → Nat → UInt8

/-- 3.4: `s[r,c] = in[r + 4c]`. -/
def ofBytes (b : Bytes) : State := fun r c => b.getD (r + 4 * c) 0
def toBytes (s : State) : Bytes := (List.range 16).map fun k => s (k % 4) (k / 4)

/-- 5.1.1–5.1.4. -/
def subBytes (S : UInt8 → UInt8) (s : State) : State := fun r c => S (s r c)
def shiftRows (s : State) : State := fun r c => s r ((c + r) % 4)
def mixColumns (s : State) : State := fun r c =>
  gmul 2 (s r c) ^^^ gmul 3 (s ((r + 1) % 4) c) ^^^ s ((r + 2) % 4) c ^^^ s ((r + 3) % 4) c
/-- Round key addition: `w (4 * round + c)` is the word added to column `c`. -/
def addRoundKey (w : Nat → Nat → UInt8) (round : Nat) (s : State) : State := fun r c =>
  s r c ^^^ w (4 * round + c) r

/-- `x^(i-1)` in the field. -/
def rcon : Nat → UInt8
  | 0 => 1
  | 1 => 1
  | n + 1 => gmul 2 (rcon n)

/-- 5.2, Nk = 8: `w i` is the `i`-th word, byte `k` of it `w i k`. -/
def w (S : UInt8 → UInt8) (key : Bytes) (i : Nat) : Nat → UInt8 :=
  if _h : i < 8 then fun k => key.getD (4 * i + k) 0
  else
    let t := w S key (i - 1)
    let t' : Nat → UInt8 :=
      if i % 8 = 0 then fun k => S (t ((k + 1) % 4)) ^^^ (if k = 0 then rcon (i / 8) else 0)
      else if i % 8 = 4 then fun k => S (t k)
      else t
    fun k => w S key (i - 8) k ^^^ t' k
termination_by i

/-- Rounds `1 … n`. -/
def rounds (S : UInt8 → UInt8) (wk : Nat → Nat → UInt8) (s : State) : Nat → State
  | 0 => s
  | n + 1 => addRoundKey wk (n + 1) (mixColumns (shiftRows (subBytes S (rounds S wk s n))))

/-- 5.1, the cipher with Nr = 14. -/
def cipher (S : UInt8 → UInt8) (key input : Bytes) : Bytes :=
  let wk := w S key
  let s := addRoundKey wk 0 (ofBytes input)
  toBytes (addRoundKey wk 14 (shiftRows (subBytes S (rounds S wk s 13))))

end Verif.Crypto.Aes.Spec
