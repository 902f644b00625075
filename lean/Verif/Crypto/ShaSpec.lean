import Verif.Crypto.CbcModel
/-!
# FIPS 180-4 (SHA-256), RFC 2104 (HMAC), RFC 5869 (HKDF), written from the standards

Words are `BitVec 32` with Lean's own rotations and addition modulo `2^32`.
-/
namespace Verif.Crypto.Sha.Spec
open Verif.Crypto

abbrev W := BitVec 32

/-- FIPS 180-4, 4.1.2. -/
def Ch (x y z : W) : W := (x &&& y) ^^^ (~~~x &&& z)
def Maj (x y z : W) : W := (x &&& y) ^^^ (x &&& z) ^^^ (y &&& z)
def Sigma0 (x : W) : W := x.rotateRight 2 ^^^ x.rotateRight 13 ^^^ x.rotateRight 22
def Sigma1 (x : W) : W := x.rotateRight 6 ^^^ x.rotateRight 11 ^^^ x.rotateRight 25
def sigma0 (x : W) : W := x.rotateRight 7 ^^^ x.rotateRight 18 ^^^ (x >>> 3)
def sigma1 (x : W) : W := x.rotateRight 17 ^^^ x.rotateRight 19 ^^^ (x >>> 10)

/-- The first 64 primes. -/
def isPrime (n : Nat) : Bool := decide (2 ≤ n) && (List.range n).all fun d => d < 2 || n % d != 0
def primes : List Nat := (List.range 312).filter isPrime

/-- 4.2.2: `k` is the first thirty-two bits of the fractional part of the cube root of `p`. -/
def IsFracCbrt (p k : Nat) : Prop := ∃ n, n ^ 3 ≤ p * 2 ^ 96 ∧ p * 2 ^ 96 < (n + 1) ^ 3 ∧ k = n % 2 ^ 32
/-- 5.3.3: likewise for the square root. -/
def IsFracSqrt (p k : Nat) : Prop := ∃ n, n ^ 2 ≤ p * 2 ^ 64 ∧ p * 2 ^ 64 < (n + 1) ^ 2 ∧ k = n % 2 ^ 32

/-- Big-endian bytes of a number. -/
def be : Nat → Nat → Bytes
  | 0, _ => []
  | n + 1, x => be n (x / 256) ++ [UInt8.ofNat (x % 256)]

/-- The number written by big-endian bytes. -/
def ofBe (b : Bytes) : Nat := b.foldl (fun acc x => acc * 256 + x.toNat) 0

/-- 5.1.1, for messages of whole bytes: `1`, then the fewest zeros, then the length in bits, to a multiple of 512
bits. -/
def pad (m : Bytes) : Bytes :=
  m ++ [0x80] ++ List.replicate ((119 - m.length % 64) % 64) 0 ++ be 8 (8 * m.length)

/-- 5.2.1: the 64-byte blocks. -/
def blocks (b : Bytes) : List Bytes :=
  if b.length < 64 then [] else b.take 64 :: blocks (b.drop 64)
termination_by b.length
decreasing_by simp [List.length_drop]; omega

/-- 6.2.2 step 1: the message schedule `W_t`. -/
def Wt (block : Bytes) (t : Nat) : W :=
  if _h : t < 16 then BitVec.ofNat 32 (ofBe ((block.drop (4 * t)).take 4))
  else sigma1 (Wt block (t - 2)) + Wt block (t - 7) + sigma0 (Wt block (t - 15)) + Wt block (t - 16)
termination_by t

/-- The eight words `a … h` as a function of the index. -/
abbrev V := Fin 8 → W

/-- 6.2.2 step 3. -/
def step (K : Nat → W) (block : Bytes) (v : V) (t : Nat) : V :=
  let T1 := v 7 + Sigma1 (v 4) + Ch (v 4) (v 5) (v 6) + K t + Wt block t
  let T2 := Sigma0 (v 0) + Maj (v 0) (v 1) (v 2)
  fun i => match i with
    | 0 => T1 + T2
    | 1 => v 0
    | 2 => v 1
    | 3 => v 2
    | 4 => v 3 + T1
    | 5 => v 4
    | 6 => v 5
    | 7 => v 6

def steps (K : Nat → W) (block : Bytes) (v : V) : Nat → V
  | 0 => v
  | t + 1 => step K block (steps K block v t) t

/-- 6.2.2 step 4. -/
def compress (K : Nat → W) (h : V) (block : Bytes) : V := fun i => steps K block h 64 i + h i

/-- 6.2.2: the digest. -/
def sha256 (K : Nat → W) (H : V) (m : Bytes) : Bytes :=
  let h := (blocks (pad m)).foldl (compress K) H
  be 4 (h 0).toNat ++ be 4 (h 1).toNat ++ be 4 (h 2).toNat ++ be 4 (h 3).toNat ++
  be 4 (h 4).toNat ++ be 4 (h 5).toNat ++ be 4 (h 6).toNat ++ be 4 (h 7).toNat

/-- RFC 2104 with block size 64, for a hash function `H`. -/
def hmac (H : Bytes → Bytes) (key text : Bytes) : Bytes :=
  let k := if key.length > 64 then H key else key
  let k0 := k ++ List.replicate (64 - k.length) 0
  H (k0.map (· ^^^ 0x5c) ++ H (k0.map (· ^^^ 0x36) ++ text))

/-- RFC 5869, 2.3: `T(n)`. -/
def hkdfT (H : Bytes → Bytes) (prk info : Bytes) : Nat → Bytes
  | 0 => []
  | n + 1 => hmac H prk (hkdfT H prk info n ++ info ++ [UInt8.ofNat (n + 1)])

/-- RFC 5869 with output length `L` and hash length 32; the salt defaults to 32 zero bytes. -/
def hkdf (H : Bytes → Bytes) (salt : Option Bytes) (ikm info : Bytes) (L : Nat) : Bytes :=
  let prk := hmac H (salt.getD (List.replicate 32 0)) ikm
  let N := (L + 31) / 32
  ((List.range N).flatMap fun i => hkdfT H prk info (i + 1)).take L

end Verif.Crypto.Sha.Spec
