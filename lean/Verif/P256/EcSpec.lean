import Verif.P256.CurveLemmas
import Verif.Crypto.ShaSpec

/-! What ECDSA and ECDH over P-256 are, written from the standards and not from the code. The curve
    `E` (`y² = x³ - 3x + b` over the integers modulo the prime `P`) with its group law is Mathlib's,
    `G` is the base point of FIPS 186-4 and `N` its order (`CurveLemmas.order_G`). -/

namespace Verif.P256.Spec

open Verif.P256

/-- The big-endian number in a byte string. -/
def number (bytes : List UInt8) : Nat := bytes.foldl (fun acc b => 256 * acc + b.toNat) 0

/-- The `x` coordinate of a point as an integer; infinity has none. -/
def xCoord : E.Point → Option Nat
  | .zero => none
  | .some x _ _ => some x.val

/-- The two coordinates as integers. -/
def coords : E.Point → Option (Nat × Nat)
  | .zero => none
  | .some x y _ => some (x.val, y.val)

/-- FIPS 186-4, 6.4 (ANSI X9.62): the signature of the number `e` with the secret `d` and the
    per-message secret `k`; `none` when another `k` must be tried. -/
def sign (d k e : Nat) : Option (Nat × Nat) :=
  match xCoord (k • G) with
  | none => none
  | some x =>
    let r := x % N
    let s := ((k : ZMod N)⁻¹ * (e + r * d)).val
    if r = 0 ∨ s = 0 then none else some (r, s)

/-- FIPS 186-4, 6.4 (ANSI X9.62): `(r, s)` is a signature of the number `e` for the public key `Q`. -/
def Valid (Q : E.Point) (e r s : Nat) : Prop :=
  (0 < r ∧ r < N) ∧ (0 < s ∧ s < N) ∧
  ∃ x, xCoord (((e : ZMod N) * (s : ZMod N)⁻¹).val • G + ((r : ZMod N) * (s : ZMod N)⁻¹).val • Q)
      = some x ∧ x % N = r

/-- SEC 1, 2.3.3: the uncompressed encoding of a point which is not infinity. -/
def Uncompressed (A : E.Point) (bytes : List UInt8) : Prop :=
  bytes.length = 65 ∧ bytes.head? = some 4 ∧
  coords A = some (number ((bytes.drop 1).take 32), number (bytes.drop 33))

/-! ### Distinguished encoding of a signature (X.690) -/

/-- X.690, 8.3: the value of the contents octets of an INTEGER, two's complement. -/
def intValue (c : List UInt8) : Int :=
  if (c.headD 0).toNat < 128 then number c else (number c : Int) - 256 ^ c.length

/-- X.690, 8.3.1 and 8.3.2: there is at least one contents octet, and the first nine bits are not
    all equal. -/
def ShortestInt (c : List UInt8) : Prop :=
  c ≠ [] ∧ ∀ a b rest, c = a :: b :: rest →
    ¬ (a = 0 ∧ b.toNat < 128) ∧ ¬ (a = 255 ∧ 128 ≤ b.toNat)

/-- A tag, a definite length in the short form and that many contents octets. -/
def tlv (tag : UInt8) (contents : List UInt8) : Option (List UInt8) :=
  if contents.length < 128 then some (tag :: UInt8.ofNat contents.length :: contents) else none

/-- RFC 3279, 2.2.3: `SEQUENCE { r INTEGER, s INTEGER }` in DER. -/
def DerSignature (r s : Int) (bytes : List UInt8) : Prop :=
  ∃ cr cs er es, ShortestInt cr ∧ intValue cr = r ∧ ShortestInt cs ∧ intValue cs = s ∧
    tlv 2 cr = some er ∧ tlv 2 cs = some es ∧ tlv 0x30 (er ++ es) = some bytes

/-! ### RFC 6979 -/

/-- RFC 6979, 2.3.3 with `rlen` 256: `int2octets`. -/
def int2octets (x : Nat) : List UInt8 := Crypto.Sha.Spec.be 32 x

/-- RFC 6979, 2.3.4 for a hash of 256 bits: `bits2octets`. -/
def bits2octets (h : List UInt8) : List UInt8 := int2octets (number h % N)

/-- RFC 6979, 3.2, steps b to g, for a MAC `hmac` and the hash `h1` of the message. -/
def rfcInit (hmac : List UInt8 → List UInt8 → List UInt8) (x : Nat) (h1 : List UInt8) :
    List UInt8 × List UInt8 :=
  let V := List.replicate 32 0x01
  let K := List.replicate 32 0x00
  let K := hmac K (V ++ [0x00] ++ int2octets x ++ bits2octets h1)
  let V := hmac K V
  let K := hmac K (V ++ [0x01] ++ int2octets x ++ bits2octets h1)
  let V := hmac K V
  (K, V)

/-- Step h.2: `(K, V)` gives the candidate, and (step h.3) the state for the next one. -/
def rfcNext (hmac : List UInt8 → List UInt8 → List UInt8) (st : List UInt8 × List UInt8) :
    Nat × (List UInt8 × List UInt8) :=
  let V := hmac st.1 st.2
  let T := V
  let K := hmac st.1 (V ++ [0x00])
  (number T, (K, hmac K V))

/-- Step h: the signature with the first suitable candidate, `none` if there is none among the
    first `n`. -/
def rfcLoop (hmac : List UInt8 → List UInt8 → List UInt8) (d e : Nat) :
    Nat → List UInt8 × List UInt8 → Option (Nat × Nat)
  | 0, _ => none
  | n + 1, st =>
    (if 0 < (rfcNext hmac st).1 ∧ (rfcNext hmac st).1 < N then sign d (rfcNext hmac st).1 e
      else none).or (rfcLoop hmac d e n (rfcNext hmac st).2)

/-- The deterministic signature of RFC 6979 of a message, among the first `n` candidates. -/
def rfcSign (hash : List UInt8 → List UInt8) (hmac : List UInt8 → List UInt8 → List UInt8)
    (n d : Nat) (m : List UInt8) : Option (Nat × Nat) :=
  rfcLoop hmac d (number (hash m)) n (rfcInit hmac d (hash m))

end Verif.P256.Spec
