import Verif.P256.PointModel
import Verif.Crypto.ShaModel

/-! ECDSA (libraries/crypto/src/ecdsa.rs) and ECDH (libraries/crypto/src/ecdh.rs) over P-256, which
    the device calls through libraries/opensk/src/api/crypto/software_crypto.rs. Byte arrays of
    fixed size are lists; `None` of the code's `Option` and `CtOption` is `none`. Wiping of keys is
    not modelled. -/

namespace Verif.P256

open Int256

/-- What the code takes from the trait `Hash256`, libraries/crypto/src/lib.rs 34-61. -/
structure Hash256 where
  hash : List UInt8 → List UInt8
  hmac : List UInt8 → List UInt8 → List UInt8

/-- The instance of the trait the device uses, libraries/crypto/src/sha256.rs; `w` is the width of
    `usize`. -/
def sha256 (w : Nat) : Hash256 := ⟨Crypto.Sha.hash w, Crypto.Sha.hmac w⟩

namespace Ecdsa

/-- ecdsa.rs 33-35. -/
structure SecKey where
  k : Exponent
deriving DecidableEq, Repr

/-- ecdsa.rs 41-44. -/
structure Signature where
  r : Exponent
  s : Exponent
deriving DecidableEq, Repr

/-- ecdsa.rs 50-52. -/
structure PubKey where
  p : Point
deriving DecidableEq, Repr

namespace SecKey

/-- ecdsa.rs 55-62; `draws` as for `Exponent.gen_uniform`. -/
def gensk (draws : List (List UInt32)) : Option SecKey := (Exponent.gen_uniform draws).map SecKey.mk

/-- ecdsa.rs 64-68. -/
def genpk (sk : SecKey) : PubKey := ⟨Point.base_point_mul sk.k⟩

/-- ecdsa.rs 117-136: the rest of `try_sign` with the `x` coordinate of the multiple of the base
    point. -/
def signWith (sk : SecKey) (k : Exponent) (msg : Exponent) (x : Gfp) : Option Signature :=
  match Exponent.non_zero (Exponent.modn x) with
  | none => none
  | some r =>
    let (s, top) := add (Exponent.mul r sk.k) msg
    match Exponent.non_zero (Exponent.mul_top (Exponent.inv k) s top) with
    | none => none
    | some s => some ⟨r, s⟩

/-- ecdsa.rs 116-137. -/
def try_sign (sk : SecKey) (k : Exponent) (msg : Exponent) : Option Signature :=
  sk.signWith k msg (Point.base_point_mul k).x

/-- ecdsa.rs 75-88: the loop, which ends with the first draw of the generator that gives a `k` and a
    signature; `none` if there is none among `draws`. -/
def sign_rng (H : Hash256) (sk : SecKey) (msg : List UInt8) (draws : List (List UInt32)) :
    Option Signature :=
  draws.findSome? fun w =>
    (Exponent.genTry w).bind fun k => sk.try_sign k (Exponent.modn (from_bin (H.hash msg)))

/-- ecdsa.rs 160-168. -/
def from_bytes (bytes : List UInt8) : Option SecKey :=
  (Exponent.nonZeroFromInt (from_bin bytes)).map SecKey.mk

/-- ecdsa.rs 171-173. -/
def to_bytes (sk : SecKey) : List UInt8 := to_bin sk.k

end SecKey

/-- ecdsa.rs 277-284. -/
structure Rfc6979 where
  k : List UInt8
  v : List UInt8

namespace Rfc6979

/-- ecdsa.rs 290-318. -/
def new (H : Hash256) (sk : SecKey) (msg : List UInt8) : Rfc6979 :=
  let h1 := H.hash msg
  let v := List.replicate 32 0x01
  let k := List.replicate 32 0x00
  let tail := to_bin sk.k ++ to_bin (modd (from_bin h1) Int256.N)
  let k := H.hmac k (v ++ [0x00] ++ tail)
  let v := H.hmac k v
  let k := H.hmac k (v ++ [0x01] ++ tail)
  let v := H.hmac k v
  ⟨k, v⟩

/-- ecdsa.rs 320-334. -/
def next (H : Hash256) (s : Rfc6979) : Int256 × Rfc6979 :=
  let t := H.hmac s.k s.v
  let k := H.hmac s.k (s.v ++ [0x00])
  let v := H.hmac k s.v
  (from_bin t, ⟨k, v⟩)

end Rfc6979

namespace SecKey

/-- ecdsa.rs 98-110, the loop; `none` when it is still running after `fuel` turns. -/
def signLoop (H : Hash256) (sk : SecKey) (m : Exponent) : Nat → Rfc6979 → Option Signature
  | 0, _ => none
  | fuel + 1, s =>
    ((Exponent.nonZeroFromInt (Rfc6979.next H s).1).bind fun k => sk.try_sign k m).or
      (signLoop H sk m fuel (Rfc6979.next H s).2)

/-- ecdsa.rs 91-111. -/
def sign_rfc6979 (H : Hash256) (fuel : Nat) (sk : SecKey) (msg : List UInt8) : Option Signature :=
  sk.signLoop H (Exponent.modn (from_bin (H.hash msg))) fuel (Rfc6979.new H sk msg)

end SecKey

namespace Signature

/-- ecdsa.rs 180-205. -/
def to_asn1_der (sign : Signature) : List UInt8 :=
  let r := to_minimal_encoding sign.r
  let s := to_minimal_encoding sign.s
  [0x30, UInt8.ofNat (r.length + s.length + 4)] ++ [0x02, UInt8.ofNat r.length] ++ r ++
    [0x02, UInt8.ofNat s.length] ++ s

/-- ecdsa.rs 208-219. -/
def from_bytes (bytes : List UInt8) : Option Signature :=
  match Exponent.nonZeroFromInt (from_bin (bytes.take 32)),
      Exponent.nonZeroFromInt (from_bin ((bytes.drop 32).take 32)) with
  | some r, some s => some ⟨r, s⟩
  | _, _ => none

/-- ecdsa.rs 221-228. -/
def to_bytes (sign : Signature) : List UInt8 := to_bin sign.r ++ to_bin sign.s

end Signature

namespace PubKey

/-- ecdsa.rs 233-236. -/
def from_coordinates (x y : List UInt8) : Option PubKey :=
  (Point.new_checked_vartime (from_bin x) (from_bin y)).map PubKey.mk

/-- ecdsa.rs 238-240. -/
def from_bytes_uncompressed (bytes : List UInt8) : Option PubKey :=
  (Point.from_bytes_uncompressed_vartime bytes).map PubKey.mk

/-- ecdsa.rs 243-245. -/
def to_bytes_uncompressed (pk : PubKey) : List UInt8 := Point.to_bytes_uncompressed pk.p

/-- ecdsa.rs 248-251. -/
def to_coordinates (pk : PubKey) : List UInt8 × List UInt8 := (to_bin pk.p.x, to_bin pk.p.y)

/-- ecdsa.rs 257-267. -/
def verify_hash_vartime (pk : PubKey) (hash : List UInt8) (sign : Signature) : Bool :=
  let m := Exponent.modn (from_bin hash)
  let v := Exponent.inv sign.s
  let u := Exponent.mul m v
  let v := Exponent.mul sign.r v
  let u := (Point.points_mul pk.p u v).x
  Exponent.modn u == sign.r

/-- ecdsa.rs 269-274. -/
def verify_vartime (H : Hash256) (pk : PubKey) (msg : List UInt8) (sign : Signature) : Bool :=
  pk.verify_hash_vartime (H.hash msg) sign

end PubKey

end Ecdsa

namespace Ecdh

/-- ecdh.rs 28-30. -/
structure SecKey where
  a : Exponent
deriving DecidableEq, Repr

/-- ecdh.rs 36-38. -/
structure PubKey where
  p : Point
deriving DecidableEq, Repr

/-- ecdh.rs 41-48. -/
def SecKey.gensk (draws : List (List UInt32)) : Option SecKey :=
  (Exponent.gen_uniform draws).map SecKey.mk

/-- ecdh.rs 50-54. -/
def SecKey.genpk (sk : SecKey) : PubKey := ⟨Point.base_point_mul sk.a⟩

/-- ecdh.rs 56-69. -/
def SecKey.exchange_raw (sk : SecKey) (other : PubKey) : Point := Point.mul other.p sk.a

/-- ecdh.rs 75-80. -/
def SecKey.exchange_x (sk : SecKey) (other : PubKey) : List UInt8 :=
  to_bin (sk.exchange_raw other).x

/-- ecdh.rs 83-91. -/
def SecKey.from_bytes (bytes : List UInt8) : Option SecKey :=
  (Exponent.nonZeroFromInt (from_bin bytes)).map SecKey.mk

/-- ecdh.rs 106-109. -/
def PubKey.from_coordinates (x y : List UInt8) : Option PubKey :=
  (Point.new_checked_vartime (from_bin x) (from_bin y)).map PubKey.mk

/-- ecdh.rs 112-115. -/
def PubKey.to_coordinates (pk : PubKey) : List UInt8 × List UInt8 := (to_bin pk.p.x, to_bin pk.p.y)

end Ecdh

end Verif.P256
