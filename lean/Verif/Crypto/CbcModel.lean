/-!
# Model of `libraries/crypto/src/cbc.rs` and `libraries/opensk/src/ctap/crypto_wrapper.rs`

The AES-256 block functions are parameters `enc`/`dec`.
-/
namespace Verif.Crypto

abbrev Bytes := List UInt8

/-- `xor_block_16` (`libraries/crypto/src/util.rs:20-25`). -/
def xorBlock (a b : Bytes) : Bytes := List.zipWith (· ^^^ ·) a b

/-- `cbc_encrypt` (`libraries/crypto/src/cbc.rs:24-31`), returning the bytes written in place.
`none` is the panic of `block.try_into().unwrap()` on a last chunk shorter than 16 bytes. -/
def cbcEncrypt (enc : Bytes → Bytes) (iv data : Bytes) : Option Bytes :=
  if data = [] then some []
  else if data.length < 16 then none
  else
    let block := enc (xorBlock (data.take 16) iv)
    (cbcEncrypt enc block (data.drop 16)).map (block ++ ·)
termination_by data.length
decreasing_by simp_all [List.length_drop]; omega

/-- `cbc_decrypt` (`libraries/crypto/src/cbc.rs:38-46`). -/
def cbcDecrypt (dec : Bytes → Bytes) (iv data : Bytes) : Option Bytes :=
  if data = [] then some []
  else if data.length < 16 then none
  else
    let block := xorBlock (dec (data.take 16)) iv
    (cbcDecrypt dec (data.take 16) (data.drop 16)).map (block ++ ·)
termination_by data.length
decreasing_by simp_all [List.length_drop]; omega

/-- Result of the wrapper functions. `invalidParameter` is `CTAP1_ERR_INVALID_PARAMETER`. -/
inductive WrapRes
  | ok (b : Bytes)
  | invalidParameter
  | panic
deriving DecidableEq, Repr

def WrapRes.ofOption : Option Bytes → WrapRes
  | some b => .ok b
  | none => .panic

def WrapRes.map (f : Bytes → Bytes) : WrapRes → WrapRes
  | .ok b => .ok (f b)
  | .invalidParameter => .invalidParameter
  | .panic => .panic

/-- `aes256_cbc_encrypt` (`libraries/opensk/src/ctap/crypto_wrapper.rs:23-44`). The IV drawn from the random
number generator when `embeds_iv` is the argument `rngIv` (16 bytes). -/
def aesCbcEncrypt (enc : Bytes → Bytes) (rngIv plaintext : Bytes) (embedsIv : Bool) : WrapRes :=
  if plaintext.length % 16 ≠ 0 then .invalidParameter
  else if embedsIv then (WrapRes.ofOption (cbcEncrypt enc rngIv plaintext)).map (rngIv ++ ·)
  else WrapRes.ofOption (cbcEncrypt enc (List.replicate 16 0) plaintext)

/-- `aes256_cbc_decrypt` (`crypto_wrapper.rs:47-65`). -/
def aesCbcDecrypt (dec : Bytes → Bytes) (ciphertext : Bytes) (embedsIv : Bool) : WrapRes :=
  if ciphertext.length % 16 ≠ 0 ∨ (embedsIv = true ∧ ciphertext = []) then .invalidParameter
  else if embedsIv then WrapRes.ofOption (cbcDecrypt dec (ciphertext.take 16) (ciphertext.drop 16))
  else WrapRes.ofOption (cbcDecrypt dec (List.replicate 16 0) ciphertext)

end Verif.Crypto
