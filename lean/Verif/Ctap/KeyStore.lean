import Verif.Ctap.Base

/-!
# Model of `libraries/opensk/src/api/key_store.rs` and `libraries/opensk/src/api/private_key.rs`

Random number generation and store accesses are interactions in `M`; the rest is pure.
-/
namespace Verif.Ctap
open Verif.Cbor (Value)
open Verif.Crypto (WrapRes aesCbcEncrypt aesCbcDecrypt)
variable [Dev]

/-- `cbor_read` (`ctap/mod.rs:178-181`): nesting limit 4 (`mod.rs:96`). -/
def cborRead (bs : Bytes) : Except Status Value :=
  match Verif.Cbor.readNested Dev.wordBits bs (some 4) with
  | .ok v => .ok v
  | .error _ => .error .invalidCbor

/-- `cbor_write` (`ctap/mod.rs:183-186`) into an empty buffer. -/
def cborWrite (v : Value) : Except Status Bytes :=
  match v.write (some 4) with
  | .ok b => .ok b
  | .error _ => .error .internalError

/-- `cbor_map_options!` (`libraries/cbor/src/macros.rs`): the entries that are present, through `Value::map`;
`none` is its panic on duplicate keys. -/
def cborMapOptions (es : List (Value × Option Value)) : Option Value :=
  Verif.Cbor.mkMap (es.filterMap fun e => e.2.map fun v => (e.1, v))

/-- `cbor_int!` (`libraries/cbor/src/values.rs`, `Value::integer`). -/
def cborInt (i : Int) : Value := if 0 ≤ i then .unsigned i.toNat else .negative i

def cborBool (b : Bool) : Value := .simple (if b then .true_ else .false_)

/-- The result of the AES-CBC wrapper as a computation. -/
def liftWrap : WrapRes → M Bytes
  | .ok b => M.pure b
  | .invalidParameter => fail .invalidParameter
  | .panic => panicM

/-- The IV of `aes256_cbc_encrypt` (`ctap/crypto_wrapper.rs:29-37`): the random number generator is used only if
the length is right and the IV is embedded. -/
def drawIv (plaintext : Bytes) (embedsIv : Bool) : M Bytes :=
  if embedsIv && plaintext.length % 16 == 0 then rng 16 else M.pure []

/-- `aes256_cbc_encrypt(env.rng(), key, plaintext, embeds_iv)` (`ctap/crypto_wrapper.rs:23-44`). -/
def aesEncrypt (key plaintext : Bytes) (embedsIv : Bool) : M Bytes := do
  let iv ← drawIv plaintext embedsIv
  liftWrap (aesCbcEncrypt (Dev.aesEnc key) iv plaintext embedsIv)

/-- `aes256_cbc_decrypt` (`crypto_wrapper.rs:47-65`); its panic is unreachable (C36). -/
def aesDecrypt (key ciphertext : Bytes) (embedsIv : Bool) : Except Status Bytes :=
  match aesCbcDecrypt (Dev.aesDec key) ciphertext embedsIv with
  | .ok b => .ok b
  | _ => .error .invalidParameter

/-! ## CBOR extraction (`ctap/data_formats.rs:1156-1192`) -/

def extractUnsigned : Value → Except Status Nat
  | .unsigned n => .ok n
  | _ => .error .cborUnexpectedType

/-- `extract_integer`: unsigned values above `i64::MAX` are refused. -/
def extractInteger : Value → Except Status Int
  | .unsigned n => if n < 2 ^ 63 then .ok n else .error .cborUnexpectedType
  | .negative i => .ok i
  | _ => .error .cborUnexpectedType

def extractBytes : Value → Except Status Bytes
  | .bytes b => .ok b
  | _ => .error .cborUnexpectedType

def extractText : Value → Except Status Bytes
  | .text b => .ok b
  | _ => .error .cborUnexpectedType

def extractArray : Value → Except Status (List Value)
  | .array l => .ok l
  | _ => .error .cborUnexpectedType

def extractMap : Value → Except Status (List (Value × Value))
  | .map m => .ok m
  | _ => .error .cborUnexpectedType

def extractBool : Value → Except Status Bool
  | .simple .false_ => .ok false
  | .simple .true_ => .ok true
  | _ => .error .cborUnexpectedType

/-- `ok_or_missing`. -/
def okOrMissing : Option α → Except Status α
  | some a => .ok a
  | none => .error .missingParameter

/-- `o.map(f).transpose()?`. -/
def optE (f : α → Except Status β) : Option α → Except Status (Option β)
  | none => .ok none
  | some a => match f a with
    | .ok b => .ok (some b)
    | .error e => .error e

/-- `CredentialProtectionPolicy::try_from` (`data_formats.rs:567-578`). -/
def Policy.ofCbor (v : Value) : Except Status Policy :=
  match extractInteger v with
  | .error e => .error e
  | .ok 1 => .ok .optional
  | .ok 2 => .ok .optionalWithList
  | .ok 3 => .ok .required
  | .ok _ => .error .cborUnexpectedType

/-- `From<CredentialProtectionPolicy> for cbor::Value` (`data_formats.rs:561-565`). -/
def Policy.toCbor (p : Policy) : Value := .unsigned p.toNat

/-! ## Master keys -/

/-- `get_master_keys` (`key_store.rs:260-284`), the 128 bytes; every store error becomes `key_store::Error`, that
is `CTAP2_ERR_VENDOR_INTERNAL_ERROR` (`status_code.rs:100-104`). -/
def getMasterKeys : M Bytes := mapErr (fun _ => .internalError) do
  let p ← readP
  match p.master with
  | some x => do
    guardE (x.length == 128) .internalError
    M.pure x
  | none => do
    let x ← rng 128
    writeP fun p => { p with master := some x }
    M.pure x

/-- Fields of `MasterKeys` (`key_store.rs:272-283`). -/
def encKey (master : Bytes) : Bytes := master.take 32
def authKey (master : Bytes) : Bytes := (master.drop 32).take 32
def credRandomKey (master : Bytes) (hasUv : Bool) : Bytes := (master.drop (if hasUv then 96 else 64)).take 32

/-! ## Private keys -/

/-- `SignatureAlgorithm::Es256` (`data_formats.rs:31`, 510). -/
def es256 : Int := -7

/-- `PrivateKey::to_cbor` (`private_key.rs:139-150`). -/
def skToCbor (wrapKey sk : Bytes) : M Value := do
  let w ← aesEncrypt wrapKey sk true
  M.pure (.array [cborInt es256, .bytes w])

/-- `PrivateKey::from_cbor` (`private_key.rs:152-171`). An algorithm other than ES256 is an error in all cases. -/
def skFromCbor (wrapKey : Bytes) (v : Value) : Except Status Bytes := do
  let a ← extractArray v
  match a with
  | [alg, w] => do
    let wb ← extractBytes w
    let key ← aesDecrypt wrapKey wb true
    let i ← extractInteger alg
    if i = es256 then
      if key.length = 32 then .ok key else .error .invalidCbor
    else .error .invalidCbor
  | _ => .error .invalidCbor

/-! ## Wrapped credentials -/

/-- `CredentialSource` (`key_store.rs:47-54`). -/
structure CredSource where
  sk : Bytes
  rpIdHash : Bytes
  policy : Option Policy
  credBlob : Option Bytes
deriving DecidableEq, Repr

/-- `add_padding` (`key_store.rs:289-297`). -/
def addPadding (d : Bytes) : Option Bytes :=
  if d = [] ∨ d.length > 0xBF then none
  else
    let pad := 0xBF - (d.length - 1)
    some (d ++ List.replicate pad (UInt8.ofNat pad))

/-- `remove_padding` (`key_store.rs:299-316`). -/
def removePadding (d : Bytes) : Option Bytes :=
  if d.length ≠ 0xBF + 1 then none
  else
    let pad := d.getLastD 0
    if pad = 0 ∨ pad.toNat > 0xBF then none
    else if (d.drop (d.length - pad.toNat)).all (· == pad) then some (d.take (d.length - pad.toNat))
    else none

/-- The map of `wrap_credential` (`key_store.rs:154-159`). -/
def CredSource.toCbor (c : CredSource) (skCbor : Value) : Option Value :=
  cborMapOptions [(.unsigned 0, some skCbor), (.unsigned 1, some (.bytes c.rpIdHash)),
    (.unsigned 2, c.policy.map Policy.toCbor), (.unsigned 3, c.credBlob.map .bytes)]

/-- `wrap_credential` (`key_store.rs:147-177`); every error is `key_store::Error`. -/
def wrapCredential (c : CredSource) : M Bytes := mapErr (fun _ => .internalError) do
  let mk ← getMasterKeys
  let skCbor ← skToCbor (encKey mk) c.sk
  match c.toCbor skCbor with
  | none => panicM
  | some cbor => do
    let payload ← liftE (cborWrite cbor)
    let padded ← req (addPadding payload) .internalError
    let mk ← getMasterKeys
    let enc ← aesEncrypt (encKey mk) padded true
    let id := 0x01 :: enc
    M.pure (id ++ Dev.hmac (authKey mk) id)

/-- `decrypt_cbor_credential_id` (`key_store.rs:318-359`) without the second `wrap_key` access: `wk` is its
result. -/
def decryptCredId (ek wk bytes : Bytes) : Except Status (Option CredSource) := do
  let pt ← aesDecrypt ek bytes true
  match removePadding pt with
  | none => .error .internalError
  | some unpadded => do
    let v ← cborRead unpadded
    let m ← extractMap v
    match Verif.Cbor.destructure [.unsigned 0, .unsigned 1, .unsigned 2, .unsigned 3] m with
    | [some skv, some rpv, polv, blobv] => do
      let sk ← skFromCbor wk skv
      let rp ← extractBytes rpv
      if rp.length ≠ 32 then .error .internalError
      else do
        let pol ← optE Policy.ofCbor polv
        let blob ← optE extractBytes blobv
        .ok (some { sk := sk, rpIdHash := rp, policy := pol, credBlob := blob })
    | _ => .ok none

/-- `unwrap_credential` (`key_store.rs:190-228`). Simplified: the second access to the master key
(`key_store.rs:335`) returns the key read at 199 and cannot fail separately. -/
def unwrapCredential (bytes rpIdHash : Bytes) : M (Option CredSource) := mapErr (fun _ => .internalError) do
  if bytes.length < 241 then M.pure none
  else do
    let mk ← getMasterKeys
    let n := bytes.length - 32
    if Dev.hmac (authKey mk) (bytes.take n) ≠ bytes.drop n then M.pure none
    else if bytes.headD 0 ≠ 0x01 ∨ bytes.length ≠ 241 then M.pure none
    else do
      let c ← liftE (decryptCredId (encKey mk) (encKey mk) ((bytes.take n).drop 1))
      match c with
      | some c => if rpIdHash = c.rpIdHash then M.pure (some c) else M.pure none
      | none => M.pure none

/-- `cred_random` (`key_store.rs:230-232`). -/
def credRandom (hasUv : Bool) : M Bytes := do
  let mk ← getMasterKeys
  M.pure (credRandomKey mk hasUv)

/-- `PrivateKey::new(ES256)` (`private_key.rs:48-67`): `EcdsaSk::random`. The rejection sampling of
`random` is part of the random number generator here. -/
def newSk : M Bytes := rng 32

end Verif.Ctap
