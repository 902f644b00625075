import Verif.Ctap.DataFormats
import Verif.Ctap.Vendor
import Verif.Store.Fragment

/-!
# The storage functions on the entries of the store

`libraries/opensk/src/ctap/storage.rs` again, with the parts of `api/key_store.rs` and `api/attestation_store.rs` that access
the store: this time on the store of `Verif/Store/Model.lean`, with the bytes of each entry. `Verif/Ctap/Storage.lean` has the
same functions on decoded data.
-/
namespace Verif.Disk
open Verif.Cbor (Value)
open Verif.Ctap (Dev Cred Status Res Policy Attestation)
open Verif.Store (Format)

abbrev Bytes := List UInt8

/-! ## The encoding of the entries -/

/-- `PublicKeyCredentialSource::to_cbor` (`data_formats.rs:636-654`), with the tags of `PublicKeyCredentialSourceField`
(`data_formats.rs:603-621`). `sk` is the encoding of the private key. -/
def credToCbor (c : Cred) (sk : Value) : Option Value :=
  Ctap.cborMapOptions [(.unsigned 0, some (.bytes c.id)), (.unsigned 2, some (.text c.rpId)), (.unsigned 3, some (.bytes c.userHandle)),
    (.unsigned 4, c.userDisplayName.map .text), (.unsigned 6, c.policy.map Policy.toCbor), (.unsigned 7, some (.unsigned c.order)),
    (.unsigned 8, c.userName.map .text), (.unsigned 9, c.userIcon.map .text), (.unsigned 10, c.credBlob.map .bytes),
    (.unsigned 11, c.largeBlobKey.map .bytes), (.unsigned 12, some sk)]

/-- `u32::to_ne_bytes` (`storage.rs:250`) on a little-endian target. -/
def u32Bytes (n : Nat) : Bytes := [UInt8.ofNat n, UInt8.ofNat (n / 2 ^ 8), UInt8.ofNat (n / 2 ^ 16), UInt8.ofNat (n / 2 ^ 24)]

/-- `u32::from_ne_bytes` (`storage.rs:236`) on a little-endian target, for four bytes. -/
def u32Of : Bytes → Option Nat
  | [a, b, c, d] => some (a.toNat + b.toNat * 2 ^ 8 + c.toNat * 2 ^ 16 + d.toNat * 2 ^ 24)
  | _ => none

/-- The value of `set_pin` (`storage.rs:288-290`). -/
def pinBytes (hash : Bytes) (len : Nat) : Bytes := UInt8.ofNat len :: hash

section
variable [Dev]

/-- `PublicKeyCredentialSource::from_cbor` (`data_formats.rs:656-714`). -/
def credFromCbor (wrapKey : Bytes) (v : Value) : Except Status Cred := do
  let f ← Ctap.fields [.unsigned 0, .unsigned 2, .unsigned 3, .unsigned 4, .unsigned 6, .unsigned 7, .unsigned 8, .unsigned 9,
    .unsigned 10, .unsigned 11, .unsigned 12] v
  let id ← Ctap.okOrMissing (f 0) >>= Ctap.extractBytes
  let rpId ← Ctap.okOrMissing (f 1) >>= Ctap.extractText
  let userHandle ← Ctap.okOrMissing (f 2) >>= Ctap.extractBytes
  let userDisplayName ← Ctap.optE Ctap.extractText (f 3)
  let policy ← Ctap.optE Policy.ofCbor (f 4)
  let order ← Ctap.orDefault 0 Ctap.extractUnsigned (f 5)
  let userName ← Ctap.optE Ctap.extractText (f 6)
  let userIcon ← Ctap.optE Ctap.extractText (f 7)
  let credBlob ← Ctap.optE Ctap.extractBytes (f 8)
  let largeBlobKey ← Ctap.optE Ctap.extractBytes (f 9)
  let sk ← Ctap.okOrMissing (f 10) >>= Ctap.skFromCbor wrapKey
  .ok { id := id, sk := sk, rpId := rpId, userHandle := userHandle, userDisplayName := userDisplayName, policy := policy,
        order := order, userName := userName, userIcon := userIcon, credBlob := credBlob, largeBlobKey := largeBlobKey }

/-- `deserialize_credential` (`storage.rs:596-602`). -/
def deserializeCredential (wrapKey data : Bytes) : Option Cred :=
  match Ctap.cborRead data with
  | .error _ => none
  | .ok v => (credFromCbor wrapKey v).toOption

/-- `deserialize_min_pin_length_rp_ids` (`storage.rs:616-624`). -/
def deserializeRpIds (data : Bytes) : Option (List Bytes) :=
  match Ctap.cborRead data with
  | .error _ => none
  | .ok v => (Ctap.arrayOf Ctap.extractText v).toOption

/-- `serialize_min_pin_length_rp_ids` (`storage.rs:628-632`). -/
def serializeRpIds (ids : List Bytes) : Except Status Bytes := Ctap.cborWrite (.array (ids.map .text))

end

/-! ## Computations -/

/-- The store, and the random number generator: what it gives in each draw, and the number of draws so far. -/
structure St where
  st : Store.St
  rnd : Nat → Nat → UInt8
  n : Nat

/-- Computations with the store. -/
def M (α : Type) : Type := St → Res α × St

def M.pure (a : α) : M α := fun x => (.ok a, x)

def M.bind (m : M α) (f : α → M β) : M β := fun x =>
  match m x with
  | (.ok a, x') => f a x'
  | (.err e, x') => (.err e, x')
  | (.panic, x') => (.panic, x')
  | (.crash, x') => (.crash, x')

instance : Monad M where
  pure := M.pure
  bind := M.bind

def fail (e : Status) : M α := fun x => (.err e, x)

def panicM : M α := fun x => (.panic, x)

def guardE (c : Bool) (e : Status) : M Unit := if c then M.pure () else fail e

def req (o : Option α) (e : Status) : M α :=
  match o with
  | some a => M.pure a
  | none => fail e

def liftE (r : Except Status α) : M α :=
  match r with
  | .ok a => M.pure a
  | .error e => fail e

/-- `m.map_err(f)?`. -/
def mapErr (f : Status → Status) (m : M α) : M α := fun x =>
  match m x with
  | (.err e, x') => (.err (f e), x')
  | r => r

/-- `From<StoreError> for Ctap2StatusCode` (`storage.rs:505-523`); `none` is a panic inside the store. -/
def statusOf : Store.Err → Option Status
  | .noCapacity => some .keyStoreFull
  | .noLifetime => some .keyStoreFull
  | .invalidArgument => some .internalError
  | .invalidStorage => some .hardwareFailure
  | .panic => none

/-- A call of the store. -/
def onStore (m : Store.M α) : M α := fun x =>
  match m x.st with
  | (.ok a, s) => (.ok a, { x with st := s })
  | (.err e, s) =>
    match statusOf e with
    | some c => (.err c, { x with st := s })
    | none => (.panic, { x with st := s })
  | (.crash, s) => (.crash, { x with st := s })

/-- `rng().fill_bytes` on `n` bytes. -/
def draw (n : Nat) : M Bytes := fun x => (.ok ((List.range n).map (x.rnd x.n)), { x with n := x.n + 1 })

variable (F : Format)

def find (key : Nat) : M (Option Bytes) := onStore (Store.find F key)
def insert (key : Nat) (value : Bytes) : M Unit := onStore (Store.insert F key value)
def remove (key : Nat) : M Unit := onStore (Store.remove F key)

variable [Dev]

/-! ## The key store -/

/-- `get_master_keys` (`key_store.rs:260-284`); every error is `key_store::Error`, that is `CTAP2_ERR_VENDOR_INTERNAL_ERROR`. -/
def getMasterKeys : M Bytes := mapErr (fun _ => .internalError) do
  let o ← find F 2046
  match o with
  | some x => do
    guardE (x.length == 128) .internalError
    M.pure x
  | none => do
    let x ← draw 128
    insert F 2046 x
    M.pure x

/-- `reset` of the key store (`key_store.rs:242-245`). -/
def keyStoreReset : M Unit := mapErr (fun _ => .internalError) (remove F 2046)

/-! ## Credentials -/

/-- `key::CREDENTIALS.contains` (`storage/key.rs:87`). -/
def isCredential (key : Nat) : Bool := 1700 ≤ key && key < 2000

/-- `IterCredentials::next` (`storage.rs:576-593`) until the end: an error ends the iteration, and is reported. -/
def decodeHandles (mk : Bytes) : List Store.Handle → M (List (Nat × Cred))
  | [] => M.pure []
  | h :: hs =>
    if isCredential h.key then do
      let v ← mapErr (fun _ => .internalError) (onStore (Store.getValue F h))
      let c ← req (deserializeCredential (Ctap.encKey mk) v) .internalError
      let l ← decodeHandles mk hs
      M.pure ((h.key, c) :: l)
    else decodeHandles mk hs

/-- `iter_credentials` (`storage.rs:216-221`, `IterCredentials::new` 545-558), collected. -/
def iterCredentials : M (List (Nat × Cred)) := do
  let mk ← getMasterKeys F
  let hs ← onStore (Store.iter F)
  decodeHandles F mk hs

/-- `serialize_credential` (`storage.rs:605-613`), with `PrivateKey::to_cbor` (`private_key.rs:139-150`). The length of a private key
is 32, and an initialisation vector is drawn. -/
def serializeCredential (mk : Bytes) (c : Cred) : M Bytes := do
  let iv ← draw 16
  match Crypto.aesCbcEncrypt (Dev.aesEnc (Ctap.encKey mk)) iv c.sk true with
  | .ok w =>
    match credToCbor c (.array [Ctap.cborInt Ctap.es256, .bytes w]) with
    | some v => liftE (Ctap.cborWrite v)
    | none => panicM
  | .invalidParameter => fail .invalidParameter
  | .panic => panicM

/-- `get_credential` (`storage.rs:58-73`). -/
def getCredential (key : Nat) : M Cred := do
  guardE (1700 ≤ key && key < 1700 + Dev.maxResidentKeys) .internalError
  let o ← find F key
  let v ← req o .internalError
  let mk ← getMasterKeys F
  req (deserializeCredential (Ctap.encKey mk) v) .internalError

/-- `find_credential_item` (`storage.rs:80-96`). -/
def findCredentialItem (id : Bytes) : M (Nat × Cred) := do
  let l ← iterCredentials F
  match l.filter fun e => e.2.id == id with
  | [] => fail .noCredentials
  | [e] => M.pure e
  | _ => fail .internalError

/-- `find_credential` (`storage.rs:102-116`). -/
def findCredential (rpId id : Bytes) : M (Option Cred) := fun x =>
  match findCredentialItem F id x with
  | (.err .noCredentials, x') => (.ok none, x')
  | (.ok e, x') => (.ok (if e.2.rpId = rpId then some e.2 else none), x')
  | (.err e, x') => (.err e, x')
  | (.panic, x') => (.panic, x')
  | (.crash, x') => (.crash, x')

/-- `store_credential` (`storage.rs:121-165`); the choice of the key is `Ctap.chooseSlot`. -/
def storeCredential (new : Cred) : M Unit := do
  let l ← iterCredentials F
  let key ← liftE (Ctap.chooseSlot new l)
  let mk ← getMasterKeys F
  let v ← serializeCredential mk new
  insert F key v

/-- `delete_credential` (`storage.rs:172-175`). -/
def deleteCredential (id : Bytes) : M Unit := do
  let e ← findCredentialItem F id
  remove F e.1

/-- `update_credential` (`storage.rs:182-194`). -/
def updateCredential (id : Bytes) (name displayName icon : Option Bytes) : M Unit := do
  let e ← findCredentialItem F id
  let mk ← getMasterKeys F
  let v ← serializeCredential mk { e.2 with userName := name, userDisplayName := displayName, userIcon := icon }
  insert F e.1 v

/-- `count_credentials` (`storage.rs:197-203`). -/
def countCredentials : M Nat := do
  let hs ← onStore (Store.iter F)
  M.pure (hs.countP fun h => isCredential h.key)

/-- `remaining_credentials` (`storage.rs:206-211`). -/
def remainingCredentials : M Nat := do
  let n ← countCredentials F
  if n ≤ Dev.maxResidentKeys then M.pure (Dev.maxResidentKeys - n) else fail .internalError

/-- `new_creation_order` (`storage.rs:224-230`). -/
def newCreationOrder : M Nat := do
  let l ← iterCredentials F
  M.pure (((l.map fun e => e.2.order).foldl max 0 + 1) % 2 ^ 64)

/-! ## Signature counter -/

/-- `global_signature_counter` (`storage.rs:233-239`). -/
def signatureCounter : M Nat := do
  let o ← find F 2047
  match o with
  | none => M.pure 1
  | some v => req (u32Of v) .internalError

/-- `incr_global_signature_counter` (`storage.rs:242-252`). -/
def incrSignatureCounter (increment : Nat) : M Unit := do
  let old ← signatureCounter F
  insert F 2047 (u32Bytes ((old + increment) % 2 ^ 32))

/-! ## PIN -/

/-- `pin_properties` (`storage.rs:255-268`). -/
def pinProperties : M (Option (Bytes × Nat)) := do
  let o ← find F 2045
  match o with
  | none => M.pure none
  | some v => if v.length = 17 then M.pure (some (v.drop 1, (v.headD 0).toNat)) else fail .internalError

/-- `pin_hash` (`storage.rs:271-273`). -/
def pinHash : M (Option Bytes) := do
  let o ← pinProperties F
  M.pure (o.map (·.1))

/-- `pin_code_point_length` (`storage.rs:277-279`). -/
def pinCodePointLength : M (Option Nat) := do
  let o ← pinProperties F
  M.pure (o.map (·.2))

/-- `set_pin` (`storage.rs:284-301`). -/
def setPin (hash : Bytes) (len : Nat) : M Unit :=
  onStore (Store.transaction F [.insert 2045 (pinBytes hash len), .remove 2040])

/-- An entry of one byte, with a default (`storage.rs:304-310`, 328-334). -/
def byteEntry (key default : Nat) : M Nat := do
  let o ← find F key
  match o with
  | none => M.pure default
  | some [b] => M.pure b.toNat
  | some _ => fail .internalError

/-- `pin_retries` (`storage.rs:304-310`). -/
def pinRetries : M Nat := byteEntry F 2044 Dev.maxPinRetries

/-- `decr_pin_retries` (`storage.rs:313-320`). -/
def decrPinRetries : M Unit := do
  let old ← pinRetries F
  if old - 1 ≠ old then insert F 2044 [UInt8.ofNat (old - 1)] else M.pure ()

/-- `reset_pin_retries` (`storage.rs:323-325`). -/
def resetPinRetries : M Unit := remove F 2044

/-- `min_pin_length` (`storage.rs:328-334`). -/
def minPinLength : M Nat := byteEntry F 2043 Dev.defaultMinPinLength

/-- `set_min_pin_length` (`storage.rs:338-340`). -/
def setMinPinLength (n : Nat) : M Unit := insert F 2043 [UInt8.ofNat n]

/-- `min_pin_length_rp_ids` (`storage.rs:344-351`); the assertion of debug builds panics. -/
def minPinLengthRpIds : M (List Bytes) := do
  let o ← find F 2042
  match o with
  | none => M.pure Dev.defaultMinPinRpIds
  | some v =>
    match deserializeRpIds v with
    | some l => M.pure l
    | none => panicM

/-- `set_min_pin_length_rp_ids` (`storage.rs:355-372`). -/
def setMinPinLengthRpIds (ids : List Bytes) : M Unit := do
  let all := Dev.defaultMinPinRpIds.foldl (fun acc x => if acc.contains x then acc else acc ++ [x]) ids
  guardE (all.length ≤ Dev.maxRpIds) .keyStoreFull
  let v ← liftE (serializeRpIds all)
  insert F 2042 v

/-! ## Large blobs -/

/-- `LARGE_BLOB_SHARDS` (`storage/key.rs:92`). -/
def shards : Store.Keys := Store.Keys.range 2000 2004

/-- `get_large_blob_array` (`storage.rs:383-401`). -/
def getLargeBlobArray (offset count : Nat) : M Bytes := do
  let o ← onStore (Store.fragReadRange F shards offset (offset + count))
  match o with
  | some b => M.pure b
  | none =>
    let last := min Ctap.emptyLargeBlob.length (offset + count)
    M.pure (if offset ≤ last then (Ctap.emptyLargeBlob.take last).drop offset else [])

/-- `commit_large_blob_array` (`storage.rs:404-417`). -/
def commitLargeBlobArray (b : Bytes) : M Unit := do
  guardE (b.length ≤ Dev.maxLargeBlob) .internalError
  onStore (Store.fragWrite F shards b)

/-! ## Reset and configuration -/

/-- `reset` (`storage.rs:422-427`); `init` (`storage.rs:47-51`, `key_store.rs:135-137`) does nothing. -/
def resetStorage : M Unit := do
  onStore (Store.clear F 20)
  keyStoreReset F

/-- An entry that is empty if it exists (`storage.rs:430-436`, 456-462, 485-489). -/
def flagEntry (key : Nat) : M Bool := do
  let o ← find F key
  match o with
  | none => M.pure false
  | some [] => M.pure true
  | some _ => fail .internalError

/-- `has_force_pin_change` (`storage.rs:430-436`). -/
def hasForcePinChange : M Bool := flagEntry F 2040

/-- `force_pin_change` (`storage.rs:440-442`). -/
def forcePinChange : M Unit := insert F 2040 []

/-- `enterprise_attestation` (`storage.rs:456-462`). -/
def enterpriseAttestation : M Bool := flagEntry F 2039

/-- `helper_get` (`attestation_store.rs:61-76`). -/
def attestationGet : M (Option Attestation) := mapErr Ctap.attestationError do
  let sk ← find F 1
  let cert ← find F 2
  match sk, cert with
  | some sk, some cert => if sk.length = 32 then M.pure (some { sk := sk, certificate := cert }) else fail .internalError
  | none, none => M.pure none
  | _, _ => fail .internalError

/-- `helper_set` (`attestation_store.rs:78-101`) for an attestation. -/
def attestationSet (a : Attestation) : M Unit :=
  mapErr Ctap.attestationError (onStore (Store.transaction F [.insert 1 a.sk, .insert 2 a.certificate]))

/-- `enable_enterprise_attestation` (`storage.rs:466-478`). -/
def enableEnterpriseAttestation : M Unit := do
  let a ← attestationGet F
  guardE a.isSome .internalError
  let b ← enterpriseAttestation F
  if b then M.pure () else insert F 2039 []

/-- `has_always_uv` (`storage.rs:481-490`). -/
def hasAlwaysUv : M Bool := if Dev.enforceAlwaysUv then M.pure true else flagEntry F 2038

/-- `toggle_always_uv` (`storage.rs:494-503`). -/
def toggleAlwaysUv : M Unit := do
  guardE (!Dev.enforceAlwaysUv) .operationDenied
  let b ← hasAlwaysUv F
  if b then remove F 2038 else insert F 2038 []

end Verif.Disk
