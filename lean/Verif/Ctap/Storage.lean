import Verif.Ctap.KeyStore

/-!
# Model of `libraries/opensk/src/ctap/storage.rs` and `storage/key.rs`

Simplified: entries hold decoded values, so that the errors for malformed entries cannot occur. `Verif/Disk` has the same functions
on the bytes of the entries, and shows that these do not occur there either (C76).
-/
namespace Verif.Ctap
variable [Dev]

/-! ## Keys (`storage/key.rs:59-147`) -/

def NUM_PERSISTENT_KEYS : Nat := 20
def CREDENTIALS_START : Nat := 1700

/-- `store.clear(min)`: entries with keys at least `min` are removed. The large-blob shards 2000..2004 are
one field, so `min` strictly inside that range is not represented; the code only uses
`min = NUM_PERSISTENT_KEYS`. -/
def Persist.clear (min : Nat) (p : Persist) : Persist where
  attestation := if min ≤ 1 then none else p.attestation
  creds := p.creds.filter fun e => e.1 < min
  largeBlob := if min ≤ 2000 then none else p.largeBlob
  alwaysUv := if min ≤ 2038 then false else p.alwaysUv
  enterprise := if min ≤ 2039 then false else p.enterprise
  forcePinChange := if min ≤ 2040 then false else p.forcePinChange
  minPinRpIds := if min ≤ 2042 then none else p.minPinRpIds
  minPinLength := if min ≤ 2043 then none else p.minPinLength
  pinRetries := if min ≤ 2044 then none else p.pinRetries
  pin := if min ≤ 2045 then none else p.pin
  master := if min ≤ 2046 then none else p.master
  counter := if min ≤ 2047 then none else p.counter

/-! ## Credentials -/

/-- `iter_credentials` (`storage.rs:216-221`, `IterCredentials` 526-593): all credentials, in any order, or an
error. -/
def iterCredentials : M (List (Nat × Cred)) := do
  let _ ← getMasterKeys
  let p ← readP
  effect fun s => .ok (s.env.o.shuffle s.env.k p.creds)

/-- `get_credential` (`storage.rs:58-73`). -/
def getCredential (key : Nat) : M Cred := do
  guardE (CREDENTIALS_START ≤ key && key < CREDENTIALS_START + Dev.maxResidentKeys) .internalError
  let p ← readP
  let c ← req (p.creds.lookup key) .internalError
  let _ ← getMasterKeys
  M.pure c

/-- `find_credential_item` (`storage.rs:80-96`). -/
def findCredentialItem (id : Bytes) : M (Nat × Cred) := do
  let l ← iterCredentials
  match l.filter fun e => e.2.id == id with
  | [] => fail .noCredentials
  | [e] => M.pure e
  | _ => fail .internalError

/-- The decision of `find_credential` (`storage.rs:107-115`) on the result of `find_credential_item`. -/
def findCredential (rpId id : Bytes) : M (Option Cred) := do
  let l ← iterCredentials
  match l.filter fun e => e.2.id == id with
  | [] => M.pure none
  | [e] => M.pure (if e.2.rpId = rpId then some e.2 else none)
  | _ => fail .internalError

/-- State of the loop in `store_credential` (`storage.rs:127-147`): keys seen and the key of the credential to
replace. -/
structure SlotScan where
  used : List Nat
  old : Option Nat

/-- One iteration of the loop (`storage.rs:134-147`). `none` is `CTAP2_ERR_VENDOR_INTERNAL_ERROR`. -/
def slotStep (new : Cred) (a : SlotScan) (e : Nat × Cred) : Option SlotScan :=
  if e.1 < CREDENTIALS_START ∨ CREDENTIALS_START + Dev.maxResidentKeys ≤ e.1 ∨ e.1 ∈ a.used then none
  else if e.2.rpId = new.rpId ∧ e.2.userHandle = new.userHandle then
    match a.old with
    | some _ => none
    | none => some { used := e.1 :: a.used, old := some e.1 }
  else some { used := e.1 :: a.used, old := a.old }

/-- The first free key (`storage.rs:154-157`). -/
def firstFree (used : List Nat) : Option Nat :=
  ((List.range Dev.maxResidentKeys).map (CREDENTIALS_START + ·)).find? fun k => !(used.contains k)

/-- The choice of the key (`storage.rs:121-160`). -/
def chooseSlot (new : Cred) (l : List (Nat × Cred)) : Except Status Nat :=
  match l.foldlM (slotStep new) { used := [], old := none } with
  | none => .error .internalError
  | some a =>
    match a.old with
    | some k => .ok k
    | none =>
      if a.used.length ≥ Dev.maxResidentKeys then .error .keyStoreFull
      else match firstFree a.used with
        | some k => .ok k
        | none => .error .internalError

/-- `store.insert(key, value)` for a credential. -/
def Persist.putCred (p : Persist) (key : Nat) (c : Cred) : Persist :=
  { p with creds := (key, c) :: p.creds.filter fun e => e.1 != key }

/-- `store.remove(key)` for a credential. -/
def Persist.delCred (p : Persist) (key : Nat) : Persist :=
  { p with creds := p.creds.filter fun e => e.1 != key }

/-- `store_credential` (`storage.rs:121-165`). The serialisation draws one IV (`rng 16`). -/
def storeCredential (new : Cred) : M Unit := do
  let l ← iterCredentials
  let key ← liftE (chooseSlot new l)
  let _ ← getMasterKeys
  let _ ← rng 16
  writeP fun p => p.putCred key new

/-- `delete_credential` (`storage.rs:172-175`). -/
def deleteCredential (id : Bytes) : M Unit := do
  let e ← findCredentialItem id
  writeP fun p => p.delCred e.1

/-- `update_credential` (`storage.rs:182-194`). -/
def updateCredential (id : Bytes) (name displayName icon : Option Bytes) : M Unit := do
  let e ← findCredentialItem id
  let c := { e.2 with userName := name, userDisplayName := displayName, userIcon := icon }
  let _ ← getMasterKeys
  let _ ← rng 16
  writeP fun p => p.putCred e.1 c

/-- `count_credentials` (`storage.rs:197-203`). -/
def countCredentials : M Nat := do
  let p ← readP
  M.pure p.creds.length

/-- `remaining_credentials` (`storage.rs:206-211`). -/
def remainingCredentials : M Nat := do
  let n ← countCredentials
  if n ≤ Dev.maxResidentKeys then M.pure (Dev.maxResidentKeys - n) else fail .internalError

/-- `new_creation_order` (`storage.rs:224-230`); `u64` with wrapping addition. -/
def newCreationOrder : M Nat := do
  let l ← iterCredentials
  M.pure (((l.map fun e => e.2.order).foldl max 0 + 1) % 2 ^ 64)

/-! ## Signature counter -/

/-- `global_signature_counter` (`storage.rs:233-239`). -/
def signatureCounter : M Nat := do
  let p ← readP
  M.pure (p.counter.getD 1)

/-- `incr_global_signature_counter` (`storage.rs:242-252`): `u32` with wrapping addition. An overflow is recorded
in the history. -/
def incrSignatureCounter (increment : Nat) : M Unit := do
  let old ← signatureCounter
  writeP (fun p => { p with counter := some ((old + increment) % 2 ^ 32) })
    (if old + increment < 2 ^ 32 then [] else [.wrapped])

/-! ## PIN -/

/-- `pin_hash` (`storage.rs:255-273`). -/
def pinHash : M (Option Bytes) := do
  let p ← readP
  M.pure (p.pin.map (·.1))

/-- `pin_code_point_length` (`storage.rs:277-279`). -/
def pinCodePointLength : M (Option Nat) := do
  let p ← readP
  M.pure (p.pin.map (·.2))

/-- `set_pin` (`storage.rs:284-301`): one transaction. -/
def setPin (hash : Bytes) (len : Nat) : M Unit :=
  writeP fun p => { p with pin := some (hash, len), forcePinChange := false }

/-- The value of `pin_retries` in given persistent data. -/
def Persist.retries (p : Persist) : Nat := p.pinRetries.getD Dev.maxPinRetries

/-- `pin_retries` (`storage.rs:304-310`). -/
def pinRetries : M Nat := do
  let p ← readP
  M.pure p.retries

/-- `decr_pin_retries` (`storage.rs:313-320`). -/
def decrPinRetries : M Unit := do
  let old ← pinRetries
  if old - 1 ≠ old then writeP fun p => { p with pinRetries := some (old - 1) }
  else M.pure ()

/-- `reset_pin_retries` (`storage.rs:323-325`). -/
def resetPinRetries : M Unit := writeP fun p => { p with pinRetries := none }

/-- `min_pin_length` (`storage.rs:328-334`) in given persistent data. -/
def Persist.minPin (p : Persist) : Nat := p.minPinLength.getD Dev.defaultMinPinLength

def minPinLength : M Nat := do
  let p ← readP
  M.pure p.minPin

/-- `set_min_pin_length` (`storage.rs:338-340`). -/
def setMinPinLength (n : Nat) : M Unit := writeP fun p => { p with minPinLength := some n }

/-- `min_pin_length_rp_ids` (`storage.rs:344-351`). -/
def minPinLengthRpIds : M (List Bytes) := do
  let p ← readP
  M.pure (p.minPinRpIds.getD Dev.defaultMinPinRpIds)

/-- `set_min_pin_length_rp_ids` (`storage.rs:355-372`). -/
def setMinPinLengthRpIds (ids : List Bytes) : M Unit := do
  let all := Dev.defaultMinPinRpIds.foldl (fun acc x => if acc.contains x then acc else acc ++ [x]) ids
  guardE (all.length ≤ Dev.maxRpIds) .keyStoreFull
  writeP fun p => { p with minPinRpIds := some all }

/-! ## Large blobs -/

/-- `EMPTY_LARGE_BLOB` (`storage.rs:391-394`). -/
def emptyLargeBlob : Bytes :=
  [0x80, 0x76, 0xBE, 0x8B, 0x52, 0x8D, 0x00, 0x75, 0xF7, 0xAA, 0xE9, 0x8D, 0x6F, 0xA5, 0x7A, 0x6D, 0x3C]

/-- `get_large_blob_array` (`storage.rs:383-401`); `fragment::read_range` of a stored array is its slice, cut at
the end (see C47). -/
def getLargeBlobArray (offset count : Nat) : M Bytes := do
  let p ← readP
  match p.largeBlob with
  | some b => M.pure ((b.drop offset).take count)
  | none =>
    let last := min emptyLargeBlob.length (offset + count)
    M.pure (if offset ≤ last then (emptyLargeBlob.take last).drop offset else [])

/-- `commit_large_blob_array` (`storage.rs:404-417`). -/
def commitLargeBlobArray (b : Bytes) : M Unit := do
  guardE (b.length ≤ Dev.maxLargeBlob) .internalError
  writeP fun p => { p with largeBlob := some b }

/-! ## Reset and configuration -/

/-- `reset` (`storage.rs:422-427`); `init` (`storage.rs:47-51`) does nothing for the helper key store. -/
def resetStorage : M Unit := do
  writeP (Persist.clear NUM_PERSISTENT_KEYS) [.erased]
  mapErr (fun _ => .internalError) (writeP fun p => { p with master := none })

/-- `has_force_pin_change` (`storage.rs:430-436`). -/
def hasForcePinChange : M Bool := do
  let p ← readP
  M.pure p.forcePinChange

/-- `force_pin_change` (`storage.rs:440-442`). -/
def forcePinChange : M Unit := writeP fun p => { p with forcePinChange := true }

/-- `enterprise_attestation` (`storage.rs:456-462`). -/
def enterpriseAttestation : M Bool := do
  let p ← readP
  M.pure p.enterprise

/-- `From<StoreError> for attestation_store::Error` and `From<attestation_store::Error> for Ctap2StatusCode`
(`api/attestation_store.rs:106-116`, `status_code.rs:106-115`), on the status of the error of the store. -/
def attestationError : Status → Status
  | .other => .hardwareFailure
  | _ => .internalError

/-- `attestation_store().get(id)` through `helper_get` (`api/attestation_store.rs:61-76`). Simplified: both ids
are served from the same entries. -/
def attestationGet : M (Option Attestation) := mapErr attestationError do
  let p ← readP
  M.pure p.attestation

/-- `enable_enterprise_attestation` (`storage.rs:466-478`). -/
def enableEnterpriseAttestation : M Unit := do
  let a ← attestationGet
  guardE a.isSome .internalError
  let b ← enterpriseAttestation
  if b then M.pure () else writeP fun p => { p with enterprise := true }

/-- `has_always_uv` (`storage.rs:481-490`). -/
def hasAlwaysUv : M Bool :=
  if Dev.enforceAlwaysUv then M.pure true
  else do
    let p ← readP
    M.pure p.alwaysUv

/-- `toggle_always_uv` (`storage.rs:494-503`). -/
def toggleAlwaysUv : M Unit := do
  guardE (!Dev.enforceAlwaysUv) .operationDenied
  let b ← hasAlwaysUv
  if b then writeP fun p => { p with alwaysUv := false }
  else writeP fun p => { p with alwaysUv := true }

end Verif.Ctap
