import Verif.Ctap.Step

/-!
# The vendor commands of the Tock environment (`src/env/tock/commands.rs`)
-/
namespace Verif.Ctap
open Verif.Cbor (Value)
variable [Dev]

/-- What the vendor commands depend on besides the library: the features `vendor_hid` and `with_ctap1`, the result of
`lock_firmware_protection`, and the upgrade storage if there is one: whether `write_bundle` succeeds
(`src/env/tock/upgrade_helper.rs`, modelled separately for C51) and its `bundle_identifier`. Simplified: the effect of
`write_bundle` is not part of the state here. -/
structure Tock where
  vendorHid : Bool
  withCtap1 : Bool
  lock : Bool
  upgrade : Option ((Nat → Bytes → Bool) × Nat)

/-- `AttestationMaterial::try_from` (`commands.rs:189-209`). -/
def Attestation.ofCbor (v : Value) : Except Status Attestation := do
  let f ← fields [.unsigned 1, .unsigned 2] v
  let cert ← okOrMissing (f 0)
  let cert ← extractBytes cert
  let sk ← okOrMissing (f 1)
  let sk ← extractBytes sk
  if sk.length ≠ 32 then .error .invalidParameter else .ok { sk := sk, certificate := cert }

/-- `VendorConfigureParameters` (`commands.rs:212-216`). -/
structure VendorConfigure where
  lockdown : Bool
  material : Option Attestation
deriving DecidableEq, Repr

/-- `VendorConfigureParameters::try_from` (`commands.rs:218-237`). -/
def VendorConfigure.ofCbor (v : Value) : Except Status VendorConfigure := do
  let f ← fields [.unsigned 1, .unsigned 2] v
  let lockdown ← optE extractBool (f 0)
  let material ← optE Attestation.ofCbor (f 1)
  .ok { lockdown := lockdown.getD false, material := material }

/-- `VendorUpgradeParameters` (`commands.rs:239-244`). -/
structure VendorUpgrade where
  offset : Nat
  data : Bytes
  hash : Bytes
deriving DecidableEq, Repr

/-- `VendorUpgradeParameters::try_from` (`commands.rs:246-263`). -/
def VendorUpgrade.ofCbor (v : Value) : Except Status VendorUpgrade := do
  let f ← fields [.unsigned 1, .unsigned 2, .unsigned 3] v
  let offset ← okOrMissing (f 0)
  let offset ← extractUnsigned offset
  let data ← okOrMissing (f 1)
  let data ← extractBytes data
  let hash ← okOrMissing (f 2)
  let hash ← extractBytes hash
  if hash.length ≠ 32 then .error .invalidParameter
  else .ok { offset := offset % 2 ^ Dev.wordBits, data := data, hash := hash }

/-- `helper_set` (`api/attestation_store.rs:78-101`) for an attestation. -/
def attestationSet (a : Attestation) : M Unit :=
  mapErr attestationError (writeP fun p => { p with attestation := some a })

/-- Storing the attestation (`commands.rs:109-128`): whether it is programmed afterwards. -/
def vendorProgram (current : Option Attestation) : Option Attestation → M Bool
  | none => M.pure current.isSome
  | some a => do
    whenM current.isNone (attestationSet a)
    M.pure true

/-- `process_vendor_configure` (`commands.rs:91-148`); the two fields of the response are equal. -/
def vendorConfigure (t : Tock) (p : VendorConfigure) : M Bool := do
  whenM (p.material.isSome || p.lockdown) checkPresenceE
  let current ← attestationGet
  let programmed ← vendorProgram current p.material
  guardE (!p.lockdown || (!(t.withCtap1 || Dev.useBatchAttestation) || programmed) && t.lock) .internalError
  M.pure programmed

/-- `process_vendor_upgrade` (`commands.rs:150-167`). -/
def vendorUpgrade (t : Tock) (p : VendorUpgrade) : Except Status Unit :=
  if p.hash ≠ Dev.sha256 p.data then .error .integrityFailure
  else match t.upgrade with
    | none => .error .invalidCommand
    | some (write, _) => if write p.offset p.data then .ok () else .error .invalidParameter

/-- `encode_cbor` (`commands.rs:82-89`). -/
def vendorEncode (v : Option Value) : M Bytes :=
  match v with
  | none => panicM
  | some v =>
    match cborWrite v with
    | .ok b => M.pure (Status.ok.toByte :: b)
    | .error _ => M.pure [Status.internalError.toByte]

/-- `process_cbor` (`commands.rs:57-80`). `bytes[0]` panics for the empty message. -/
def tockCbor (t : Tock) : Bytes → M (Option Bytes)
  | [] => panicM
  | c :: rest =>
    if c = 0x40 then do
      let v ← liftE (cborRead rest)
      let p ← liftE (VendorConfigure.ofCbor v)
      let r ← vendorConfigure t p
      let b ← vendorEncode (cborMapOptions [(.unsigned 1, some (cborBool r)), (.unsigned 2, some (cborBool r))])
      M.pure (some b)
    else if c = 0x42 then do
      let v ← liftE (cborRead rest)
      let p ← liftE (VendorUpgrade.ofCbor v)
      liftE (vendorUpgrade t p)
      M.pure (some [Status.ok.toByte])
    else if c = 0x43 then do
      let u ← req t.upgrade .invalidCommand
      let b ← vendorEncode (cborMapOptions [(.unsigned 1, some (.unsigned u.2))])
      M.pure (some b)
    else M.pure none

/-- An error becomes its status byte (`commands.rs:54`). -/
def errorSome (m : M (Option Bytes)) : M (Option Bytes) := fun s =>
  match m s with
  | (.err e, s') => (.ok (some [e.toByte]), s')
  | r => r

/-- `process_vendor_command` (`commands.rs:42-55`). -/
def tockHook (t : Tock) (ch : Channel) (msg : Bytes) : M (Option Bytes) :=
  match t.vendorHid, ch with
  | true, .main _ => M.pure none
  | _, _ => errorSome (tockCbor t msg)

/-- `process_command` (`ctap/mod.rs:585-612`) with the hook. -/
def tockCommand (t : Tock) (ch : Channel) (msg : Bytes) : M Bytes := do
  let r ← tockHook t ch msg
  match r with
  | some b => do
    clearOtherChannels ch
    modSp fun _ => .cleared
    M.pure b
  | none => processCommand ch msg

end Verif.Ctap
