import Verif.Ctap.Core

/-!
# Model of `libraries/opensk/src/ctap/config_command.rs` and `large_blobs.rs`
-/
namespace Verif.Ctap
open Verif.Cbor (beBytes)
variable [Dev]

/-! ## `config_command.rs` -/

/-- `process_enable_enterprise_attestation` (`config_command.rs:26-35`). -/
def configEnableEp : M Unit :=
  match Dev.epMode with
  | some _ => enableEnterpriseAttestation
  | none => fail .invalidParameter

/-- `force_change_pin && storage::pin_hash(env)?.is_none()` (`config_command.rs:58-61`). -/
def configCheckForce (force : Bool) : M Unit :=
  whenM force do
    let h ← pinHash
    guardE h.isSome .pinNotSet

/-- `process_set_min_pin_length` (`config_command.rs:44-73`). -/
def configSetMinPin (a : MinPinParams) : M Unit := do
  let stored ← minPinLength
  let new := a.newLength.getD stored
  guardE (decide (stored ≤ new)) .pinPolicyViolation
  configCheckForce (a.forceChange.getD false)
  let old ← pinCodePointLength
  whenM (a.forceChange.getD false || old.any fun n => decide (n < new)) forcePinChange
  setMinPinLength new
  match a.rpIds with
  | none => M.pure ()
  | some ids => setMinPinLengthRpIds ids

/-- `enforce_uv` (`config_command.rs:88-89`). -/
def configEnforceUv (sub : ConfigSub) : M Bool :=
  if sub = .toggleAlwaysUv then M.pure false else hasAlwaysUv

/-- The authenticated message (`config_command.rs:95-100`). -/
def configAuthData (a : ConfigParams) : M Bytes :=
  match a.params with
  | none => M.pure (List.replicate 32 0xFF ++ [0x0D, a.sub.toByte])
  | some sp => do
    let b ← cborWriteM sp.toCbor
    M.pure (List.replicate 32 0xFF ++ [0x0D, a.sub.toByte] ++ b)

/-- Authorisation (`config_command.rs:91-107`). -/
def configAuth (a : ConfigParams) : M Unit := do
  let param ← req a.authParam .puatRequired
  let pr ← req a.authProto .missingParameter
  let data ← configAuthData a
  verifyToken data param pr
  hasPermission 0x20

/-- The match on the subcommand (`config_command.rs:109-120`). -/
def configDispatch (a : ConfigParams) : M Unit :=
  match a.sub with
  | .enableEp => configEnableEp
  | .toggleAlwaysUv => toggleAlwaysUv
  | .setMinPinLength => do
    let sp ← req a.params .missingParameter
    configSetMinPin sp
  | .vendorPrototype => fail .invalidParameter

/-- `process_config` (`config_command.rs:76-121`). -/
def configCommand (a : ConfigParams) : M Response := do
  let enforce ← configEnforceUv a.sub
  let h ← pinHash
  whenM (h.isSome || enforce) (configAuth a)
  configDispatch a
  M.pure .config

/-! ## `large_blobs.rs` -/

def modLb (f : LargeBlobs → LargeBlobs) : M Unit := modV fun v => { v with lb := f v.lb }

/-- `max_fragment_size` (`large_blobs.rs:62`). -/
def maxFragment : Nat := Dev.maxMsgSize - 64

/-- `large_blobs.rs:64-73`. -/
def lbGet (a : LbParams) (n : Nat) : M Response := do
  guardE (decide (n ≤ maxFragment) && decide (a.offset + n < 2 ^ Dev.wordBits)) .invalidLength
  let b ← getLargeBlobArray a.offset n
  M.pure (.largeBlobs (some b))

/-- Start of an upload (`large_blobs.rs:79-86`). -/
def lbStart (a : LbParams) : M Unit :=
  whenM (a.offset == 0) do
    let n ← req a.length .invalidParameter
    modLb fun l => { l with expectedLength := n }
    guardE (decide (n ≤ Dev.maxLargeBlob)) .largeBlobStorageFull
    modLb fun l => { l with expectedNextOffset := 0 }

/-- `storage::pin_hash(env)?.is_some() || storage::has_always_uv(env)?` (`large_blobs.rs:90`). -/
def lbNeedsAuth : M Bool := do
  let h ← pinHash
  if h.isSome then M.pure true else hasAlwaysUv

/-- The authenticated message (`large_blobs.rs:95-100`). `LittleEndian::write_u32(offset as u32)`. -/
def lbAuthData (offset : Nat) (set : Bytes) : Bytes :=
  List.replicate 32 0xFF ++ [0x0C, 0x00] ++ (beBytes 4 (offset % 2 ^ 32)).reverse ++ Dev.sha256 set

/-- Authorisation (`large_blobs.rs:91-107`). -/
def lbAuth (a : LbParams) (set : Bytes) : M Unit := do
  let param ← req a.authParam .puatRequired
  let pr ← req a.authProto .missingParameter
  verifyToken (lbAuthData a.offset set) param pr
  hasPermission 0x10

/-- Completion of an upload (`large_blobs.rs:117-131`). `buffer.len() - TRUNCATED_HASH_LEN` panics on underflow. -/
def lbComplete : M Unit := do
  modLb fun l => { l with expectedLength := 0, expectedNextOffset := 0 }
  let v ← getV
  let b := v.lb.buffer
  if b.length < 16 then panicM
  else if (Dev.sha256 (b.take (b.length - 16))).take 16 ≠ b.drop (b.length - 16) then do
    modLb fun l => { l with buffer := [] }
    fail .integrityFailure
  else do
    commitLargeBlobArray b
    modLb fun l => { l with buffer := [] }

/-- Appending a fragment (`large_blobs.rs:109-131`). Simplified: `offset + set.len()` does not overflow `usize`,
as `offset` equals `expected_next_offset`, the length of a buffer. -/
def lbAppend (a : LbParams) (set : Bytes) : M Unit := do
  let v ← getV
  guardE (decide (a.offset + set.length ≤ v.lb.expectedLength)) .invalidParameter
  whenM (a.offset == 0) (modLb fun l => { l with buffer := [] })
  modLb fun l => { l with buffer := l.buffer ++ set, expectedNextOffset := (l.buffer ++ set).length }
  let v ← getV
  whenM (v.lb.expectedNextOffset == v.lb.expectedLength) lbComplete

/-- `large_blobs.rs:75-132`. -/
def lbSet (a : LbParams) (set : Bytes) : M Response := do
  guardE (decide (set.length ≤ maxFragment)) .invalidLength
  lbStart a
  let v ← getV
  guardE (a.offset == v.lb.expectedNextOffset) .invalidSeq
  let need ← lbNeedsAuth
  whenM need (lbAuth a set)
  lbAppend a set
  M.pure (.largeBlobs none)

/-- `LargeBlobs::process_command` (`large_blobs.rs:47-136`). -/
def largeBlobsCommand (a : LbParams) : M Response :=
  match a.get with
  | some n => lbGet a n
  | none =>
    match a.set with
    | some set => lbSet a set
    | none => fail .invalidParameter

end Verif.Ctap
