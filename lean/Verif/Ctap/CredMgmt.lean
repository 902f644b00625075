import Verif.Ctap.Core

/-!
# Model of `libraries/opensk/src/ctap/credential_management.rs`
-/
namespace Verif.Ctap
variable [Dev]

/-- Order of `String` in a `BTreeSet`: lexicographic on bytes. -/
def ltBytes : Bytes → Bytes → Bool
  | [], [] => false
  | [], _ :: _ => true
  | _ :: _, [] => false
  | a :: as, b :: bs => decide (a < b) || (a == b && ltBytes as bs)

/-- `BTreeSet::insert`; a set is the sorted list of its elements. -/
def setInsert (x : Bytes) : List Bytes → List Bytes
  | [] => [x]
  | y :: l => if x = y then y :: l else if ltBytes x y then x :: y :: l else y :: setInsert x l

/-- `get_stored_rp_ids` (`credential_management.rs:34-42`). -/
def storedRpIds : M (List Bytes) := do
  let l ← iterCredentials
  M.pure ((l.map fun e => e.2.rpId).foldl (fun s x => setInsert x s) [])

/-- `enumerate_rps_response` (`credential_management.rs:45-61`). -/
def rpResponse (rpId : Bytes) (total : Option Nat) : CmResponse :=
  { rp := some { id := rpId }, rpIdHash := some (Dev.sha256 rpId), totalRps := total }

/-- `enumerate_credentials_response` (`credential_management.rs:64-103`). -/
def credResponse (c : Cred) (total : Option Nat) : Except Status CmResponse :=
  match pubKey c.sk with
  | .error e => .error e
  | .ok k => .ok
    { user := some { id := c.userHandle, name := c.userName, displayName := c.userDisplayName, icon := c.userIcon }
      credentialId := some { id := c.id }, publicKey := some k, totalCredentials := total
      credProtect := c.policy, largeBlobKey := c.largeBlobKey }

/-- `check_rp_id_permissions` (`credential_management.rs:108-119`). -/
def checkRpIdPermissions (id : Bytes) : M Unit := do
  let v ← getV
  if v.pin.tok.rpId.isNone then M.pure ()
  else do
    let e ← findCredentialItem id
    hasNoOrRpIdPermission e.2.rpId

/-- `process_get_creds_metadata` (`credential_management.rs:122-132`). -/
def cmMetadata : M CmResponse := do
  let n ← countCredentials
  let r ← remainingCredentials
  M.pure { existing := some n, remaining := some r }

/-- `process_enumerate_rps_begin` (`credential_management.rs:135-150`). -/
def cmRpsBegin (ch : Channel) : M CmResponse := do
  let rps ← storedRpIds
  whenM (decide (1 < rps.length)) (setCommand (.enumerateRps 1) ch)
  let r ← req rps.head? .noCredentials
  M.pure (rpResponse r (some rps.length))

/-- `process_enumerate_rps_get_next_rp` (`credential_management.rs:153-165`). -/
def cmRpsNext : M CmResponse := do
  let i ← nextEnumerateRp
  let rps ← storedRpIds
  let r ← req rps[i]? .notAllowed
  M.pure (rpResponse r none)

/-- The keys collected in `process_enumerate_credentials_begin` (`credential_management.rs:178-190`). -/
def keysOfRpHash (hash : Bytes) (l : List (Nat × Cred)) : List Nat :=
  (l.filter fun e => Dev.sha256 e.2.rpId == hash).map (·.1)

/-- `process_enumerate_credentials_begin` (`credential_management.rs:168-205`). -/
def cmCredsBegin (sp : CmSubParams) (ch : Channel) : M CmResponse := do
  let hash ← req sp.rpIdHash .missingParameter
  hasNoOrRpIdHashPermission hash
  let l ← iterCredentials
  let keys := keysOfRpHash hash l
  let k ← req keys.getLast? .noCredentials
  let c ← getCredential k
  whenM (decide (1 < keys.length)) (setCommand (.enumerateCredentials keys.dropLast) ch)
  liftE (credResponse c (some keys.length))

/-- `process_enumerate_credentials_get_next_credential` (`credential_management.rs:208-215`). -/
def cmCredsNext : M CmResponse := do
  let k ← nextEnumerateCredential
  let c ← getCredential k
  liftE (credResponse c none)

/-- `process_delete_credential` (`credential_management.rs:218-229`). -/
def cmDelete (sp : CmSubParams) : M Unit := do
  let d ← req sp.credentialId .missingParameter
  checkRpIdPermissions d.id
  deleteCredential d.id

/-- `process_update_user_information` (`credential_management.rs:232-246`). -/
def cmUpdate (sp : CmSubParams) : M Unit := do
  let d ← req sp.credentialId .missingParameter
  let u ← req sp.user .missingParameter
  checkRpIdPermissions d.id
  updateCredential d.id u.name u.displayName u.icon

/-- The stateful commands that survive at `credential_management.rs:263-276`. -/
def cmKeeps : CmSub → Option Stateful → Bool
  | .rpsNext, some (.enumerateRps _) => true
  | .credsNext, some (.enumerateCredentials _) => true
  | _, _ => false

/-- The subcommands that need a token (`credential_management.rs:278-303`). -/
def CmSub.needsToken : CmSub → Bool
  | .rpsNext => false
  | .credsNext => false
  | _ => true

/-- The authenticated message (`credential_management.rs:288-291`). -/
def cmAuthData (a : CmParams) : M Bytes :=
  match a.params with
  | none => M.pure [a.sub.toByte]
  | some sp => do
    let b ← cborWriteM sp.toCbor
    M.pure (a.sub.toByte :: b)

/-- Authorisation (`credential_management.rs:284-299`). -/
def cmAuth (a : CmParams) : M Unit := do
  let param ← req a.authParam .puatRequired
  let pr ← req a.authProto .missingParameter
  let data ← cmAuthData a
  verifyToken data param pr
  hasPermission 0x04

/-- The second match of `process_credential_management` (`credential_management.rs:305-347`). -/
def cmDispatch (a : CmParams) (ch : Channel) : M (Option CmResponse) :=
  match a.sub with
  | .metadata => do
    hasNoRpIdPermission
    let r ← cmMetadata
    M.pure (some r)
  | .rpsBegin => do
    hasNoRpIdPermission
    let r ← cmRpsBegin ch
    M.pure (some r)
  | .rpsNext => do
    let r ← cmRpsNext
    M.pure (some r)
  | .credsBegin => do
    let sp ← req a.params .missingParameter
    let r ← cmCredsBegin sp ch
    M.pure (some r)
  | .credsNext => do
    let r ← cmCredsNext
    M.pure (some r)
  | .delete => do
    let sp ← req a.params .missingParameter
    cmDelete sp
    M.pure none
  | .update => do
    let sp ← req a.params .missingParameter
    cmUpdate sp
    M.pure none

/-- `process_credential_management` (`credential_management.rs:249-349`). -/
def credentialManagement (a : CmParams) (ch : Channel) : M Response := do
  let c ← getCommand
  whenM (!cmKeeps a.sub c) (modSp fun _ => .cleared)
  whenM a.sub.needsToken (cmAuth a)
  let r ← cmDispatch a ch
  M.pure (.credMgmt r)

end Verif.Ctap
