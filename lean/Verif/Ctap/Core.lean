import Verif.Ctap.DataFormats

/-!
# Model of `libraries/opensk/src/ctap/mod.rs`: stateful commands, registration, assertion, info, reset

The features `with_ctap1`, `config_command` and `vendor_hid` are on, `ed25519` is off.
-/
namespace Verif.Ctap
open Verif.Cbor (Value beBytes)
variable [Dev]

/-! ## Small helpers -/

/-- `if c { m }`. -/
def whenM (c : Bool) (m : M Unit) : M Unit := if c then m else M.pure ()

/-- `get_preferred_cred_param` (`mod.rs:127-133`): is some parameter (public key, ES256)? -/
def preferredCredParam (ps : List CredParam) : Bool := ps.any fun p => p.publicKey && p.es256

/-- The predicate in `filter_listed_credential` and `filter_listed_resident_credential` (`mod.rs:189-214`). -/
def listedOk (policy : Option Policy) (hasUv : Bool) : Bool := hasUv || policy != some .required

/-- `is_discoverable` (`data_formats.rs:630-634`). -/
def Cred.isDiscoverable (c : Cred) : Bool := c.policy == none || c.policy == some .optional

/-- `to_public_source` (`mod.rs:217-235`). -/
def toPublicSource (id : Bytes) (c : CredSource) : Cred :=
  { id := id, sk := c.sk, rpId := [], userHandle := [], userDisplayName := none, policy := c.policy, order := 0,
    userName := none, userIcon := none, credBlob := c.credBlob, largeBlobKey := none }

/-- `str::is_char_boundary`. -/
def isCharBoundary (s : Bytes) (i : Nat) : Bool :=
  i == 0 || i == s.length || (decide (i < s.length) && (s.getD i 0 &&& 0xC0 != 0x80))

/-- The loop of `truncate_to_char_boundary` (`mod.rs:244-246`). -/
def charBoundaryBelow (s : Bytes) : Nat → Nat
  | 0 => 0
  | n + 1 => if isCharBoundary s (n + 1) then n + 1 else charBoundaryBelow s n

/-- `truncate_to_char_boundary` (`mod.rs:240-249`). -/
def truncateToCharBoundary (s : Bytes) (max : Nat) : Bytes :=
  if max ≥ s.length then s else s.take (charBoundaryBelow s max)

/-! ## Stateful commands (`mod.rs:407-529`) -/

/-- `clear` (`mod.rs:427-431`). -/
def StatefulPerm.cleared : StatefulPerm := { timer := none, cmd := none, channel := none }

/-- `clear_old_channels` (`mod.rs:434-450`). -/
def StatefulPerm.clearOldChannels (sp : StatefulPerm) (ch : Channel) : StatefulPerm :=
  match sp.channel with
  | some c => if c ≠ ch then .cleared else sp
  | none => sp

/-- `clear_timer` (`mod.rs:453-457`). -/
def StatefulPerm.clearTimer (sp : StatefulPerm) (now : Nat) : StatefulPerm :=
  if Verif.Hid.Timer.isElapsed sp.timer now then .cleared else sp

/-- `get_command` (`mod.rs:460-465`), with `none` for the error. -/
def getCommand : M (Option Stateful) := do
  let t ← clock
  modSp fun sp => sp.clearTimer t
  let v ← getV
  M.pure v.sp.cmd

/-- `set_command` (`mod.rs:468-483`) for a command other than `Reset`. -/
def setCommand (c : Stateful) (ch : Channel) : M Unit := do
  let t ← clock
  modSp fun _ => { timer := makeTimer t 30000, cmd := some c, channel := some ch }

/-- `next_assertion_credential` (`mod.rs:489-503`). -/
def nextAssertionCredential : M (AssertionInput × Nat) := do
  let c ← getCommand
  match c with
  | some (.getAssertion inp keys) => do
    let k ← req keys.getLast? .notAllowed
    modSp fun sp => { sp with cmd := some (.getAssertion inp keys.dropLast) }
    M.pure (inp, k)
  | _ => fail .notAllowed

/-- `next_enumerate_rp` (`mod.rs:506-515`). -/
def nextEnumerateRp : M Nat := do
  let c ← getCommand
  match c with
  | some (.enumerateRps i) => do
    modSp fun sp => { sp with cmd := some (.enumerateRps (i + 1)) }
    M.pure i
  | _ => fail .notAllowed

/-- `next_enumerate_credential` (`mod.rs:518-528`). -/
def nextEnumerateCredential : M Nat := do
  let c ← getCommand
  match c with
  | some (.enumerateCredentials keys) => do
    let k ← req keys.getLast? .notAllowed
    modSp fun sp => { sp with cmd := some (.enumerateCredentials keys.dropLast) }
    M.pure k
  | _ => fail .notAllowed

/-! ## Responses (`response.rs`) -/

/-- `AuthenticatorMakeCredentialResponse` (`response.rs:62-68`); `fmt` is always "packed"; `alg` in the statement is
always ES256 and `ecdaa_key_id` is always absent. -/
structure McResponse where
  authData : Bytes
  sig : Bytes
  x5c : Option Bytes
  epAtt : Option Bool
  largeBlobKey : Option Bytes
deriving DecidableEq, Repr

/-- `AuthenticatorGetAssertionResponse` (`response.rs:91-99`); `credential` is always present. -/
structure GaResponse where
  credential : Descriptor
  authData : Bytes
  signature : Bytes
  user : Option UserEntity
  number : Option Nat
  largeBlobKey : Option Bytes
deriving DecidableEq, Repr

/-- `AuthenticatorGetInfoResponse` (`response.rs:124-149`), without the fields that are constant or taken from the
customization only; these are filled in by `InfoResponse.toCbor`. -/
structure InfoResponse where
  alwaysUv : Bool
  ep : Option Bool
  clientPin : Bool
  forcePinChange : Bool
  minPinLength : Nat
  remaining : Nat
deriving DecidableEq, Repr

/-- `AuthenticatorCredentialManagementResponse` (`response.rs:256-268`). -/
structure CmResponse where
  existing : Option Nat := none
  remaining : Option Nat := none
  rp : Option RpEntity := none
  rpIdHash : Option Bytes := none
  totalRps : Option Nat := none
  user : Option UserEntity := none
  credentialId : Option Descriptor := none
  publicKey : Option CoseKey := none
  totalCredentials : Option Nat := none
  credProtect : Option Policy := none
  largeBlobKey : Option Bytes := none
deriving DecidableEq, Repr

/-- `ResponseData` (`response.rs:29-41`). -/
inductive Response
  | makeCredential (r : McResponse)
  | getAssertion (r : GaResponse)
  | getNextAssertion (r : GaResponse)
  | getInfo (r : InfoResponse)
  | clientPin (r : Option PinResponse)
  | reset
  | credMgmt (r : Option CmResponse)
  | selection
  | largeBlobs (r : Option Bytes)
  | config
deriving DecidableEq, Repr

/-- Attestation statement (`data_formats.rs:496-505`). -/
def attStmtCbor (sig : Bytes) (x5c : Option Bytes) : Option Value :=
  cborMapOptions [(.text (b! "alg"), some (cborInt es256)), (.text (b! "sig"), some (.bytes sig)),
    (.text (b! "x5c"), x5c.map fun c => .array [.bytes c])]

/-- `response.rs:70-88`. -/
def McResponse.toCbor (r : McResponse) : Option Value := do
  let st ← attStmtCbor r.sig r.x5c
  cborMapOptions [(.unsigned 1, some (.text (b! "packed"))), (.unsigned 2, some (.bytes r.authData)),
    (.unsigned 3, some st), (.unsigned 4, r.epAtt.map cborBool), (.unsigned 5, r.largeBlobKey.map .bytes)]

/-- `response.rs:101-121`. -/
def GaResponse.toCbor (r : GaResponse) : Option Value := do
  let d ← r.credential.toCbor
  let u ← optP UserEntity.toCbor r.user
  cborMapOptions [(.unsigned 1, some d), (.unsigned 2, some (.bytes r.authData)),
    (.unsigned 3, some (.bytes r.signature)), (.unsigned 4, u), (.unsigned 5, r.number.map .unsigned),
    (.unsigned 7, r.largeBlobKey.map .bytes)]

/-- The versions and options of `process_get_info` (`mod.rs:1267-1294`). -/
def InfoResponse.versions (r : InfoResponse) : List Bytes :=
  (if r.alwaysUv then [] else [b! "U2F_V2"]) ++ [b! "FIDO_2_0", b! "FIDO_2_1"]

def InfoResponse.options (r : InfoResponse) : List (Bytes × Bool) :=
  (match r.ep with | some e => [(b! "ep", e)] | none => []) ++
  [(b! "rk", true), (b! "up", true), (b! "alwaysUv", r.alwaysUv), (b! "credMgmt", true), (b! "authnrCfg", true),
   (b! "clientPin", r.clientPin), (b! "largeBlobs", true), (b! "pinUvAuthToken", true),
   (b! "setMinPINLength", true), (b! "makeCredUvNotRqd", !r.alwaysUv)]

/-- `mod.rs:1300-1336` and `response.rs:151-211`. -/
def InfoResponse.toCbor (r : InfoResponse) : Option Value := do
  let options ← Verif.Cbor.mkMap (r.options.map fun e => (.text e.1, cborBool e.2))
  let alg ← cborMapOptions [(.text (b! "alg"), some (cborInt es256)),
    (.text (b! "type"), some (.text (b! "public-key")))]
  cborMapOptions
    [(.unsigned 1, some (.array (r.versions.map .text))),
     (.unsigned 2, some (.array [.text (b! "hmac-secret"), .text (b! "credProtect"), .text (b! "minPinLength"),
        .text (b! "credBlob"), .text (b! "largeBlobKey")])),
     (.unsigned 3, some (.bytes Dev.aaguid)),
     (.unsigned 4, some options),
     (.unsigned 5, some (.unsigned Dev.maxMsgSize)),
     (.unsigned 6, some (.array (.unsigned 2 :: if Dev.allowsPinV1 then [.unsigned 1] else []))),
     (.unsigned 7, Dev.maxCredCountInList.map .unsigned),
     (.unsigned 8, some (.unsigned 241)),
     (.unsigned 9, some (.array [.text (b! "usb")])),
     (.unsigned 10, some (.array [alg])),
     (.unsigned 11, some (.unsigned Dev.maxLargeBlob)),
     (.unsigned 12, some (cborBool r.forcePinChange)),
     (.unsigned 13, some (.unsigned r.minPinLength)),
     (.unsigned 14, Dev.firmwareVersion.map .unsigned),
     (.unsigned 15, some (.unsigned Dev.maxCredBlobLength)),
     (.unsigned 16, some (.unsigned Dev.maxRpIds)),
     (.unsigned 20, some (.unsigned r.remaining))]

/-- `response.rs:222-238`. -/
def PinResponse.toCbor (r : PinResponse) : Option Value := do
  let k ← optP CoseKey.toCbor r.keyAgreement
  cborMapOptions [(.unsigned 1, k), (.unsigned 2, r.token.map .bytes), (.unsigned 3, r.retries.map .unsigned),
    (.unsigned 4, r.powerCycleState.map cborBool)]

/-- `response.rs:270-300`. -/
def CmResponse.toCbor (r : CmResponse) : Option Value := do
  let rp ← optP RpEntity.toCbor r.rp
  let u ← optP UserEntity.toCbor r.user
  let d ← optP Descriptor.toCbor r.credentialId
  let k ← optP CoseKey.toCbor r.publicKey
  cborMapOptions [(.unsigned 1, r.existing.map .unsigned), (.unsigned 2, r.remaining.map .unsigned),
    (.unsigned 3, rp), (.unsigned 4, r.rpIdHash.map .bytes), (.unsigned 5, r.totalRps.map .unsigned),
    (.unsigned 6, u), (.unsigned 7, d), (.unsigned 8, k), (.unsigned 9, r.totalCredentials.map .unsigned),
    (.unsigned 10, r.credProtect.map Policy.toCbor), (.unsigned 11, r.largeBlobKey.map .bytes)]

/-- `From<ResponseData> for Option<cbor::Value>` (`response.rs:43-59`); the outer `none` is a panic. -/
def Response.toCbor : Response → Option (Option Value)
  | .makeCredential r => r.toCbor.map some
  | .getAssertion r => r.toCbor.map some
  | .getNextAssertion r => r.toCbor.map some
  | .getInfo r => r.toCbor.map some
  | .clientPin r => optP PinResponse.toCbor r
  | .reset => some none
  | .credMgmt r => optP CmResponse.toCbor r
  | .selection => some none
  | .largeBlobs r => optP (fun b => cborMapOptions [(.unsigned 1, some (.bytes b))]) r
  | .config => some none

/-- `cbor_write(value, &mut data)?` for a value built by `cbor_map_options!`. -/
def cborWriteM : Option Value → M Bytes
  | none => panicM
  | some v => liftE (cborWrite v)

/-! ## Common parts -/

/-- `increment_global_signature_counter` (`mod.rs:555-564`). `next_u32` is four random bytes. -/
def incrementGlobalCounter : M Unit :=
  whenM Dev.useSignatureCounter do
    let r ← rng 4
    incrSignatureCounter (Verif.Cbor.beNat r % 8 + 1)

/-- `generate_auth_data` (`mod.rs:1372-1390`). -/
def generateAuthData (rpIdHash : Bytes) (flags : UInt8) : M Bytes := do
  let c ← signatureCounter
  M.pure (rpIdHash ++ [flags] ++ beBytes 4 c)

/-- `get_pub_key` (`api/private_key.rs:94-102`). -/
def pubKey (sk : Bytes) : Except Status CoseKey :=
  match Dev.ecdsaPub sk with
  | none => .error .internalError
  | some (x, y) => .ok { x := x, y := y, alg := es256, kty := 2, crv := 1 }

/-- `sign_and_encode` (`api/private_key.rs:105-111`). -/
def signEncode (sk msg : Bytes) : Except Status Bytes :=
  match Dev.ecdsaSign sk msg with
  | none => .error .internalError
  | some s => .ok s

/-- `pin_uv_auth_precheck` (`mod.rs:703-723`). -/
def authPrecheck (param : Option Bytes) (proto : Option Proto) : M Unit :=
  match param with
  | none => M.pure ()
  | some [] => do
    checkPresenceE
    let h ← pinHash
    fail (if h.isNone then .pinNotSet else .pinInvalid)
  | some _ => do
    let _ ← req proto .missingParameter
    M.pure ()

/-- The branch with a PIN auth parameter, of registration (`mod.rs:781-799`) and assertion (`mod.rs:1154-1173`). -/
def checkTokenFor (perm : UInt8) (rpId cdh param : Bytes) (proto : Option Proto) : M Unit := do
  let h ← pinHash
  guardE h.isSome .pinNotSet
  let pr ← req proto .missingParameter
  verifyToken cdh param pr
  hasPermission perm
  checkUserVerified
  ensureRpIdPermission rpId

/-! ## Registration (`mod.rs:725-986`) -/

/-- Enterprise attestation (`mod.rs:752-773`). -/
def mcEnterprise (a : McParams) : M Bool :=
  match a.enterprise with
  | none => M.pure false
  | some n => do
    let mode ← req Dev.epMode .invalidParameter
    let on ← enterpriseAttestation
    guardE on .invalidParameter
    let m ← liftE (EpMode.parse n)
    M.pure ((m == .platformManaged && mode == .platformManaged) || Dev.epRpIds.contains a.rp.id)

/-- The branch without PIN auth parameter (`mod.rs:800-813`). -/
def mcWithoutParam (a : McParams) : M Unit := do
  guardE (!a.options.uv) .invalidOption
  let al ← hasAlwaysUv
  guardE (!al) .puatRequired
  whenM a.options.rk do
    let h ← pinHash
    guardE h.isNone .puatRequired

/-- User verification (`mod.rs:778-815`). -/
def mcAuth (a : McParams) : M Unit :=
  match a.authParam with
  | some param => checkTokenFor 0x01 a.rp.id a.clientDataHash param a.authProto
  | none => mcWithoutParam a

/-- The flag byte (`mod.rs:778-816`, 858-864). -/
def mcFlags (hasUv ext : Bool) : UInt8 :=
  (if hasUv then 0x04 else 0x00) ||| 0x01 ||| 0x40 ||| (if ext then 0x80 else 0x00)

/-- The condition in the loop over the exclude list (`mod.rs:820-835`). -/
def isExcluded (rpId id : Bytes) (hasUv : Bool) : M Bool := do
  let c ← findCredential rpId id
  match c.filter fun c => listedOk c.policy hasUv with
  | some _ => M.pure true
  | none => do
    let w ← unwrapCredential id (Dev.sha256 rpId)
    M.pure (w.filter fun c => listedOk c.policy hasUv).isSome

/-- The loop over the exclude list (`mod.rs:819-843`). -/
def checkExcludeList (rpId : Bytes) (hasUv : Bool) : List Descriptor → M Unit
  | [] => M.pure ()
  | d :: l => do
    let e ← isExcluded rpId d.id hasUv
    if e then do
      let _ ← checkPresence
      fail .credentialExcluded
    else checkExcludeList rpId hasUv l

/-- The effective policy (`mod.rs:848-855`). -/
def mcPolicy (requested : Option Policy) : Option Policy :=
  if (requested.getD .optional).toNat < (Dev.defaultCredProtect.getD .optional).toNat then Dev.defaultCredProtect
  else requested

/-- `min_pin_length` (`mod.rs:856-857`). -/
def mcMinPin (a : McParams) : M Bool :=
  if a.ext.minPinLength then do
    let l ← minPinLengthRpIds
    M.pure (l.contains a.rp.id)
  else M.pure false

/-- `cred_blob` (`mod.rs:859-862`). -/
def mcCredBlob (a : McParams) : Option Bytes := a.ext.credBlob.filter fun b => b.length ≤ Dev.maxCredBlobLength

/-- `has_extension_output` (`mod.rs:868-871`). -/
def mcHasExt (a : McParams) (minPin : Bool) : Bool :=
  a.ext.hmacSecret || a.ext.credProtect.isSome || minPin || a.ext.credBlob.isSome

/-- `large_blob_key` (`mod.rs:875-878`). -/
def mcLargeBlobKey (a : McParams) : M (Option Bytes) :=
  if a.options.rk && a.ext.largeBlobKey == some true then do
    let k ← rng 32
    M.pure (some k)
  else M.pure none

/-- The stored credential (`mod.rs:885-909`). -/
def mcCred (a : McParams) (id sk : Bytes) (order : Nat) (lbk : Option Bytes) : Cred :=
  { id := id, sk := sk, rpId := a.rp.id, userHandle := a.user.id
    userDisplayName := a.user.displayName.map fun s => truncateToCharBoundary s 64
    policy := mcPolicy a.ext.credProtect, order := order
    userName := a.user.name.map fun s => truncateToCharBoundary s 64
    userIcon := a.user.icon.map fun s => truncateToCharBoundary s 64
    credBlob := mcCredBlob a, largeBlobKey := lbk }

/-- Creation of the credential (`mod.rs:883-923`), returning its id. -/
def mcCreate (a : McParams) (sk : Bytes) (lbk : Option Bytes) : M Bytes :=
  if a.options.rk then do
    let id ← rng 32
    let order ← newCreationOrder
    storeCredential (mcCred a id sk order lbk)
    M.pure id
  else
    mapErr (fun _ => .internalError)
      (wrapCredential { sk := sk, rpIdHash := Dev.sha256 a.rp.id, policy := mcPolicy a.ext.credProtect,
                        credBlob := mcCredBlob a })

/-- `min_pin_length_output` (`mod.rs:941-945`). -/
def mcMinPinOutput (minPin : Bool) : M (Option Nat) :=
  if minPin then do
    let n ← minPinLength
    M.pure (some n)
  else M.pure none

/-- The extension output (`mod.rs:935-955`). -/
def mcExtOutput (a : McParams) (minPin : Bool) : M Bytes :=
  if mcHasExt a minPin then do
    let len ← mcMinPinOutput minPin
    cborWriteM (cborMapOptions
      [(.text (b! "credBlob"), if a.ext.credBlob.isSome then some (cborBool (mcCredBlob a).isSome) else none),
       (.text (b! "credProtect"),
          if a.ext.credProtect.isSome then (mcPolicy a.ext.credProtect).map Policy.toCbor else none),
       (.text (b! "hmac-secret"), if a.ext.hmacSecret then some (cborBool true) else none),
       (.text (b! "minPinLength"), len.map .unsigned)])
  else M.pure []

/-- The authenticator data (`mod.rs:925-956`). -/
def mcAuthData (a : McParams) (minPin : Bool) (id sk : Bytes) : M Bytes := do
  let base ← generateAuthData (Dev.sha256 a.rp.id) (mcFlags a.authParam.isSome (mcHasExt a minPin))
  guardE (decide (id.length ≤ 0xFF)) .internalError
  let pk ← liftE (pubKey sk)
  let cose ← cborWriteM pk.toCbor
  let ext ← mcExtOutput a minPin
  M.pure (base ++ Dev.aaguid ++ [0x00, UInt8.ofNat id.length] ++ id ++ cose ++ ext)

/-- The signature and the certificate (`mod.rs:958-985`). -/
def mcSign (epAtt : Bool) (sk data : Bytes) : M (Bytes × Option Bytes) :=
  if epAtt || Dev.useBatchAttestation then do
    let o ← attestationGet
    let att ← req o .internalError
    match Dev.ecdsaSign att.sk data with
    | none => panicM
    | some s => M.pure (s, some att.certificate)
  else do
    let s ← liftE (signEncode sk data)
    M.pure (s, none)

/-- The part of `process_make_credential` after the user has confirmed (`mod.rs:846-986`). -/
def mcFinish (a : McParams) (epAtt : Bool) : M Response := do
  let minPin ← mcMinPin a
  let lbk ← mcLargeBlobKey a
  let sk ← newSk
  let id ← mcCreate a sk lbk
  let ad ← mcAuthData a minPin id sk
  let (sig, x5c) ← mcSign epAtt sk (ad ++ a.clientDataHash)
  M.pure (.makeCredential { authData := ad, sig := sig, x5c := x5c,
                            epAtt := if epAtt then some true else none, largeBlobKey := lbk })

/-- `process_make_credential` (`mod.rs:725-986`). -/
def makeCredential (a : McParams) : M Response := do
  authPrecheck a.authParam a.authProto
  guardE (preferredCredParam a.credParams) .unsupportedAlgorithm
  let epAtt ← mcEnterprise a
  mcAuth a
  checkExcludeList a.rp.id a.authParam.isSome (a.excludeList.getD [])
  checkPresenceE
  clearTokenFlags
  mcFinish a epAtt

/-! ## Assertion (`mod.rs:988-1265`) -/

/-- `generate_cred_random` (`mod.rs:990-1002`). -/
def generateCredRandom (sk : Bytes) (hasUv : Bool) : M Bytes := do
  let key ← credRandom hasUv
  M.pure (Dev.hkdf key sk (b! "credRandom"))

/-- The hmac-secret output (`mod.rs:1022-1031`). -/
def gaHmacSecret (c : Cred) (i : AssertionInput) : M (Option Bytes) :=
  match i.ext.hmacSecret with
  | none => M.pure none
  | some h => do
    let r ← generateCredRandom c.sk i.hasUv
    let o ← processHmacSecret h r
    M.pure (some o)

/-- The extension output (`mod.rs:1021-1044`). -/
def gaExtOutput (c : Cred) (i : AssertionInput) : M Bytes :=
  if i.ext.hmacSecret.isSome || i.ext.credBlob then do
    let o ← gaHmacSecret c i
    cborWriteM (cborMapOptions
      [(.text (b! "credBlob"), if i.ext.credBlob then some (.bytes (c.credBlob.getD [])) else none),
       (.text (b! "hmac-secret"), o.map .bytes)])
  else M.pure []

/-- The user entity of a response (`mod.rs:1062-1077`). -/
def gaUser (c : Cred) (hasUv : Bool) : Option UserEntity :=
  if c.userHandle = [] then none
  else some { id := c.userHandle
              name := if hasUv then c.userName else none
              displayName := if hasUv then c.userDisplayName else none
              icon := if hasUv then c.userIcon else none }

/-- `assertion_response` (`mod.rs:1006-1091`). -/
def assertionResponse (c : Cred) (i : AssertionInput) (number : Option Nat) : M GaResponse := do
  let ext ← gaExtOutput c i
  let ad := i.authData ++ ext
  let sig ← liftE (signEncode c.sk (ad ++ i.clientDataHash))
  M.pure { credential := { id := c.id }, authData := ad, signature := sig, user := gaUser c i.hasUv,
           number := number
           largeBlobKey := if i.ext.largeBlobKey == some true then c.largeBlobKey else none }

/-- `get_any_credential_from_allow_list` (`mod.rs:1094-1120`). -/
def anyFromAllowList (rpId : Bytes) (hasUv : Bool) : List Descriptor → M (Option Cred)
  | [] => M.pure none
  | d :: l => do
    let c ← findCredential rpId d.id
    match c.filter fun c => listedOk c.policy hasUv with
    | some c => M.pure (some c)
    | none => do
      let w ← unwrapCredential d.id (Dev.sha256 rpId)
      match w.filter fun c => listedOk c.policy hasUv with
      | some w => M.pure (some (toPublicSource d.id w))
      | none => anyFromAllowList rpId hasUv l

/-- The branch without PIN auth parameter (`mod.rs:1174-1182`). -/
def gaWithoutParam (a : GaParams) : M Unit := do
  guardE (!a.options.uv) .invalidOption
  whenM a.options.up do
    let al ← hasAlwaysUv
    guardE (!al) .puatRequired

/-- User verification (`mod.rs:1151-1183`). -/
def gaAuth (a : GaParams) : M Unit :=
  match a.authParam with
  | some param => checkTokenFor 0x02 a.rpId a.clientDataHash param a.authProto
  | none => gaWithoutParam a

/-- The flag byte (`mod.rs:1151-1189`). -/
def gaFlags (a : GaParams) : UInt8 :=
  (if a.authParam.isSome then 0x04 else 0x00) ||| (if a.options.up then 0x01 else 0x00) |||
    (if a.ext.hmacSecret.isSome || a.ext.credBlob then 0x80 else 0x00)

/-- Insertion into a list that is sorted by creation order. -/
def insertByOrder (e : Nat × Cred) : List (Nat × Cred) → List (Nat × Cred)
  | [] => [e]
  | x :: l => if e.2.order ≤ x.2.order then e :: x :: l else x :: insertByOrder e l

/-- `sort_unstable_by_key(|&(_key, order)| order)` (`mod.rs:1210`). The order of entries with the same creation order is
not specified in Rust; here it depends on the order of iteration, which is arbitrary as well. -/
def sortByOrder (l : List (Nat × Cred)) : List (Nat × Cred) := l.foldr insertByOrder []

/-- The keys of the discoverable credentials, oldest first (`mod.rs:1200-1214`). -/
def discoverableKeys (rpId : Bytes) (hasUv : Bool) (l : List (Nat × Cred)) : List Nat :=
  (sortByOrder (l.filter fun e => e.2.rpId == rpId && (hasUv || e.2.isDiscoverable))).map (·.1)

/-- Choice of the credential (`mod.rs:1192-1230`): the credential and the remaining keys. -/
def gaFindCredential (a : GaParams) : M (Option Cred × List Nat) :=
  match a.allowList with
  | some l => do
    let c ← anyFromAllowList a.rpId a.authParam.isSome l
    M.pure (c, [])
  | none => do
    let l ← iterCredentials
    let keys := discoverableKeys a.rpId a.authParam.isSome l
    match keys.getLast? with
    | none => M.pure (none, keys.dropLast)
    | some k => do
      let c ← getCredential k
      M.pure (some c, keys.dropLast)

/-- The user presence check (`mod.rs:1235-1238`). -/
def gaPresence (a : GaParams) : M Unit :=
  whenM a.options.up do
    checkPresenceE
    clearTokenFlags

/-- Saving the remaining credentials (`mod.rs:1247-1256`). -/
def gaRemember (inp : AssertionInput) (keys : List Nat) (ch : Channel) : M (Option Nat) :=
  match keys with
  | [] => M.pure none
  | _ :: _ => do
    setCommand (.getAssertion inp keys) ch
    M.pure (some (keys.length + 1))

/-- `process_get_assertion` (`mod.rs:1122-1257`). -/
def getAssertion (a : GaParams) (ch : Channel) : M Response := do
  authPrecheck a.authParam a.authProto
  guardE (!(a.ext.hmacSecret.isSome && !a.options.up)) .unsupportedOption
  gaAuth a
  let (c, rest) ← gaFindCredential a
  let c ← req c .noCredentials
  gaPresence a
  incrementGlobalCounter
  let ad ← generateAuthData (Dev.sha256 a.rpId) (gaFlags a)
  let inp : AssertionInput :=
    { clientDataHash := a.clientDataHash, authData := ad, ext := a.ext, hasUv := a.authParam.isSome }
  let number ← gaRemember inp rest ch
  let r ← assertionResponse c inp number
  M.pure (.getAssertion r)

/-- `process_get_next_assertion` (`mod.rs:1259-1265`). -/
def getNextAssertion : M Response := do
  let (inp, key) ← nextAssertionCredential
  let c ← getCredential key
  let r ← assertionResponse c inp none
  M.pure (.getNextAssertion r)

/-! ## Info, reset, selection -/

/-- The option "ep" (`mod.rs:1280-1282`). -/
def infoEp : M (Option Bool) :=
  match Dev.epMode with
  | some _ => do
    let e ← enterpriseAttestation
    M.pure (some e)
  | none => M.pure none

/-- `process_get_info` (`mod.rs:1267-1337`). -/
def getInfo : M Response := do
  let al ← hasAlwaysUv
  let ep ← infoEp
  let h ← pinHash
  let f ← hasForcePinChange
  let m ← minPinLength
  let r ← remainingCredentials
  M.pure (.getInfo { alwaysUv := al, ep := ep, clientPin := h.isSome, forcePinChange := f, minPinLength := m,
                     remaining := r })

/-- `process_reset` (`mod.rs:1339-1361`). -/
def resetCommand : M Response := do
  let c ← getCommand
  guardE (c == some .reset) .notAllowed
  checkPresenceE
  resetStorage
  resetClientPin
  modV fun v => { v with u2f := U2fUp.new }
  M.pure .reset

/-- `process_selection` (`mod.rs:1363-1370`). -/
def selection : M Response := do
  checkPresenceE
  M.pure .selection

end Verif.Ctap
