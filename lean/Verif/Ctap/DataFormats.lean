import Verif.Ctap.Pin

/-!
# Model of `libraries/opensk/src/ctap/data_formats.rs` and `command.rs`

Types, parsing from CBOR and encoding to CBOR.  Strings are their UTF-8 bytes.  An encoding function returns
`none` where `cbor_map_options!` would panic because of duplicate keys.
-/
namespace Verif.Ctap
open Verif.Cbor (Value)
variable [Dev]

/-- `extract_map` followed by `destructure_cbor_map!` (`libraries/cbor/src/macros.rs`): the `i`-th value. -/
def fields (keys : List Value) (v : Value) : Except Status (Nat → Option Value) :=
  match extractMap v with
  | .error e => .error e
  | .ok m => .ok fun i => (Verif.Cbor.destructure keys m).getD i none

/-- `iter().map(f).collect::<Result<Vec<_>, _>>()`. -/
def mapE (f : α → Except Status β) : List α → Except Status (List β)
  | [] => .ok []
  | a :: l => do
    let b ← f a
    let bs ← mapE f l
    .ok (b :: bs)

/-- `extract_array` followed by `map(f).collect()`. -/
def arrayOf (f : Value → Except Status β) (v : Value) : Except Status (List β) := do
  let a ← extractArray v
  mapE f a

/-- `o.map_or(Ok(d), f)?`. -/
def orDefault (d : β) (f : α → Except Status β) : Option α → Except Status β
  | none => .ok d
  | some a => f a

/-! ## Entities -/

/-- `PublicKeyCredentialRpEntity` (`data_formats.rs:38-42`). -/
structure RpEntity where
  id : Bytes
  name : Option Bytes := none
  icon : Option Bytes := none
deriving DecidableEq, Repr

/-- `data_formats.rs:44-66`. -/
def RpEntity.ofCbor (v : Value) : Except Status RpEntity := do
  let f ← fields [.text (b! "id"), .text (b! "icon"), .text (b! "name")] v
  let id ← okOrMissing (f 0) >>= extractText
  let name ← optE extractText (f 2)
  let icon ← optE extractText (f 1)
  .ok { id := id, name := name, icon := icon }

/-- `data_formats.rs:68-76`. -/
def RpEntity.toCbor (r : RpEntity) : Option Value :=
  cborMapOptions [(.text (b! "id"), some (.text r.id)), (.text (b! "icon"), r.icon.map .text),
    (.text (b! "name"), r.name.map .text)]

/-- `PublicKeyCredentialUserEntity` (`data_formats.rs:81-86`). -/
structure UserEntity where
  id : Bytes
  name : Option Bytes := none
  displayName : Option Bytes := none
  icon : Option Bytes := none
deriving DecidableEq, Repr

/-- `data_formats.rs:88-113`. -/
def UserEntity.ofCbor (v : Value) : Except Status UserEntity := do
  let f ← fields [.text (b! "id"), .text (b! "icon"), .text (b! "name"), .text (b! "displayName")] v
  let id ← okOrMissing (f 0) >>= extractBytes
  let name ← optE extractText (f 2)
  let displayName ← optE extractText (f 3)
  let icon ← optE extractText (f 1)
  .ok { id := id, name := name, displayName := displayName, icon := icon }

/-- `data_formats.rs:115-124`. -/
def UserEntity.toCbor (u : UserEntity) : Option Value :=
  cborMapOptions [(.text (b! "id"), some (.bytes u.id)), (.text (b! "icon"), u.icon.map .text),
    (.text (b! "name"), u.name.map .text), (.text (b! "displayName"), u.displayName.map .text)]

/-- `PublicKeyCredentialType` (`data_formats.rs:129-134`, 147-157): `true` for `PublicKey`. -/
def credTypeOfCbor (v : Value) : Except Status Bool := do
  let t ← extractText v
  .ok (t == b! "public-key")

/-- `data_formats.rs:136-145`. -/
def credTypeToCbor (isPublicKey : Bool) : Value :=
  .text (if isPublicKey then b! "public-key" else b! "unknown")

/-- `PublicKeyCredentialParameter` (`data_formats.rs:162-165`); `es256` says whether the algorithm is ES256
(otherwise it is `Unknown`, see `SignatureAlgorithm::from` at 525-534). -/
structure CredParam where
  publicKey : Bool
  es256 : Bool
deriving DecidableEq, Repr

/-- `data_formats.rs:167-182` and 536-542. -/
def CredParam.ofCbor (v : Value) : Except Status CredParam := do
  let f ← fields [.text (b! "alg"), .text (b! "type")] v
  let t ← okOrMissing (f 1) >>= credTypeOfCbor
  let a ← okOrMissing (f 0) >>= extractInteger
  .ok { publicKey := t, es256 := a == Verif.Ctap.es256 }

/-- `AuthenticatorTransport` (`data_formats.rs:197-202`). -/
inductive Transport | usb | nfc | ble | internal
deriving DecidableEq, Repr

/-- `data_formats.rs:204-214`. -/
def Transport.toBytes : Transport → Bytes
  | .usb => b! "usb"
  | .nfc => b! "nfc"
  | .ble => b! "ble"
  | .internal => b! "internal"

/-- `data_formats.rs:216-229`. -/
def Transport.ofCbor (v : Value) : Except Status Transport := do
  let t ← extractText v
  if t = b! "usb" then .ok .usb
  else if t = b! "nfc" then .ok .nfc
  else if t = b! "ble" then .ok .ble
  else if t = b! "internal" then .ok .internal
  else .error .cborUnexpectedType

/-- `PublicKeyCredentialDescriptor` (`data_formats.rs:234-238`). -/
structure Descriptor where
  publicKey : Bool := true
  id : Bytes
  transports : Option (List Transport) := none
deriving DecidableEq, Repr

/-- `data_formats.rs:240-272`. -/
def Descriptor.ofCbor (v : Value) : Except Status Descriptor := do
  let f ← fields [.text (b! "id"), .text (b! "type"), .text (b! "transports")] v
  let t ← okOrMissing (f 1) >>= credTypeOfCbor
  let id ← okOrMissing (f 0) >>= extractBytes
  let tr ← optE (arrayOf Transport.ofCbor) (f 2)
  .ok { publicKey := t, id := id, transports := tr }

/-- `data_formats.rs:274-282`. -/
def Descriptor.toCbor (d : Descriptor) : Option Value :=
  cborMapOptions [(.text (b! "id"), some (.bytes d.id)), (.text (b! "type"), some (credTypeToCbor d.publicKey)),
    (.text (b! "transports"), d.transports.map fun l => .array (l.map fun t => .text t.toBytes))]

/-! ## Extensions and options -/

/-- `MakeCredentialExtensions` (`data_formats.rs:286-292`). -/
structure McExt where
  hmacSecret : Bool := false
  credProtect : Option Policy := none
  minPinLength : Bool := false
  credBlob : Option Bytes := none
  largeBlobKey : Option Bool := none
deriving DecidableEq, Repr

/-- The check of `large_blob_key` (`data_formats.rs:315-319`, 355-359). -/
def checkLargeBlobKey (o : Option Bool) : Except Status Unit :=
  if o = some false then .error .invalidOption else .ok ()

/-- `data_formats.rs:294-328`. -/
def McExt.ofCbor (v : Value) : Except Status McExt := do
  let f ← fields [.text (b! "credBlob"), .text (b! "credProtect"), .text (b! "hmac-secret"),
    .text (b! "largeBlobKey"), .text (b! "minPinLength")] v
  let hmac ← orDefault false extractBool (f 2)
  let prot ← optE Policy.ofCbor (f 1)
  let minPin ← orDefault false extractBool (f 4)
  let blob ← optE extractBytes (f 0)
  let lbk ← optE extractBool (f 3)
  checkLargeBlobKey lbk
  .ok { hmacSecret := hmac, credProtect := prot, minPinLength := minPin, credBlob := blob, largeBlobKey := lbk }

/-- `CoseKey::try_from` (`data_formats.rs:816-860`). -/
def CoseKey.ofCbor (v : Value) : Except Status CoseKey := do
  let f ← fields [.unsigned 1, .unsigned 3, .negative (-1), .negative (-2), .negative (-3)] v
  let alg ← okOrMissing (f 1) >>= extractInteger
  if alg ≠ -25 ∧ alg ≠ -7 then .error .unsupportedAlgorithm else do
  let x ← okOrMissing (f 3) >>= extractBytes
  if x.length ≠ 32 then .error .invalidParameter else do
  let y ← okOrMissing (f 4) >>= extractBytes
  if y.length ≠ 32 then .error .invalidParameter else do
  let crv ← okOrMissing (f 2) >>= extractInteger
  if crv ≠ 1 then .error .unsupportedAlgorithm else do
  let kty ← okOrMissing (f 0) >>= extractInteger
  if kty ≠ 2 then .error .unsupportedAlgorithm else
  .ok { x := x, y := y, alg := alg, kty := kty, crv := crv }

/-- `From<CoseKey> for cbor::Value` (`data_formats.rs:862-880`). -/
def CoseKey.toCbor (k : CoseKey) : Option Value :=
  cborMapOptions [(.unsigned 1, some (cborInt k.kty)), (.unsigned 3, some (cborInt k.alg)),
    (.negative (-1), some (cborInt k.crv)), (.negative (-2), some (.bytes k.x)),
    (.negative (-3), some (.bytes k.y))]

/-- `PinUvAuthProtocol::try_from` (`data_formats.rs:902-912`). -/
def Proto.ofCbor (v : Value) : Except Status Proto := do
  let n ← extractUnsigned v
  if n = 1 then .ok .v1 else if n = 2 then .ok .v2 else .error .invalidParameter

/-- `GetAssertionHmacSecretInput::try_from` (`data_formats.rs:377-402`). -/
def HmacSecretInput.ofCbor (v : Value) : Except Status HmacSecretInput := do
  let f ← fields [.unsigned 1, .unsigned 2, .unsigned 3, .unsigned 4] v
  let ka ← okOrMissing (f 0) >>= CoseKey.ofCbor
  let enc ← okOrMissing (f 1) >>= extractBytes
  let auth ← okOrMissing (f 2) >>= extractBytes
  let pr ← orDefault .v1 Proto.ofCbor (f 3)
  .ok { keyAgreement := ka, saltEnc := enc, saltAuth := auth, proto := pr }

/-- `GetAssertionExtensions::try_from` (`data_formats.rs:338-366`). -/
def GaExt.ofCbor (v : Value) : Except Status GaExt := do
  let f ← fields [.text (b! "credBlob"), .text (b! "hmac-secret"), .text (b! "largeBlobKey")] v
  let hmac ← optE HmacSecretInput.ofCbor (f 1)
  let blob ← orDefault false extractBool (f 0)
  let lbk ← optE extractBool (f 2)
  checkLargeBlobKey lbk
  .ok { hmacSecret := hmac, credBlob := blob, largeBlobKey := lbk }

/-- `MakeCredentialOptions` (`data_formats.rs:407-410`). -/
structure McOptions where
  rk : Bool := false
  uv : Bool := false
deriving DecidableEq, Repr

/-- `data_formats.rs:412-440`. -/
def McOptions.ofCbor (v : Value) : Except Status McOptions := do
  let f ← fields [.text (b! "rk"), .text (b! "up"), .text (b! "uv")] v
  let rk ← orDefault false extractBool (f 0)
  let up ← orDefault true extractBool (f 1)
  if !up then .error .invalidOption else do
  let uv ← orDefault false extractBool (f 2)
  .ok { rk := rk, uv := uv }

/-- `GetAssertionOptions` (`data_formats.rs:444-456`). -/
structure GaOptions where
  up : Bool := true
  uv : Bool := false
deriving DecidableEq, Repr

/-- `data_formats.rs:458-485`. -/
def GaOptions.ofCbor (v : Value) : Except Status GaOptions := do
  let f ← fields [.text (b! "rk"), .text (b! "up"), .text (b! "uv")] v
  match f 0 with
  | some rk => do
    let _ ← extractBool rk
    .error .invalidOption
  | none => do
    let up ← orDefault true extractBool (f 1)
    let uv ← orDefault false extractBool (f 2)
    .ok { up := up, uv := uv }

/-- `EnterpriseAttestationMode::try_from` (`data_formats.rs:1064-1074`). -/
def EpMode.parse (n : Nat) : Except Status EpMode :=
  if n = 1 then .ok .vendorFacilitated else if n = 2 then .ok .platformManaged else .error .invalidOption

/-! ## Parameters of the commands (`command.rs`) -/

/-- `AuthenticatorMakeCredentialParameters` (`command.rs:145-158`). -/
structure McParams where
  clientDataHash : Bytes
  rp : RpEntity
  user : UserEntity
  credParams : List CredParam
  excludeList : Option (List Descriptor) := none
  ext : McExt := {}
  options : McOptions := {}
  authParam : Option Bytes := none
  authProto : Option Proto := none
  enterprise : Option Nat := none
deriving DecidableEq, Repr

/-- `command.rs:160-231`. -/
def McParams.ofCbor (v : Value) : Except Status McParams := do
  let f ← fields ((List.range 10).map fun i => .unsigned (i + 1)) v
  let cdh ← okOrMissing (f 0) >>= extractBytes
  let rp ← okOrMissing (f 1) >>= RpEntity.ofCbor
  let user ← okOrMissing (f 2) >>= UserEntity.ofCbor
  let params ← okOrMissing (f 3) >>= arrayOf CredParam.ofCbor
  let excl ← optE (arrayOf Descriptor.ofCbor) (f 4)
  let ext ← orDefault {} McExt.ofCbor (f 5)
  let opt ← orDefault {} McOptions.ofCbor (f 6)
  let param ← optE extractBytes (f 7)
  let proto ← optE Proto.ofCbor (f 8)
  let ep ← optE extractUnsigned (f 9)
  .ok { clientDataHash := cdh, rp := rp, user := user, credParams := params, excludeList := excl, ext := ext,
        options := opt, authParam := param, authProto := proto, enterprise := ep }

/-- `AuthenticatorGetAssertionParameters` (`command.rs:235-245`). -/
structure GaParams where
  rpId : Bytes
  clientDataHash : Bytes
  allowList : Option (List Descriptor) := none
  ext : GaExt := {}
  options : GaOptions := {}
  authParam : Option Bytes := none
  authProto : Option Proto := none
deriving DecidableEq, Repr

/-- `command.rs:247-303`. -/
def GaParams.ofCbor (v : Value) : Except Status GaParams := do
  let f ← fields ((List.range 7).map fun i => .unsigned (i + 1)) v
  let rp ← okOrMissing (f 0) >>= extractText
  let cdh ← okOrMissing (f 1) >>= extractBytes
  let allow ← optE (arrayOf Descriptor.ofCbor) (f 2)
  let ext ← orDefault {} GaExt.ofCbor (f 3)
  let opt ← orDefault {} GaOptions.ofCbor (f 4)
  let param ← optE extractBytes (f 5)
  let proto ← optE Proto.ofCbor (f 6)
  .ok { rpId := rp, clientDataHash := cdh, allowList := allow, ext := ext, options := opt, authParam := param,
        authProto := proto }

/-- `ClientPinSubCommand::try_from` (`data_formats.rs:934-951`). -/
def PinSub.ofCbor (v : Value) : Except Status PinSub := do
  let n ← extractUnsigned v
  match n with
  | 1 => .ok .getPinRetries
  | 2 => .ok .getKeyAgreement
  | 3 => .ok .setPin
  | 4 => .ok .changePin
  | 5 => .ok .getPinToken
  | 6 => .ok .getUvTokenUsingUv
  | 7 => .ok .getUvRetries
  | 9 => .ok .getPinTokenWithPermissions
  | _ => .error .invalidSubcommand

/-- `AuthenticatorClientPinParameters::try_from` (`command.rs:318-361`). -/
def PinParams.ofCbor (v : Value) : Except Status PinParams := do
  let f ← fields [.unsigned 1, .unsigned 2, .unsigned 3, .unsigned 4, .unsigned 5, .unsigned 6, .unsigned 9,
    .unsigned 10] v
  let proto ← okOrMissing (f 0) >>= Proto.ofCbor
  let sub ← okOrMissing (f 1) >>= PinSub.ofCbor
  let ka ← optE CoseKey.ofCbor (f 2)
  let param ← optE extractBytes (f 3)
  let enc ← optE extractBytes (f 4)
  let hash ← optE extractBytes (f 5)
  let perms ← optE extractUnsigned (f 6)
  let rp ← optE extractText (f 7)
  .ok { proto := proto, sub := sub, keyAgreement := ka, authParam := param, newPinEnc := enc, pinHashEnc := hash,
        permissions := perms.map fun n => UInt8.ofNat n, permissionsRpId := rp }

/-- `AuthenticatorLargeBlobsParameters` (`command.rs:364-371`). -/
structure LbParams where
  get : Option Nat := none
  set : Option Bytes := none
  offset : Nat
  length : Option Nat := none
  authParam : Option Bytes := none
  authProto : Option Proto := none
deriving DecidableEq, Repr

/-- The consistency checks (`command.rs:402-424`). -/
def LbParams.check (p : LbParams) : Except Status Unit :=
  if p.get.isNone && p.set.isNone then .error .invalidParameter
  else if p.get.isSome && p.set.isSome then .error .invalidParameter
  else if p.get.isSome && (p.length.isSome || p.authParam.isSome || p.authProto.isSome) then
    .error .invalidParameter
  else if p.set.isSome && p.offset == 0 && decide (p.length.getD 0 < 17) then .error .invalidParameter
  else if p.set.isSome && p.offset != 0 && p.length.isSome then .error .invalidParameter
  else .ok ()

/-- `command.rs:373-435`; `as usize` keeps the low bits. -/
def LbParams.ofCbor (v : Value) : Except Status LbParams := do
  let f ← fields [.unsigned 1, .unsigned 2, .unsigned 3, .unsigned 4, .unsigned 5, .unsigned 6] v
  let get ← optE extractUnsigned (f 0)
  let set ← optE extractBytes (f 1)
  let offset ← match f 2 with
    | some x => extractUnsigned x
    | none => .error .invalidParameter
  let length ← optE extractUnsigned (f 3)
  let param ← optE extractBytes (f 4)
  let proto ← optE Proto.ofCbor (f 5)
  let p : LbParams :=
    { get := get.map (· % 2 ^ Dev.wordBits), set := set, offset := offset % 2 ^ Dev.wordBits,
      length := length.map (· % 2 ^ Dev.wordBits), authParam := param, authProto := proto }
  p.check
  .ok p

/-- `ConfigSubCommand` (`data_formats.rs:955-960`). -/
inductive ConfigSub | enableEp | toggleAlwaysUv | setMinPinLength | vendorPrototype
deriving DecidableEq, Repr

/-- Discriminants (`data_formats.rs:956-959`). -/
def ConfigSub.toByte : ConfigSub → UInt8
  | .enableEp => 1 | .toggleAlwaysUv => 2 | .setMinPinLength => 3 | .vendorPrototype => 0xFF

/-- `data_formats.rs:968-981`. -/
def ConfigSub.ofCbor (v : Value) : Except Status ConfigSub := do
  let n ← extractUnsigned v
  match n with
  | 1 => .ok .enableEp
  | 2 => .ok .toggleAlwaysUv
  | 3 => .ok .setMinPinLength
  | 0xFF => .ok .vendorPrototype
  | _ => .error .invalidSubcommand

/-- `SetMinPinLengthParams` (`data_formats.rs:999-1003`). -/
structure MinPinParams where
  newLength : Option Nat := none
  rpIds : Option (List Bytes) := none
  forceChange : Option Bool := none
deriving DecidableEq, Repr

/-- `data_formats.rs:1005-1040`. -/
def MinPinParams.ofCbor (v : Value) : Except Status MinPinParams := do
  let f ← fields [.unsigned 1, .unsigned 2, .unsigned 3] v
  let n ← optE extractUnsigned (f 0)
  if n.getD 0 ≥ 256 then .error .pinPolicyViolation else do
  let ids ← optE (arrayOf extractText) (f 1)
  let force ← optE extractBool (f 2)
  .ok { newLength := n, rpIds := ids, forceChange := force }

/-- `data_formats.rs:1042-1050`. -/
def MinPinParams.toCbor (p : MinPinParams) : Option Value :=
  cborMapOptions [(.unsigned 1, p.newLength.map .unsigned), (.unsigned 2, p.rpIds.map fun l => .array (l.map .text)),
    (.unsigned 3, p.forceChange.map cborBool)]

/-- `AuthenticatorConfigParameters` (`command.rs:439-444`); the only sub command with parameters is
setMinPINLength. -/
structure ConfigParams where
  sub : ConfigSub
  params : Option MinPinParams := none
  authProto : Option Proto := none
  authParam : Option Bytes := none
deriving DecidableEq, Repr

/-- `command.rs:447-479`. -/
def ConfigParams.ofCbor (v : Value) : Except Status ConfigParams := do
  let f ← fields [.unsigned 1, .unsigned 2, .unsigned 3, .unsigned 4] v
  let sub ← okOrMissing (f 0) >>= ConfigSub.ofCbor
  let params ← match sub with
    | .setMinPinLength => do
      let p ← okOrMissing (f 1) >>= MinPinParams.ofCbor
      .ok (some p)
    | _ => .ok none
  let proto ← optE Proto.ofCbor (f 2)
  let param ← optE extractBytes (f 3)
  .ok { sub := sub, params := params, authProto := proto, authParam := param }

/-- `CredentialManagementSubCommand` (`data_formats.rs:1078-1086`). -/
inductive CmSub | metadata | rpsBegin | rpsNext | credsBegin | credsNext | delete | update
deriving DecidableEq, Repr

/-- Discriminants (`data_formats.rs:1079-1085`). -/
def CmSub.toByte : CmSub → UInt8
  | .metadata => 1 | .rpsBegin => 2 | .rpsNext => 3 | .credsBegin => 4 | .credsNext => 5 | .delete => 6
  | .update => 7

/-- `data_formats.rs:1094-1110`. -/
def CmSub.ofCbor (v : Value) : Except Status CmSub := do
  let n ← extractUnsigned v
  match n with
  | 1 => .ok .metadata
  | 2 => .ok .rpsBegin
  | 3 => .ok .rpsNext
  | 4 => .ok .credsBegin
  | 5 => .ok .credsNext
  | 6 => .ok .delete
  | 7 => .ok .update
  | _ => .error .invalidSubcommand

/-- `CredentialManagementSubCommandParameters` (`data_formats.rs:1113-1117`). -/
structure CmSubParams where
  rpIdHash : Option Bytes := none
  credentialId : Option Descriptor := none
  user : Option UserEntity := none
deriving DecidableEq, Repr

/-- `data_formats.rs:1119-1144`. -/
def CmSubParams.ofCbor (v : Value) : Except Status CmSubParams := do
  let f ← fields [.unsigned 1, .unsigned 2, .unsigned 3] v
  let h ← optE extractBytes (f 0)
  let d ← optE Descriptor.ofCbor (f 1)
  let u ← optE UserEntity.ofCbor (f 2)
  .ok { rpIdHash := h, credentialId := d, user := u }

/-- `o.map(f)` for an encoding that may panic. -/
def optP (f : α → Option Value) : Option α → Option (Option Value)
  | none => some none
  | some a => (f a).map some

/-- `data_formats.rs:1146-1154`. -/
def CmSubParams.toCbor (p : CmSubParams) : Option Value := do
  let d ← optP Descriptor.toCbor p.credentialId
  let u ← optP UserEntity.toCbor p.user
  cborMapOptions [(.unsigned 1, p.rpIdHash.map .bytes), (.unsigned 2, d), (.unsigned 3, u)]

/-- `AuthenticatorCredentialManagementParameters` (`command.rs:482-487`). -/
structure CmParams where
  sub : CmSub
  params : Option CmSubParams := none
  authProto : Option Proto := none
  authParam : Option Bytes := none
deriving DecidableEq, Repr

/-- `command.rs:489-518`. -/
def CmParams.ofCbor (v : Value) : Except Status CmParams := do
  let f ← fields [.unsigned 1, .unsigned 2, .unsigned 3, .unsigned 4] v
  let sub ← okOrMissing (f 0) >>= CmSub.ofCbor
  let params ← optE CmSubParams.ofCbor (f 1)
  let proto ← optE Proto.ofCbor (f 2)
  let param ← optE extractBytes (f 3)
  .ok { sub := sub, params := params, authProto := proto, authParam := param }

/-- `Command` (`command.rs:41-53`). -/
inductive Command
  | makeCredential (p : McParams)
  | getAssertion (p : GaParams)
  | getInfo
  | clientPin (p : PinParams)
  | reset
  | getNextAssertion
  | credMgmt (p : CmParams)
  | selection
  | largeBlobs (p : LbParams)
  | config (p : ConfigParams)
deriving DecidableEq, Repr

/-- `Command::deserialize` (`command.rs:76-140`). -/
def Command.deserialize : Bytes → Except Status Command
  | [] => .error .missingParameter
  | c :: rest =>
    if c = 0x01 then do .ok (.makeCredential (← McParams.ofCbor (← cborRead rest)))
    else if c = 0x02 then do .ok (.getAssertion (← GaParams.ofCbor (← cborRead rest)))
    else if c = 0x04 then .ok .getInfo
    else if c = 0x06 then do .ok (.clientPin (← PinParams.ofCbor (← cborRead rest)))
    else if c = 0x07 then .ok .reset
    else if c = 0x08 then .ok .getNextAssertion
    else if c = 0x0A ∨ c = 0x41 then do .ok (.credMgmt (← CmParams.ofCbor (← cborRead rest)))
    else if c = 0x0B then .ok .selection
    else if c = 0x0C then do .ok (.largeBlobs (← LbParams.ofCbor (← cborRead rest)))
    else if c = 0x0D then do .ok (.config (← ConfigParams.ofCbor (← cborRead rest)))
    else .error .invalidCommand

end Verif.Ctap
