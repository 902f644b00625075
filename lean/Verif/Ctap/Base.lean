import Verif.Cbor.Model
import Verif.Hid.Model
import Verif.Crypto.CbcModel
import Verif.Utf8

/-!
# Basis of the model of the CTAP layer (`libraries/opensk/src/ctap`, `libraries/opensk/src/api`)

All functions of the CTAP layer are modelled in one state monad `M`.  The state consists of

* the persistent data `Persist` (the contents of the store; each store operation is one atomic step, see C44,
  C45 for the store itself),
* the volatile data `Vol` (`CtapState`),
* the environment `Env`: a clock and an oracle that fixes, for each numbered interaction with the environment,
  whether power is cut there, whether a store operation fails, how much time passes, which random bytes are
  drawn, what the user does, and in which order the store iterates.  Theorems quantify over all oracles,
* a history `log` of events.  It is only ever extended and never read by the model.

A computation returns a value, a status code, `panic` (a Rust panic) or `crash` (power cut).  The state reached
is kept in all four cases.
-/
namespace Verif.Ctap

abbrev Bytes := List UInt8
abbrev Timer := Verif.Hid.Timer
export Verif.Hid (makeTimer)
abbrev CVal := Verif.Cbor.Value

/-- `Ctap2StatusCode` (`libraries/opensk/src/ctap/status_code.rs:23-87`); unused codes are omitted. -/
inductive Status
  | ok | invalidCommand | invalidParameter | invalidLength | invalidSeq
  | cborUnexpectedType | invalidCbor | missingParameter | largeBlobStorageFull | credentialExcluded
  | unsupportedAlgorithm | operationDenied | keyStoreFull | unsupportedOption | invalidOption
  | keepaliveCancel | noCredentials | userActionTimeout | notAllowed | pinInvalid | pinBlocked
  | pinAuthInvalid | pinAuthBlocked | pinNotSet | puatRequired | pinPolicyViolation | integrityFailure
  | invalidSubcommand | other | internalError | hardwareFailure
deriving DecidableEq, Repr

/-- Discriminants (`status_code.rs:24-86`). -/
def Status.toByte : Status → UInt8
  | .ok => 0x00 | .invalidCommand => 0x01 | .invalidParameter => 0x02 | .invalidLength => 0x03
  | .invalidSeq => 0x04 | .cborUnexpectedType => 0x11 | .invalidCbor => 0x12 | .missingParameter => 0x14
  | .largeBlobStorageFull => 0x18 | .credentialExcluded => 0x19 | .unsupportedAlgorithm => 0x26
  | .operationDenied => 0x27 | .keyStoreFull => 0x28 | .unsupportedOption => 0x2B | .invalidOption => 0x2C
  | .keepaliveCancel => 0x2D | .noCredentials => 0x2E | .userActionTimeout => 0x2F | .notAllowed => 0x30
  | .pinInvalid => 0x31 | .pinBlocked => 0x32 | .pinAuthInvalid => 0x33 | .pinAuthBlocked => 0x34
  | .pinNotSet => 0x35 | .puatRequired => 0x36 | .pinPolicyViolation => 0x37 | .integrityFailure => 0x3D
  | .invalidSubcommand => 0x3E | .other => 0x7F | .internalError => 0xF2 | .hardwareFailure => 0xF3

/-- The UTF-8 bytes of a string literal, computed when the file is elaborated. -/
syntax "b!" str : term

macro_rules
  | `(b! $s:str) => do
    let bs := s.getString.toUTF8.toList.map fun b => Lean.Syntax.mkNumLit (toString b.toNat)
    `(([$(bs.toArray),*] : List UInt8))

/-- `StoreError` (`libraries/persistent_store/src/store.rs`, enum `StoreError`). -/
inductive StoreErr
  | invalidArgument | noCapacity | noLifetime | storageError | invalidStorage
deriving DecidableEq, Repr

/-- `From<StoreError> for Ctap2StatusCode` (`ctap/storage.rs:505-523`). -/
def StoreErr.toStatus : StoreErr → Status
  | .noCapacity => .keyStoreFull
  | .noLifetime => .keyStoreFull
  | .invalidArgument => .internalError
  | .invalidStorage => .hardwareFailure
  | .storageError => .other

/-- `PinUvAuthProtocol` (`ctap/data_formats.rs:897-900`). -/
inductive Proto | v1 | v2
deriving DecidableEq, Repr

/-- `CredentialProtectionPolicy` (`data_formats.rs:549-559`). -/
inductive Policy | optional | optionalWithList | required
deriving DecidableEq, Repr

/-- Discriminants (`data_formats.rs:551-558`), which also define the order (`derive(PartialOrd)`). -/
def Policy.toNat : Policy → Nat
  | .optional => 1 | .optionalWithList => 2 | .required => 3

/-- `PublicKeyCredentialSource` (`data_formats.rs:586-599`). Simplified: strings are their UTF-8 bytes, the key
type is always public key, private keys are ES256 keys given by their 32 bytes (the `ed25519` feature is not
modelled).  Stored credentials are kept in this decoded form; the encoding used in the store is modelled
separately (`Verif/Disk`). -/
structure Cred where
  id : Bytes
  sk : Bytes
  rpId : Bytes
  userHandle : Bytes
  userDisplayName : Option Bytes
  policy : Option Policy
  order : Nat
  userName : Option Bytes
  userIcon : Option Bytes
  credBlob : Option Bytes
  largeBlobKey : Option Bytes
deriving DecidableEq, Repr

/-- `EnterpriseAttestationMode` (`data_formats.rs:1055-1062`). -/
inductive EpMode | vendorFacilitated | platformManaged
deriving DecidableEq, Repr

/-- `Channel` (`ctap/mod.rs:168-175`). -/
inductive Channel
  | main (cid : Bytes)
  | vendor (cid : Bytes)
deriving DecidableEq, Repr

/-! ## Fixed parameters: cryptography and customization -/

/-- The cryptographic functions and the customization (`api/customization.rs:23-236`) of a device.
The cryptographic functions are arbitrary functions with the stated output lengths and with AES decryption
inverting encryption; `Verif.Crypto` models and verifies the implementations of `sha256`, `hmac`, `hkdf` and
`aes`.  The conditions on the customization are among those of `is_valid` (`api/customization.rs:378-445`) and
the test in `storage/key.rs:150-157`. -/
class Dev where
  /-- Width of `usize`. -/
  wordBits : Nat
  wordBits_eq : wordBits = 32 ∨ wordBits = 64
  sha256 : Bytes → Bytes
  sha256_len : ∀ m, (sha256 m).length = 32
  hmac : Bytes → Bytes → Bytes
  hmac_len : ∀ k m, (hmac k m).length = 32
  /-- `hkdf_256(ikm, salt, info)`. -/
  hkdf : Bytes → Bytes → Bytes → Bytes
  hkdf_len : ∀ k s i, (hkdf k s i).length = 32
  /-- `hkdf_empty_salt_256(ikm, info)`. -/
  hkdfEmptySalt : Bytes → Bytes → Bytes
  hkdfEmptySalt_len : ∀ k i, (hkdfEmptySalt k i).length = 32
  aesEnc : Bytes → Bytes → Bytes
  aesDec : Bytes → Bytes → Bytes
  aesEnc_len : ∀ k b, b.length = 16 → (aesEnc k b).length = 16
  aesDec_len : ∀ k b, b.length = 16 → (aesDec k b).length = 16
  aes_inv : ∀ k b, b.length = 16 → aesDec k (aesEnc k b) = b
  /-- `from_coordinates` followed by `diffie_hellman` and `raw_secret_bytes`; `none` if the point is invalid. -/
  ecdh : (sk x y : Bytes) → Option Bytes
  /-- Public key coordinates of an ECDH secret key. -/
  ecdhPub : Bytes → Bytes × Bytes
  /-- Public key coordinates of an ECDSA key, `none` if the key bytes are invalid. -/
  ecdsaPub : Bytes → Option (Bytes × Bytes)
  /-- DER-encoded signature, `none` if the key bytes are invalid. -/
  ecdsaSign : (sk msg : Bytes) → Option Bytes
  aaguid : Bytes
  aaguid_len : aaguid.length = 16
  allowsPinV1 : Bool
  defaultCredProtect : Option Policy
  defaultMinPinLength : Nat
  defaultMinPinLength_ge : 4 ≤ defaultMinPinLength
  defaultMinPinLength_le : defaultMinPinLength ≤ 63
  defaultMinPinRpIds : List Bytes
  enforceAlwaysUv : Bool
  epMode : Option EpMode
  epRpIds : List Bytes
  maxMsgSize : Nat
  maxMsgSize_ge : 1024 ≤ maxMsgSize
  maxMsgSize_le : maxMsgSize ≤ 7609
  maxPinRetries : Nat
  maxPinRetries_le : maxPinRetries ≤ 8
  useBatchAttestation : Bool
  useSignatureCounter : Bool
  maxCredBlobLength : Nat
  maxCredBlobLength_ge : 32 ≤ maxCredBlobLength
  maxCredBlobLength_le : maxCredBlobLength ≤ 64
  maxCredCountInList : Option Nat
  maxLargeBlob : Nat
  maxLargeBlob_ge : 1024 ≤ maxLargeBlob
  maxRpIds : Nat
  maxResidentKeys : Nat
  maxResidentKeys_le : maxResidentKeys ≤ 300
  firmwareVersion : Option Nat

/-! ## Events of the history -/

/-- Responses with a signature counter: registrations; CTAP2 assertions (first response of the command) and U2F
signatures; further responses of a CTAP2 assertion. -/
inductive CounterKind
  | registration
  | assertion
  | next
deriving DecidableEq, Repr

/-- Events recorded in the history.  They describe what happens at the boundary of the model: what the user and
the power supply do, what is compared, what leaves the device. -/
inductive Ev
  /-- power-up at this time -/
  | boot (now : Nat)
  /-- the user confirmed presence during a CTAP2 command -/
  | presence (now : Nat)
  /-- a guess was compared with the stored PIN -/
  | pinCompare (equal : Bool)
  /-- user data was erased by a factory reset -/
  | erased
  /-- a PIN/UV auth token was handed out, with these permissions and this relying party -/
  | tokenIssued (now : Nat) (permissions : UInt8) (rpId : Option Bytes)
  /-- a registration or an assertion with user presence consumed the token -/
  | tokenConsumed
  /-- the U2F button was touched -/
  | u2fTouch (now : Nat)
  /-- a U2F request asked for a touch -/
  | u2fPrompt (now : Nat)
  /-- a U2F operation used a touch -/
  | u2fConsume (now : Nat)
  /-- a signature counter value left the device -/
  | counter (value : Nat) (kind : CounterKind)
  /-- the stored signature counter overflowed `u32` -/
  | wrapped
deriving DecidableEq, Repr

/-! ## Persistent data -/

/-- `Attestation` (`api/attestation_store.rs:29-33`). -/
structure Attestation where
  sk : Bytes
  certificate : Bytes
deriving DecidableEq, Repr

/-- The contents of the store, one field for each key or key range of `ctap/storage/key.rs:59-147`.
Simplified: decoded values instead of byte strings.  A missing key is `none` or `false`. -/
structure Persist where
  /-- keys 1, 2 (`api/attestation_store.rs:61-62`): batch or enterprise attestation -/
  attestation : Option Attestation := none
  /-- keys 1700..2000 (pairs of key and credential, in no particular order) -/
  creds : List (Nat × Cred) := []
  /-- keys 2000..2004 (`LARGE_BLOB_SHARDS`), concatenated; see C47 for the splitting -/
  largeBlob : Option Bytes := none
  /-- key 2038 -/
  alwaysUv : Bool := false
  /-- key 2039 -/
  enterprise : Bool := false
  /-- key 2040 -/
  forcePinChange : Bool := false
  /-- key 2042 -/
  minPinRpIds : Option (List Bytes) := none
  /-- key 2043 -/
  minPinLength : Option Nat := none
  /-- key 2044 -/
  pinRetries : Option Nat := none
  /-- key 2045: hash prefix (16 bytes) and code point length -/
  pin : Option (Bytes × Nat) := none
  /-- key 2046: master keys (128 bytes) -/
  master : Option Bytes := none
  /-- key 2047 -/
  counter : Option Nat := none
deriving DecidableEq, Repr

/-! ## Volatile data -/

/-- `PinProtocol` (`ctap/pin_protocol.rs:33-36`). -/
structure PinProtocol where
  sk : Bytes
  token : Bytes
deriving DecidableEq, Repr

/-- `PinUvAuthTokenState` (`ctap/token_state.rs:35-42`). -/
structure TokenState where
  permissions : UInt8
  rpId : Option Bytes
  timer : Timer
  userVerified : Bool
  inUse : Bool
deriving DecidableEq, Repr

/-- `PinUvAuthTokenState::new` (`token_state.rs:46-54`); also the state after `stop_using` (145-151). -/
def TokenState.new : TokenState :=
  { permissions := 0, rpId := none, timer := none, userVerified := false, inUse := false }

/-- `ClientPin` (`ctap/client_pin.rs:126-131`). -/
structure ClientPin where
  p1 : PinProtocol
  p2 : PinProtocol
  mismatches : Nat
  tok : TokenState
deriving DecidableEq, Repr

/-- `get_pin_protocol` (`client_pin.rs:144-149`). -/
def ClientPin.proto (c : ClientPin) : Proto → PinProtocol
  | .v1 => c.p1
  | .v2 => c.p2

/-- `U2fUserPresenceState` (`ctap/u2f_up.rs:21-27`). -/
structure U2fUp where
  needsUp : Timer
  hasUp : Timer
deriving DecidableEq, Repr

/-- `U2fUserPresenceState::new` (`u2f_up.rs:30-35`). -/
def U2fUp.new : U2fUp := { needsUp := none, hasUp := none }

/-- `CoseKey` (`data_formats.rs:720-726`). -/
structure CoseKey where
  x : Bytes
  y : Bytes
  alg : Int
  kty : Int
  crv : Int
deriving DecidableEq, Repr

/-- `GetAssertionHmacSecretInput` (`data_formats.rs:370-375`). -/
structure HmacSecretInput where
  keyAgreement : CoseKey
  saltEnc : Bytes
  saltAuth : Bytes
  proto : Proto
deriving DecidableEq, Repr

/-- `GetAssertionExtensions` (`data_formats.rs:332-336`). -/
structure GaExt where
  hmacSecret : Option HmacSecretInput := none
  credBlob : Bool := false
  largeBlobKey : Option Bool := none
deriving DecidableEq, Repr

/-- `AssertionInput` (`ctap/mod.rs:373-378`). -/
structure AssertionInput where
  clientDataHash : Bytes
  authData : Bytes
  ext : GaExt
  hasUv : Bool
deriving DecidableEq, Repr

/-- `StatefulCommand` (`mod.rs:388-393`); `AssertionState` (381-385) is the two arguments of `getAssertion`.
The lists of keys are in the order of the code (the last element is taken first). -/
inductive Stateful
  | reset
  | getAssertion (input : AssertionInput) (nextKeys : List Nat)
  | enumerateRps (index : Nat)
  | enumerateCredentials (keys : List Nat)
deriving DecidableEq, Repr

/-- `StatefulPermission` (`mod.rs:407-411`). -/
structure StatefulPerm where
  timer : Timer
  cmd : Option Stateful
  channel : Option Channel
deriving DecidableEq, Repr

/-- `LargeBlobs` (`ctap/large_blobs.rs:30-34`). -/
structure LargeBlobs where
  buffer : Bytes
  expectedLength : Nat
  expectedNextOffset : Nat
deriving DecidableEq, Repr

/-- `LargeBlobs::new` (`large_blobs.rs:38-44`). -/
def LargeBlobs.new : LargeBlobs := { buffer := [], expectedLength := 0, expectedNextOffset := 0 }

/-- `CtapState` (`mod.rs:533-540`). -/
structure Vol where
  pin : ClientPin
  u2f : U2fUp
  sp : StatefulPerm
  lb : LargeBlobs
deriving DecidableEq, Repr

/-! ## Environment -/

/-- How a store write fails: refused before anything is written, or broken by the flash driver, in which case
the update may have been applied. -/
inductive WFail
  | refused (e : StoreErr)
  | broken (e : StoreErr) (applied : Bool)
deriving DecidableEq, Repr

/-- Result of `UserPresence::wait_with_timeout` (`api/user_presence.rs`). -/
inductive Wait | touched | timeout | declined | canceled | fail
deriving DecidableEq, Repr

/-- Outcome of `send_keepalive_up_needed` (`mod.rs:253-327`): `Ok(())`, `Err(Canceled)` or the panic at 268. -/
inductive Keep | ok | canceled | ioError
deriving DecidableEq, Repr

/-- What the environment does at each numbered interaction. -/
structure Oracle where
  cut : Nat → Bool
  rfail : Nat → Option StoreErr
  wfail : Nat → Option WFail
  adv : Nat → Nat
  rnd : Nat → Nat → UInt8
  wait : Nat → Wait
  keep : Nat → Keep
  shuffle : Nat → List (Nat × Cred) → List (Nat × Cred)
  shuffle_perm : ∀ k l, (shuffle k l).Perm l

structure Env where
  o : Oracle
  k : Nat
  now : Nat

/-- The next interaction; time passes. -/
def Env.next (e : Env) : Env := { e with k := e.k + 1, now := e.now + e.o.adv e.k }

structure St where
  env : Env
  p : Persist
  v : Vol
  log : List Ev

/-! ## The monad -/

inductive Res (α : Type) where
  | ok (a : α)
  | err (e : Status)
  | panic
  | crash
deriving DecidableEq, Repr

def M (α : Type) : Type := St → Res α × St

def M.pure (a : α) : M α := fun s => (.ok a, s)

def M.bind (m : M α) (f : α → M β) : M β := fun s =>
  match m s with
  | (.ok a, s') => f a s'
  | (.err e, s') => (.err e, s')
  | (.panic, s') => (.panic, s')
  | (.crash, s') => (.crash, s')

instance : Monad M where
  pure := M.pure
  bind := M.bind

/-- Return an error (`return Err(e)`). -/
def fail (e : Status) : M α := fun s => (.err e, s)

/-- A Rust panic. -/
def panicM : M α := fun s => (.panic, s)

/-- `if !c { return Err(e) }`. -/
def guardE (c : Bool) (e : Status) : M Unit := if c then M.pure () else fail e

/-- `o.ok_or(e)?`. -/
def req (o : Option α) (e : Status) : M α :=
  match o with
  | some a => M.pure a
  | none => fail e

/-- `m.map_err(f)?`. -/
def mapErr (f : Status → Status) (m : M α) : M α := fun s =>
  match m s with
  | (.err e, s') => (.err (f e), s')
  | r => r

/-- Lift a pure fallible function. -/
def liftE (x : Except Status α) : M α :=
  match x with
  | .ok a => M.pure a
  | .error e => fail e

/-- One interaction with the environment that does not change the data. -/
def effect (f : St → Res α) : M α := fun s =>
  let s' := { s with env := s.env.next }
  if s.env.o.cut s.env.k then (.crash, s') else (f s, s')

/-- Reading the store (`Store::find`, `Store::iter`), which may fail in the flash driver. -/
def readP : M Persist := effect fun s =>
  match s.env.o.rfail s.env.k with
  | some e => .err e.toStatus
  | none => .ok s.p

/-- Writing the store (`Store::insert`, `remove`, `transaction`, `clear`), atomically. `evs` are the events that
describe the update. -/
def writeP (f : Persist → Persist) (evs : List Ev := []) : M Unit := fun s =>
  let s' := { s with env := s.env.next }
  let done := { s' with p := f s.p, log := evs ++ s.log }
  if s.env.o.cut s.env.k then (.crash, s') else
  match s.env.o.wfail s.env.k with
  | none => (.ok (), done)
  | some (.refused e) => (.err e.toStatus, s')
  | some (.broken e applied) => (.err e.toStatus, if applied then done else s')

/-- `rng().fill_bytes` on `n` bytes. -/
def rng (n : Nat) : M Bytes := effect fun s => .ok ((List.range n).map (s.env.o.rnd s.env.k))

/-- The current time. -/
def clock : M Nat := fun s => (.ok s.env.now, s)

/-- Record an event. -/
def logE (e : Ev) : M Unit := fun s => (.ok (), { s with log := e :: s.log })

def getV : M Vol := fun s => (.ok s.v, s)
def modV (f : Vol → Vol) : M Unit := fun s => (.ok (), { s with v := f s.v })
def modPin (f : ClientPin → ClientPin) : M Unit := modV fun v => { v with pin := f v.pin }
def modTok (f : TokenState → TokenState) : M Unit := modPin fun c => { c with tok := f c.tok }
def modSp (f : StatefulPerm → StatefulPerm) : M Unit := modV fun v => { v with sp := f v.sp }

/-! ## User presence -/

/-- The loop of `check_user_presence` (`mod.rs:344-365`) with `n` iterations left. `wait_with_timeout` and
`send_keepalive_up_needed` are one interaction each. -/
def presenceLoop : Nat → M (Except Status Unit)
  | 0 => M.pure (.error .userActionTimeout)
  | n + 1 => do
    let w ← effect fun s => .ok (s.env.o.wait s.env.k)
    match w with
    | .touched => do
      let t ← clock
      logE (.presence t)
      M.pure (.ok ())
    | .declined => M.pure (.error .operationDenied)
    | .canceled => M.pure (.error .keepaliveCancel)
    | .fail => M.pure (.error .hardwareFailure)
    | .timeout => do
      let r ← effect fun s => .ok (s.env.o.keep s.env.k)
      match r with
      | .ok => presenceLoop n
      | .canceled => M.pure (.error .keepaliveCancel)
      | .ioError => panicM

/-- `check_user_presence` (`mod.rs:332-369`) without the final `?`; `TIMEOUT_ITERATIONS` is 30000 / 100 and the
range is inclusive. The status conversion is `status_code.rs:89-98`. -/
def checkPresence : M (Except Status Unit) := presenceLoop (30000 / 100 + 1)

/-- `check_user_presence(env, channel)?`. -/
def checkPresenceE : M Unit := do
  let r ← checkPresence
  liftE r

end Verif.Ctap
