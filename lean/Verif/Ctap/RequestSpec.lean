import Verif.Ctap.DataFormats
import Verif.Cbor.Spec

/-!
# What a request says

The tables of CTAP 2.1 sections 6.1 to 6.11, as relations between CBOR values and parameters: which field stands for which parameter,
which fields are required, and what an absent field stands for. Fields that are not mentioned may be present or not. Nothing here
refers to the functions that parse. The types of the parameters and `Value` (with its canonical encoding `enc`, `WF` and `depth`)
are the only things used.
-/
namespace Verif.Ctap
open Verif.Cbor (Value)

/-! ## Fields of a map -/

/-- The entries of a map. -/
abbrev Entries := List (Value × Value)

/-- No entry has this key. -/
def Absent (m : Entries) (k : Value) : Prop := ∀ v, (k, v) ∉ m

/-- The field is present and stands for `a`. -/
def Must (R : Value → α → Prop) (m : Entries) (k : Value) (a : α) : Prop := ∃ v, (k, v) ∈ m ∧ R v a

/-- The field may be absent. -/
def May (R : Value → α → Prop) (m : Entries) (k : Value) (o : Option α) : Prop :=
  (o = none ∧ Absent m k) ∨ ∃ a, o = some a ∧ Must R m k a

/-- The field stands for `d` if it is absent. -/
def Else (d : α) (R : Value → α → Prop) (m : Entries) (k : Value) (a : α) : Prop := (a = d ∧ Absent m k) ∨ Must R m k a

/-- The values stand for the elements, one by one. -/
def Each (R : Value → α → Prop) : List Value → List α → Prop
  | [], [] => True
  | v :: vs, a :: l => R v a ∧ Each R vs l
  | _, _ => False

/-- An array of values that stand for the elements. -/
def ArrayOf (R : Value → α → Prop) (v : Value) (l : List α) : Prop := ∃ vs, v = .array vs ∧ Each R vs l

/-! ## Scalars -/

def SaysBytes (v : Value) (b : Bytes) : Prop := v = .bytes b
def SaysText (v : Value) (b : Bytes) : Prop := v = .text b
def SaysBool (v : Value) (b : Bool) : Prop := v = .simple (if b then .true_ else .false_)
def SaysNat (v : Value) (n : Nat) : Prop := v = .unsigned n
/-- An integer that fits in 64 bits with a sign. -/
def SaysInt (v : Value) (i : Int) : Prop := (∃ n : Nat, n < 2 ^ 63 ∧ i = n ∧ v = .unsigned n) ∨ (v = .negative i)
/-- A field of bits, of which the lowest 8 have a meaning. -/
def SaysBits (v : Value) (b : UInt8) : Prop := ∃ n, v = .unsigned n ∧ b = UInt8.ofNat (n % 256)
/-- A number that fits in a machine word of `w` bits. With `wrap`, larger numbers stand for their remainder. -/
def SaysWord (w : Nat) (wrap : Bool) (v : Value) (n : Nat) : Prop := ∃ k, v = .unsigned k ∧ n = k % 2 ^ w ∧ (wrap = false → k < 2 ^ w)

/-! ## Entities, extensions and options -/

def RpEntity.Says (v : Value) (r : RpEntity) : Prop := ∃ m, v = .map m ∧ Must SaysText m (.text (b! "id")) r.id ∧
  May SaysText m (.text (b! "name")) r.name ∧ May SaysText m (.text (b! "icon")) r.icon

def UserEntity.Says (v : Value) (u : UserEntity) : Prop := ∃ m, v = .map m ∧ Must SaysBytes m (.text (b! "id")) u.id ∧
  May SaysText m (.text (b! "name")) u.name ∧ May SaysText m (.text (b! "displayName")) u.displayName ∧
  May SaysText m (.text (b! "icon")) u.icon

/-- The type of a credential is a string; the one with a meaning is `public-key`. -/
def SaysType (v : Value) (publicKey : Bool) : Prop := ∃ t, v = .text t ∧ (publicKey = true ↔ t = b! "public-key")

/-- An algorithm is an integer; the one with a meaning is ES256, which is -7. -/
def SaysAlg (v : Value) (es256 : Bool) : Prop := ∃ i, SaysInt v i ∧ (es256 = true ↔ i = -7)

def CredParam.Says (v : Value) (c : CredParam) : Prop := ∃ m, v = .map m ∧ Must SaysType m (.text (b! "type")) c.publicKey ∧
  Must SaysAlg m (.text (b! "alg")) c.es256

def Transport.Says (v : Value) : Transport → Prop
  | .usb => v = .text (b! "usb")
  | .nfc => v = .text (b! "nfc")
  | .ble => v = .text (b! "ble")
  | .internal => v = .text (b! "internal")

def Descriptor.Says (v : Value) (d : Descriptor) : Prop := ∃ m, v = .map m ∧ Must SaysType m (.text (b! "type")) d.publicKey ∧
  Must SaysBytes m (.text (b! "id")) d.id ∧ May (ArrayOf Transport.Says) m (.text (b! "transports")) d.transports

def Policy.Says (v : Value) : Policy → Prop
  | .optional => v = .unsigned 1
  | .optionalWithList => v = .unsigned 2
  | .required => v = .unsigned 3

def McExt.Says (v : Value) (e : McExt) : Prop := ∃ m, v = .map m ∧ Else false SaysBool m (.text (b! "hmac-secret")) e.hmacSecret ∧
  May Policy.Says m (.text (b! "credProtect")) e.credProtect ∧ Else false SaysBool m (.text (b! "minPinLength")) e.minPinLength ∧
  May SaysBytes m (.text (b! "credBlob")) e.credBlob ∧ May SaysBool m (.text (b! "largeBlobKey")) e.largeBlobKey ∧ e.largeBlobKey ≠ some false

/-- A key of COSE for the key agreement: an elliptic curve key (kty 2) on P-256 (crv 1) with ECDH-ES+HKDF-256 (alg -25) or, for older
platforms, ES256 (alg -7). -/
def CoseKey.Says (v : Value) (k : CoseKey) : Prop := ∃ m, v = .map m ∧ Must SaysInt m (.unsigned 1) k.kty ∧ Must SaysInt m (.unsigned 3) k.alg ∧
  Must SaysInt m (.negative (-1)) k.crv ∧ Must SaysBytes m (.negative (-2)) k.x ∧ Must SaysBytes m (.negative (-3)) k.y ∧
  k.kty = 2 ∧ (k.alg = -25 ∨ k.alg = -7) ∧ k.crv = 1 ∧ k.x.length = 32 ∧ k.y.length = 32

def Proto.Says (v : Value) : Proto → Prop
  | .v1 => v = .unsigned 1
  | .v2 => v = .unsigned 2

def HmacSecretInput.Says (v : Value) (h : HmacSecretInput) : Prop := ∃ m, v = .map m ∧ Must CoseKey.Says m (.unsigned 1) h.keyAgreement ∧
  Must SaysBytes m (.unsigned 2) h.saltEnc ∧ Must SaysBytes m (.unsigned 3) h.saltAuth ∧ Else .v1 Proto.Says m (.unsigned 4) h.proto

def GaExt.Says (v : Value) (e : GaExt) : Prop := ∃ m, v = .map m ∧ May HmacSecretInput.Says m (.text (b! "hmac-secret")) e.hmacSecret ∧
  Else false SaysBool m (.text (b! "credBlob")) e.credBlob ∧ May SaysBool m (.text (b! "largeBlobKey")) e.largeBlobKey ∧ e.largeBlobKey ≠ some false

/-- A registration needs the user: the option `up` is absent or true. -/
def McOptions.Says (v : Value) (o : McOptions) : Prop := ∃ m, v = .map m ∧ Else false SaysBool m (.text (b! "rk")) o.rk ∧
  Else true SaysBool m (.text (b! "up")) true ∧ Else false SaysBool m (.text (b! "uv")) o.uv

/-- The option `rk` does not exist for assertions. -/
def GaOptions.Says (v : Value) (o : GaOptions) : Prop := ∃ m, v = .map m ∧ Absent m (.text (b! "rk")) ∧
  Else true SaysBool m (.text (b! "up")) o.up ∧ Else false SaysBool m (.text (b! "uv")) o.uv

/-! ## Parameters -/

def McParams.Says (v : Value) (p : McParams) : Prop := ∃ m, v = .map m ∧
  Must SaysBytes m (.unsigned 1) p.clientDataHash ∧ Must RpEntity.Says m (.unsigned 2) p.rp ∧ Must UserEntity.Says m (.unsigned 3) p.user ∧
  Must (ArrayOf CredParam.Says) m (.unsigned 4) p.credParams ∧ May (ArrayOf Descriptor.Says) m (.unsigned 5) p.excludeList ∧
  Else {} McExt.Says m (.unsigned 6) p.ext ∧ Else {} McOptions.Says m (.unsigned 7) p.options ∧
  May SaysBytes m (.unsigned 8) p.authParam ∧ May Proto.Says m (.unsigned 9) p.authProto ∧ May SaysNat m (.unsigned 10) p.enterprise

def GaParams.Says (v : Value) (p : GaParams) : Prop := ∃ m, v = .map m ∧
  Must SaysText m (.unsigned 1) p.rpId ∧ Must SaysBytes m (.unsigned 2) p.clientDataHash ∧
  May (ArrayOf Descriptor.Says) m (.unsigned 3) p.allowList ∧ Else {} GaExt.Says m (.unsigned 4) p.ext ∧
  Else {} GaOptions.Says m (.unsigned 5) p.options ∧ May SaysBytes m (.unsigned 6) p.authParam ∧ May Proto.Says m (.unsigned 7) p.authProto

def PinSub.number : PinSub → Nat
  | .getPinRetries => 1 | .getKeyAgreement => 2 | .setPin => 3 | .changePin => 4 | .getPinToken => 5 | .getUvTokenUsingUv => 6
  | .getUvRetries => 7 | .getPinTokenWithPermissions => 9

def PinParams.Says (v : Value) (p : PinParams) : Prop := ∃ m, v = .map m ∧
  Must Proto.Says m (.unsigned 1) p.proto ∧ Must (fun v s => SaysNat v (PinSub.number s)) m (.unsigned 2) p.sub ∧
  May CoseKey.Says m (.unsigned 3) p.keyAgreement ∧ May SaysBytes m (.unsigned 4) p.authParam ∧ May SaysBytes m (.unsigned 5) p.newPinEnc ∧
  May SaysBytes m (.unsigned 6) p.pinHashEnc ∧ May SaysBits m (.unsigned 9) p.permissions ∧ May SaysText m (.unsigned 10) p.permissionsRpId

/-- A request for large blobs reads or writes, not both. Reading needs no authorization, and the total length is given with the
first fragment that is written, only. It is at least the size of the empty array with its checksum. -/
structure LbParams.Consistent (p : LbParams) : Prop where
  one : p.get.isSome ↔ p.set.isNone
  reads : p.get.isSome → p.length = none ∧ p.authParam = none ∧ p.authProto = none
  first : p.set.isSome → p.offset = 0 → ∃ n, p.length = some n ∧ 17 ≤ n
  later : p.set.isSome → p.offset ≠ 0 → p.length = none

def LbParams.Says (w : Nat) (wrap : Bool) (v : Value) (p : LbParams) : Prop := p.Consistent ∧ ∃ m, v = .map m ∧
  May (SaysWord w wrap) m (.unsigned 1) p.get ∧ May SaysBytes m (.unsigned 2) p.set ∧ Must (SaysWord w wrap) m (.unsigned 3) p.offset ∧
  May (SaysWord w wrap) m (.unsigned 4) p.length ∧ May SaysBytes m (.unsigned 5) p.authParam ∧ May Proto.Says m (.unsigned 6) p.authProto

def ConfigSub.number : ConfigSub → Nat
  | .enableEp => 1 | .toggleAlwaysUv => 2 | .setMinPinLength => 3 | .vendorPrototype => 255

def MinPinParams.Says (v : Value) (p : MinPinParams) : Prop := (∀ n, p.newLength = some n → n < 256) ∧ ∃ m, v = .map m ∧
  May SaysNat m (.unsigned 1) p.newLength ∧ May (ArrayOf SaysText) m (.unsigned 2) p.rpIds ∧ May SaysBool m (.unsigned 3) p.forceChange

/-- Only `setMinPINLength` has parameters. -/
def ConfigParams.Says (v : Value) (p : ConfigParams) : Prop := ∃ m, v = .map m ∧
  Must (fun v s => SaysNat v (ConfigSub.number s)) m (.unsigned 1) p.sub ∧
  (p.sub = .setMinPinLength → ∃ q, p.params = some q ∧ Must MinPinParams.Says m (.unsigned 2) q) ∧
  (p.sub ≠ .setMinPinLength → p.params = none) ∧
  May Proto.Says m (.unsigned 3) p.authProto ∧ May SaysBytes m (.unsigned 4) p.authParam

def CmSub.number : CmSub → Nat
  | .metadata => 1 | .rpsBegin => 2 | .rpsNext => 3 | .credsBegin => 4 | .credsNext => 5 | .delete => 6 | .update => 7

def CmSubParams.Says (v : Value) (p : CmSubParams) : Prop := ∃ m, v = .map m ∧
  May SaysBytes m (.unsigned 1) p.rpIdHash ∧ May Descriptor.Says m (.unsigned 2) p.credentialId ∧ May UserEntity.Says m (.unsigned 3) p.user

def CmParams.Says (v : Value) (p : CmParams) : Prop := ∃ m, v = .map m ∧
  Must (fun v s => SaysNat v (CmSub.number s)) m (.unsigned 1) p.sub ∧ May CmSubParams.Says m (.unsigned 2) p.params ∧
  May Proto.Says m (.unsigned 3) p.authProto ∧ May SaysBytes m (.unsigned 4) p.authParam

/-! ## Messages -/

/-- The commands without parameters, by their first byte. What follows it is not read. -/
def Command.Bare (c : UInt8) : Command → Prop
  | .getInfo => c = 0x04
  | .reset => c = 0x07
  | .getNextAssertion => c = 0x08
  | .selection => c = 0x0B
  | _ => False

/-- The commands with parameters, by the first byte and the value that follows it. -/
def Command.Carries (w : Nat) (wrap : Bool) (c : UInt8) (v : Value) : Command → Prop
  | .makeCredential p => c = 0x01 ∧ McParams.Says v p
  | .getAssertion p => c = 0x02 ∧ GaParams.Says v p
  | .clientPin p => c = 0x06 ∧ PinParams.Says v p
  | .credMgmt p => (c = 0x0A ∨ c = 0x41) ∧ CmParams.Says v p
  | .largeBlobs p => c = 0x0C ∧ LbParams.Says w wrap v p
  | .config p => c = 0x0D ∧ ConfigParams.Says v p
  | _ => False

/-- A value that a message can contain: its strings and numbers fit in the types of a target with `w`-bit words, and it is nested at
most four deep. -/
def Sendable (w : Nat) (v : Value) : Prop := v.WF w ∧ v.depth ≤ 4

/-- The message says the command: its first byte is that of the command, and the canonical encoding of the parameters follows. -/
def Command.Says (w : Nat) (msg : Bytes) (cmd : Command) : Prop :=
  ∃ c rest, msg = c :: rest ∧ (cmd.Bare c ∨ ∃ v, Sendable w v ∧ rest = v.enc ∧ cmd.Carries w false c v)


/-! ## Requests that can be made -/

/-- A byte string of the type. -/
def IsBytes (w : Nat) (b : Bytes) : Prop := b.length < 2 ^ w
/-- A string of the type: its bytes are UTF-8. -/
def IsText (w : Nat) (b : Bytes) : Prop := b.length < 2 ^ w ∧ ∃ cs : List Nat, (∀ c ∈ cs, Utf8.IsScalar c) ∧ b = cs.flatMap Utf8.encodeChar
/-- A parameter that may be absent. -/
def IsOpt (P : α → Prop) (o : Option α) : Prop := ∀ a, o = some a → P a
/-- A list of parameters. -/
def IsList (P : α → Prop) (l : List α) : Prop := l.length < 2 ^ 64 ∧ ∀ a ∈ l, P a

def RpEntity.Typed (w : Nat) (r : RpEntity) : Prop := IsText w r.id ∧ IsOpt (IsText w) r.name ∧ IsOpt (IsText w) r.icon
def UserEntity.Typed (w : Nat) (u : UserEntity) : Prop :=
  IsBytes w u.id ∧ IsOpt (IsText w) u.name ∧ IsOpt (IsText w) u.displayName ∧ IsOpt (IsText w) u.icon
def Descriptor.Typed (w : Nat) (d : Descriptor) : Prop := IsBytes w d.id ∧ IsOpt (fun l => l.length < 2 ^ 64) d.transports
def McExt.Typed (w : Nat) (e : McExt) : Prop := IsOpt (IsBytes w) e.credBlob ∧ e.largeBlobKey ≠ some false
def CoseKey.Typed (k : CoseKey) : Prop := k.kty = 2 ∧ (k.alg = -25 ∨ k.alg = -7) ∧ k.crv = 1 ∧ k.x.length = 32 ∧ k.y.length = 32
def HmacSecretInput.Typed (w : Nat) (h : HmacSecretInput) : Prop := h.keyAgreement.Typed ∧ IsBytes w h.saltEnc ∧ IsBytes w h.saltAuth
def GaExt.Typed (w : Nat) (e : GaExt) : Prop := IsOpt (HmacSecretInput.Typed w) e.hmacSecret ∧ e.largeBlobKey ≠ some false
def McParams.Typed (w : Nat) (p : McParams) : Prop := IsBytes w p.clientDataHash ∧ p.rp.Typed w ∧ p.user.Typed w ∧
  p.credParams.length < 2 ^ 64 ∧ IsOpt (IsList (Descriptor.Typed w)) p.excludeList ∧ p.ext.Typed w ∧ IsOpt (IsBytes w) p.authParam ∧
  IsOpt (· < 2 ^ 64) p.enterprise
def GaParams.Typed (w : Nat) (p : GaParams) : Prop := IsText w p.rpId ∧ IsBytes w p.clientDataHash ∧
  IsOpt (IsList (Descriptor.Typed w)) p.allowList ∧ p.ext.Typed w ∧ IsOpt (IsBytes w) p.authParam
def PinParams.Typed (w : Nat) (p : PinParams) : Prop := IsOpt CoseKey.Typed p.keyAgreement ∧ IsOpt (IsBytes w) p.authParam ∧
  IsOpt (IsBytes w) p.newPinEnc ∧ IsOpt (IsBytes w) p.pinHashEnc ∧ IsOpt (IsText w) p.permissionsRpId
def LbParams.Typed (w : Nat) (p : LbParams) : Prop := p.Consistent ∧ IsOpt (· < 2 ^ w) p.get ∧ IsOpt (IsBytes w) p.set ∧ p.offset < 2 ^ w ∧
  IsOpt (· < 2 ^ w) p.length ∧ IsOpt (IsBytes w) p.authParam
def MinPinParams.Typed (w : Nat) (p : MinPinParams) : Prop := IsOpt (· < 256) p.newLength ∧ IsOpt (IsList (IsText w)) p.rpIds
def ConfigParams.Typed (w : Nat) (p : ConfigParams) : Prop := (p.params.isSome ↔ p.sub = .setMinPinLength) ∧
  IsOpt (MinPinParams.Typed w) p.params ∧ IsOpt (IsBytes w) p.authParam
def CmSubParams.Typed (w : Nat) (p : CmSubParams) : Prop := IsOpt (IsBytes w) p.rpIdHash ∧ IsOpt (Descriptor.Typed w) p.credentialId ∧
  IsOpt (UserEntity.Typed w) p.user
def CmParams.Typed (w : Nat) (p : CmParams) : Prop := IsOpt (CmSubParams.Typed w) p.params ∧ IsOpt (IsBytes w) p.authParam

/-- The commands that can be asked for: their parameters have the types and ranges of the format. -/
def Command.Typed (w : Nat) : Command → Prop
  | .makeCredential p => p.Typed w
  | .getAssertion p => p.Typed w
  | .clientPin p => p.Typed w
  | .credMgmt p => p.Typed w
  | .largeBlobs p => p.Typed w
  | .config p => p.Typed w
  | _ => True

end Verif.Ctap
