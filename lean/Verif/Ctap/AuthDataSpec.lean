import Verif.Ctap.AnswerSpec
import Verif.Ctap.NameSpec
import Verif.Ctap.CredSpec
import Verif.Ctap.PinSpec

/-!
# Authenticator data (WebAuthn sections 6.1 and 6.5.1)

Nothing here refers to the functions that build the data.
-/
namespace Verif.Ctap
open Verif.Cbor (Value beBytes)

/-- Attested credential data: AAGUID, id, public key. -/
structure AttestedCredential where
  aaguid : Bytes
  id : Bytes
  key : Value

/-- The contents of authenticator data. -/
structure AuthData where
  rpIdHash : Bytes
  up : Bool
  uv : Bool
  counter : Nat
  credential : Option AttestedCredential
  extensions : Option Value

/-- The fields have the sizes that they have on the wire; keys and extensions are well-formed CBOR. -/
structure AuthData.Ok (d : AuthData) : Prop where
  hash : d.rpIdHash.length = 32
  counter : d.counter < 2 ^ 32
  aaguid : ∀ c, d.credential = some c → c.aaguid.length = 16
  id : ∀ c, d.credential = some c → c.id.length < 2 ^ 16
  key : ∀ c, d.credential = some c → c.key.WF 64
  extensions : ∀ v, d.extensions = some v → v.WF 64

/-- The flags: bit 0 "user present", bit 2 "user verified", bit 6 "attested credential data included", bit 7 "extension data
included"; the other bits are reserved and zero. -/
def AuthData.flags (d : AuthData) : UInt8 :=
  UInt8.ofNat (d.up.toNat + 4 * d.uv.toNat + 64 * d.credential.isSome.toNat + 128 * d.extensions.isSome.toNat)

/-- AAGUID (16 bytes), length of the id (2 bytes), id, public key. -/
def AttestedCredential.bytes (c : AttestedCredential) : Bytes := c.aaguid ++ beBytes 2 c.id.length ++ c.id ++ c.key.enc

/-- Hash of the relying party id (32 bytes), flags (1 byte), counter (4 bytes), attested credential data, extensions. -/
def AuthData.bytes (d : AuthData) : Bytes :=
  d.rpIdHash ++ [d.flags] ++ beBytes 4 d.counter ++ (d.credential.map AttestedCredential.bytes).getD [] ++
    (d.extensions.map Value.enc).getD []

/-- The outputs of the extensions of a registration (CTAP 2.1 section 12): whether the blob was stored, the protection of the
credential, whether there will be secrets, the minimum length of the PIN. -/
structure McOutputs where
  credBlob : Option Bool
  credProtect : Option Policy
  hmacSecret : Option Bool
  minPinLength : Option Nat
deriving DecidableEq

def McOutputs.Says (v : Value) (o : McOutputs) : Prop := ∃ m, v = .map m ∧
  May SaysBool m (.text (b! "credBlob")) o.credBlob ∧ May Policy.Says m (.text (b! "credProtect")) o.credProtect ∧
  May SaysBool m (.text (b! "hmac-secret")) o.hmacSecret ∧ May SaysNat m (.text (b! "minPinLength")) o.minPinLength ∧
  OnlyKeys m [.text (b! "credBlob"), .text (b! "credProtect"), .text (b! "hmac-secret"), .text (b! "minPinLength")]

/-- The outputs of the extensions of an assertion: the blob, and the encrypted secrets. -/
structure GaOutputs where
  credBlob : Option Bytes
  hmacSecret : Option Bytes
deriving DecidableEq

def GaOutputs.Says (v : Value) (o : GaOutputs) : Prop := ∃ m, v = .map m ∧
  May SaysBytes m (.text (b! "credBlob")) o.credBlob ∧ May SaysBytes m (.text (b! "hmac-secret")) o.hmacSecret ∧
  OnlyKeys m [.text (b! "credBlob"), .text (b! "hmac-secret")]

/-- The authenticator data has the outputs, or no extensions if there are none. -/
def McOutputs.In (o : McOutputs) (d : AuthData) : Prop :=
  if o = ⟨none, none, none, none⟩ then d.extensions = none else ∃ v, d.extensions = some v ∧ McOutputs.Says v o
def GaOutputs.In (o : GaOutputs) (d : AuthData) : Prop :=
  if o = ⟨none, none⟩ then d.extensions = none else ∃ v, d.extensions = some v ∧ GaOutputs.Says v o

variable [Dev]

/-- The public key, as it is in attested credential data, belongs to this private key. -/
def KeyShown (key : Value) (sk : Bytes) : Prop :=
  ∃ x y, Dev.ecdsaPub sk = some (x, y) ∧ CoseKey.Shows key { x := x, y := y, alg := -7, kty := 2, crv := 1 }

/-- What the answer `m` to the registration `a` says, if it leads to the state `s`. The credential has the private key `sk`, the
protection `policy` and the blob `blob`. -/
structure RegisteredAs (a : McParams) (m : McResponse) (s : St) (d : AuthData) (c : AttestedCredential) (sk : Bytes)
    (policy : Option Policy) (blob : Option Bytes) : Prop where
  ok : d.Ok
  bytes : m.authData = d.bytes
  rp : d.rpIdHash = Dev.sha256 a.rp.id
  present : d.up = true
  verified : d.uv = a.authParam.isSome
  counter : d.counter = s.p.counter.getD 1 % 2 ^ 32
  credential : d.credential = some c
  aaguid : c.aaguid = Dev.aaguid
  key : KeyShown c.key sk
  /-- Discoverable credentials are stored, with the user and the large blob key. -/
  stored : a.options.rk = true → ∃ x ∈ s.stored, x.rpId = a.rp.id ∧ x.id = c.id ∧ x.sk = sk ∧ x.policy = policy ∧ x.credBlob = blob ∧
    x.userHandle = a.user.id ∧ x.largeBlobKey = m.largeBlobKey
  /-- The others are in their id. -/
  wrapped : a.options.rk = false → ∃ mk w, s.p.master = some mk ∧ Opens mk c.id (Dev.sha256 a.rp.id) w ∧ w.sk = sk ∧ w.policy = policy ∧ w.credBlob = blob
  /-- The master keys exist. -/
  master : s.p.master.isSome = true
  largeBlobKey : m.largeBlobKey.isSome = true ↔ a.options.rk = true ∧ a.ext.largeBlobKey = some true
  /-- The protection is the one of the request, but at least the default of the device. -/
  protection : (policy.getD .optional).toNat = max (a.ext.credProtect.getD .optional).toNat (Dev.defaultCredProtect.getD .optional).toNat
  /-- The blob is the one of the request, unless it is too long. -/
  blobStored : blob = a.ext.credBlob ∧ (blob.getD []).length ≤ Dev.maxCredBlobLength ∨
    blob = none ∧ Dev.maxCredBlobLength < (a.ext.credBlob.getD []).length
  /-- Each extension is answered if and only if it is in the request; the one for the length of the PIN only to relying
  parties that may know it. -/
  outputs : McOutputs.In
    { credBlob := if a.ext.credBlob.isSome then some blob.isSome else none
      credProtect := if a.ext.credProtect.isSome then policy else none
      hmacSecret := if a.ext.hmacSecret then some true else none
      minPinLength := if a.ext.minPinLength = true ∧ a.rp.id ∈ s.p.minPinRpIds.getD Dev.defaultMinPinRpIds then some s.p.minPin else none } d
  /-- The signature is with the key of the credential, or with the attestation key that belongs to the certificate. -/
  signature : m.x5c = none ∧ Dev.ecdsaSign sk (m.authData ++ a.clientDataHash) = some m.sig ∨
    ∃ att, s.p.attestation = some att ∧ m.x5c = some att.certificate ∧ Dev.ecdsaSign att.sk (m.authData ++ a.clientDataHash) = some m.sig

/-- The secrets of the extension hmac-secret (CTAP 2.1 section 12.5) for one or two salts of 32 bytes. -/
def hmacSecrets (random salts : Bytes) : Bytes :=
  if salts.length = 64 then Dev.hmac random (salts.take 32) ++ Dev.hmac random (salts.drop 32) else Dev.hmac random salts

/-- From a private key and the master keys, the value from which the secrets are computed; there is one for verified users,
and another one. -/
def credRandomOf (mk sk : Bytes) (verified : Bool) : Bytes :=
  Dev.hkdf ((mk.drop (if verified then 96 else 64)).take 32) sk (b! "credRandom")

/-- `out` contains the secrets for the salts in the request `i`. Both are encrypted with the secret `z` that platform and
authenticator share, and the salts are authenticated with it. -/
def SecretsFor (p : ClientPin) (random : Bytes) (i : HmacSecretInput) (out : Bytes) : Prop :=
  ∃ z salts, Dev.ecdh (p.proto i.proto).sk i.keyAgreement.x i.keyAgreement.y = some z ∧
    i.saltAuth = PinSpec.tag i.proto (PinSpec.macKey i.proto z) i.saltEnc ∧ PinSpec.decrypt i.proto z i.saltEnc = some salts ∧
    (salts.length = 32 ∨ salts.length = 64) ∧ PinSpec.decrypt i.proto z out = some (hmacSecrets random salts)

/-- The user of a credential, in an assertion: credentials that are not stored have none; names are shown to verified users only. -/
def UserShown (c : Cred) (verified : Bool) (u : Option UserEntity) : Prop :=
  c.userHandle = [] ∧ u = none ∨
  c.userHandle ≠ [] ∧ ∃ x, u = some x ∧ x.id = c.userHandle ∧
    (verified = true → x.name = c.userName ∧ x.displayName = c.userDisplayName ∧ x.icon = c.userIcon) ∧
    (verified = false → x.name = none ∧ x.displayName = none ∧ x.icon = none)

/-- The device has the credential `c` for this relying party: it is stored, or its id contains it. In the latter case, neither a
user nor a large blob key belongs to it. -/
def St.HasCred (s : St) (rp : Bytes) (c : Cred) : Prop :=
  (c ∈ s.stored ∧ c.rpId = rp) ∨
  ∃ mk w, s.p.master = some mk ∧ Opens mk c.id (Dev.sha256 rp) w ∧ c.sk = w.sk ∧ c.policy = w.policy ∧ c.credBlob = w.credBlob ∧
    c.userHandle = [] ∧ c.largeBlobKey = none

/-- What the assertion `g` of the credential `c` says, if it answers the request `a` when the key agreement keys are those of `p`, and leads
to the state `s`. -/
structure AssertedAs (a : GaParams) (c : Cred) (g : GaResponse) (p : ClientPin) (s : St) (d : AuthData) (out : Option Bytes) : Prop where
  ok : d.Ok
  bytes : g.authData = d.bytes
  rp : d.rpIdHash = Dev.sha256 a.rpId
  present : d.up = a.options.up
  verified : d.uv = a.authParam.isSome
  credential : d.credential = none
  /-- Each extension is answered if and only if it is in the request. -/
  outputs : GaOutputs.In { credBlob := if a.ext.credBlob then some (c.credBlob.getD []) else none, hmacSecret := out } d
  secrets : out.isSome = a.ext.hmacSecret.isSome ∧ ∀ i x, a.ext.hmacSecret = some i → out = some x →
    ∃ mk, s.p.master = some mk ∧ SecretsFor p (credRandomOf mk c.sk a.authParam.isSome) i x
  id : g.credential = { id := c.id }
  user : UserShown c a.authParam.isSome g.user
  largeBlobKey : g.largeBlobKey = if a.ext.largeBlobKey = some true then c.largeBlobKey else none
  signature : Dev.ecdsaSign c.sk (g.authData ++ a.clientDataHash) = some g.signature
  has : s.HasCred a.rpId c
  listed : ∀ l, a.allowList = some l → ∃ x ∈ l, x.id = c.id

end Verif.Ctap
