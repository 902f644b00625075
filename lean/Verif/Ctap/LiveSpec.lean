import Verif.Ctap.NameSpec
import Verif.Ctap.TokenSpec
import Verif.Ctap.Inversion

/-!
# Specification: an honest platform, a user who cooperates, and an environment where nothing fails
-/
namespace Verif.Ctap

/-- Nothing fails: the power stays on, the store can be read, and it accepts every write. -/
structure Oracle.Calm (o : Oracle) : Prop where
  cut : ∀ k, o.cut k = false
  read : ∀ k, o.rfail k = none
  write : ∀ k, o.wfail k = none

/-- The user touches the device before the timeout whenever it asks: at most 300 waits of 100 ms end without an answer, and
the keepalive messages in between are sent. -/
def Oracle.Confirms (o : Oracle) : Prop :=
  ∀ k, ∃ n, n ≤ 300 ∧ o.wait (k + 2 * n) = .touched ∧ ∀ m, m < n → o.wait (k + 2 * m) = .timeout ∧ o.keep (k + 2 * m + 1) = .ok

variable [Dev]

/-- A key agreement key in the form that the device accepts. -/
structure CoseKey.IsEcdh (k : CoseKey) : Prop where
  alg : k.alg = -25 ∨ k.alg = -7
  kty : k.kty = 2
  crv : k.crv = 1

/-- A token is valid on the device, for a request with this permission and relying party. -/
structure St.TokenValid (s : St) (perm : UInt8) (rp : Bytes) : Prop where
  pinSet : s.p.pin.isSome
  inUse : s.v.pin.tok.inUse = true
  verified : s.v.pin.tok.userVerified = true
  running : Hid.Timer.isElapsed s.v.pin.tok.timer s.env.now = false
  perm : perm &&& s.v.pin.tok.permissions ≠ 0
  rpId : s.v.pin.tok.rpId = none ∨ s.v.pin.tok.rpId = some rp

/-- The request comes with the tag of its client data hash under the token of the device, or without any. -/
def St.Entitles (s : St) (perm : UInt8) (rp cdh : Bytes) (proto : Option Proto) (param : Option Bytes) : Prop :=
  match param with
  | none => True
  | some t => ∃ pr, proto = some pr ∧ t = PinSpec.tag pr (s.v.pin.proto pr).token cdh ∧ s.TokenValid perm rp

/-- The input of the hmac-secret extension as an honest platform computes it. -/
def HmacSecretInput.Honest (c : ClientPin) (h : HmacSecretInput) : Prop :=
  h.keyAgreement.IsEcdh ∧ ∃ z salts, Dev.ecdh (c.proto h.proto).sk h.keyAgreement.x h.keyAgreement.y = some z ∧
    h.saltAuth = PinSpec.tag h.proto (PinSpec.macKey h.proto z) h.saltEnc ∧
    PinSpec.decrypt h.proto z h.saltEnc = some salts ∧ (salts.length = 32 ∨ salts.length = 64)

/-- The device holds a credential with this private key and policy under this id for this relying party: stored, or sealed in
the id. -/
def St.Has (s : St) (rp id sk : Bytes) (policy : Option Policy) : Prop :=
  (∃ c, NamesStored s.stored rp id c ∧ c.sk = sk ∧ c.policy = policy) ∨
  ∃ mk w, s.p.master = some mk ∧ Opens mk id (Dev.sha256 rp) w ∧ w.sk = sk ∧ w.policy = policy

/-- The id is no accident and no forgery: at most one stored credential has it, and if it carries a valid tag of this device, it is
a sealed credential of this device. -/
def St.Proper (s : St) (id : Bytes) : Prop :=
  (s.stored.filter fun c => c.id == id).length ≤ 1 ∧ ∀ mk, s.p.master = some mk → Tagged mk id → ∃ w h, Opens mk id h w

/-- The private key can sign. -/
def CanSign (sk : Bytes) : Prop := ∀ m, (Dev.ecdsaSign sk m).isSome

/-- What the device sends for a response: success and the encoding. -/
def Response.SentAs (r : Response) (b : Bytes) : Prop :=
  match r.toCbor with
  | none => False
  | some none => b = [0x00]
  | some (some v) => ∃ e, v.write (some 4) = .ok e ∧ b = 0x00 :: e

end Verif.Ctap
