import Verif.Ctap.SessionLemmas

/-!
# Specification of the flags in authenticator data, of authenticated requests, and of enumerations
-/
namespace Verif.Ctap

/-- The flag byte of authenticator data (WebAuthn, section 6.1: relying party id hash, flags, counter). -/
def flagsIn (authData : Bytes) : UInt8 := authData.getD 32 0

/-- The flag "user present". -/
def UserPresent (authData : Bytes) : Prop := flagsIn authData &&& 0x01 ≠ 0

/-- The flag "user verified". -/
def UserVerified (authData : Bytes) : Prop := flagsIn authData &&& 0x04 ≠ 0

variable [Dev]

/-- In the state `s`, the request with this token authentication of the message `msg` is authenticated: the tag is the one
under the current token of the protocol; this token was issued at most 30 s ago, with the permission `perm`, and for the
relying party `rp` if it was issued for one; no request used up this permission since. -/
structure VerifiedFor (perm : UInt8) (rp msg : Bytes) (proto : Option Proto) (param : Option Bytes) (s : St) : Prop where
  tag : ∃ pr p, proto = some pr ∧ param = some p ∧ p = PinSpec.tag pr (s.v.pin.proto pr).token msg
  issued : ∃ new t perms r, LastIssued s.log new t perms r ∧ s.env.now < t + 30000 ∧ perm &&& perms ≠ 0 ∧
    .tokenConsumed ∉ new ∧ ∀ x, r = some x → x = rp
  bound : s.v.pin.tok.rpId = none ∨ s.v.pin.tok.rpId = some rp

end Verif.Ctap
