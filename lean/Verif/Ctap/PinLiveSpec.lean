import Verif.Ctap.LiveSpec
import Verif.Utf8

/-!
# Specification: honest use of the PIN
-/
namespace Verif.Ctap
variable [Dev]

/-- The platform, with the key agreement key `k`, and the device share the secret `z`. -/
structure ClientPin.Agrees (c : ClientPin) (pr : Proto) (k : CoseKey) (z : Bytes) : Prop where
  key : k.IsEcdh
  secret : Dev.ecdh (c.proto pr).sk k.x k.y = some z

/-- The first 16 bytes of the hash of a PIN. -/
def PinSpec.hash (pin : Bytes) : Bytes := (Dev.sha256 pin).take 16

/-- A PIN, padded with zeros to 64 bytes. -/
def PinSpec.padded (pin : Bytes) : Bytes := pin ++ List.replicate (64 - pin.length) 0

/-- The PIN of the device is `pin`. -/
def St.PinIs (s : St) (pin : Bytes) : Prop := ∃ len, s.p.pin = some (PinSpec.hash pin, len)

/-- The PIN of the device is `pin`, and it may be entered now: attempts are left, also since power-up, and it need not be changed. -/
structure St.Accepts (s : St) (pin : Bytes) : Prop where
  pin : s.PinIs pin
  retries : s.p.retries ≠ 0
  attempts : s.v.pin.mismatches < 3
  current : s.p.forcePinChange = false

/-- A PIN that may be set: a text without zeros, of at most 63 bytes and at least the minimum number of characters. -/
structure St.MaySet (s : St) (pin : Bytes) : Prop where
  nozero : (0 : UInt8) ∉ pin
  short : pin.length ≤ 63
  long : ∃ cs, Verif.Utf8.decode pin = some cs ∧ s.p.minPin ≤ cs.length

/-- The request to set the PIN `pin`, as an honest platform computes it. -/
structure PinParams.Sets (a : PinParams) (c : ClientPin) (pin : Bytes) : Prop where
  sub : a.sub = .setPin
  out : ∃ k z enc, a.keyAgreement = some k ∧ c.Agrees a.proto k z ∧ a.newPinEnc = some enc ∧
    PinSpec.decrypt a.proto z enc = some (PinSpec.padded pin) ∧
    a.authParam = some (PinSpec.tag a.proto (PinSpec.macKey a.proto z) enc)

/-- The request to change the PIN from `old` to `pin`, as an honest platform computes it. -/
structure PinParams.Changes (a : PinParams) (c : ClientPin) (old pin : Bytes) : Prop where
  sub : a.sub = .changePin
  out : ∃ k z enc phe, a.keyAgreement = some k ∧ c.Agrees a.proto k z ∧ a.newPinEnc = some enc ∧
    PinSpec.decrypt a.proto z enc = some (PinSpec.padded pin) ∧
    a.pinHashEnc = some phe ∧ PinSpec.decrypt a.proto z phe = some (PinSpec.hash old) ∧
    a.authParam = some (PinSpec.tag a.proto (PinSpec.macKey a.proto z) (enc ++ phe))

/-- The request for a token with these permissions for this relying party, as an honest platform with the shared secret `z` computes
it. The old subcommand gives the permissions for registrations and assertions. -/
structure PinParams.Asks (a : PinParams) (c : ClientPin) (pin z : Bytes) (perms : UInt8) (rp : Option Bytes) : Prop where
  sub : a.sub = .getPinToken ∧ a.permissions = none ∧ a.permissionsRpId = none ∧ perms = 0x03 ∧ rp = none ∨
    a.sub = .getPinTokenWithPermissions ∧ a.permissions = some perms ∧ a.permissionsRpId = rp ∧ perms ≠ 0 ∧
      (perms &&& 0x03 ≠ 0 → rp ≠ none)
  out : ∃ k phe, a.keyAgreement = some k ∧ c.Agrees a.proto k z ∧
    a.pinHashEnc = some phe ∧ PinSpec.decrypt a.proto z phe = some (PinSpec.hash pin)

/-- The requests that concern the PIN, and the reset. -/
def Command.concernsPin : Command → Prop
  | .reset => True
  | .config _ => True
  | .clientPin a => a.sub ≠ .getPinRetries ∧ a.sub ≠ .getKeyAgreement
  | _ => False

end Verif.Ctap
