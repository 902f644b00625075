import Verif.Ctap.Step
import Verif.Ctap.PinSpec

/-!
# Specification of the rights of a PIN/UV auth token
-/
namespace Verif.Ctap

/-- A power-up or the issue of a token. -/
def Ev.isBootOrIssued : Ev → Bool
  | .boot _ => true
  | .tokenIssued _ _ _ => true
  | _ => false

variable [Dev]

/-- The permission bit that the token of a request needs, if it needs one (CTAP 2.1, section 6.5.5.7): 1
registration, 2 assertion, 4 credential management, 16 large blob write, 32 configuration.  Large blobs and configuration
can be written without token while no PIN is set and always-UV is off; always-UV can be toggled without token while no PIN
is set. -/
def Command.neededPermission (p : Persist) : Command → Option UInt8
  | .makeCredential a => if a.authParam.isSome then some 1 else none
  | .getAssertion a => if a.authParam.isSome then some 2 else none
  | .credMgmt a => if a.sub = .rpsNext ∨ a.sub = .credsNext then none else some 4
  | .largeBlobs a =>
    if a.get = none ∧ (p.pin.isSome ∨ Dev.enforceAlwaysUv ∨ p.alwaysUv) then some 16 else none
  | .config a =>
    if p.pin.isSome ∨ (a.sub ≠ .toggleAlwaysUv ∧ (Dev.enforceAlwaysUv ∨ p.alwaysUv)) then some 32 else none
  | _ => none

/-- The token authentication in a request. -/
def Command.auth : Command → Option (Option Proto × Option Bytes)
  | .makeCredential a => some (a.authProto, a.authParam)
  | .getAssertion a => some (a.authProto, a.authParam)
  | .credMgmt a => some (a.authProto, a.authParam)
  | .largeBlobs a => some (a.authProto, a.authParam)
  | .config a => some (a.authProto, a.authParam)
  | _ => none

/-- The last token was issued at `t` with permissions `perms` for `rp`, the device has been running since, and the events
`new` happened since. -/
def LastIssued (log new : List Ev) (t : Nat) (perms : UInt8) (rp : Option Bytes) : Prop :=
  (∀ e ∈ new, e.isBootOrIssued = false) ∧ ∃ old, log = new ++ .tokenIssued t perms rp :: old

/-- The request is a registration or assertion, authenticated by a token, for the relying party. -/
def Command.isFor : Command → Bytes → Prop
  | .makeCredential a, r => a.authParam.isSome ∧ a.rp.id = r
  | .getAssertion a, r => a.authParam.isSome ∧ a.rpId = r
  | _, _ => False

/-- What a token bound to the relying party `r` can do: registrations and assertions with it are for `r`; credential
management with it changes only credentials of `r`, and gives only information about `r`. -/
def Command.respects (r : Bytes) (s s' : St) : Command → Prop
  | .makeCredential a => a.authParam.isSome → a.rp.id = r
  | .getAssertion a => a.authParam.isSome → a.rpId = r
  | .credMgmt a =>
    match a.sub with
    | .metadata => False
    | .rpsBegin => False
    | .rpsNext => True
    | .credsNext => True
    | .credsBegin => ∃ p, a.params = some p ∧ p.rpIdHash = some (Dev.sha256 r)
    | .delete => ∃ e ∈ s.p.creds, e.2.rpId = r ∧ s'.p.creds = s.p.creds.filter fun x => decide (x ≠ e)
    | .update => ∃ e ∈ s.p.creds, e.2.rpId = r ∧ ∃ c : Cred, c.rpId = r ∧ c.userHandle = e.2.userHandle ∧
        s'.p.creds = (e.1, c) :: s.p.creds.filter fun x => decide (x ≠ e)
  | _ => True

end Verif.Ctap
