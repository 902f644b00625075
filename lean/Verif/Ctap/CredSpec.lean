import Verif.Ctap.Step

/-!
# Specification of the set of stored credentials
-/
namespace Verif.Ctap

/-- The stored credentials. -/
def St.stored (s : St) : List Cred := s.p.creds.map (·.2)

/-- The credential belongs to this account. -/
def Cred.isFor (c : Cred) (rp user : Bytes) : Bool := c.rpId == rp && c.userHandle == user

/-- `after` is `before` with the credentials of an account replaced by one new credential. -/
def Replaced (rp user : Bytes) (new : Cred) (before after : List Cred) : Prop :=
  new.isFor rp user = true ∧ after = new :: before.filter fun c => !c.isFor rp user

/-- The credential id in the authenticator data of a registration (WebAuthn, section 6.5.1): after the hash of the
relying party (32 bytes), flags (1), counter (4) and AAGUID (16) comes the length (2), then the id. -/
def credentialIdIn (authData : Bytes) : Bytes :=
  (authData.drop 55).take (Verif.Cbor.beNat ((authData.drop 53).take 2))

end Verif.Ctap
