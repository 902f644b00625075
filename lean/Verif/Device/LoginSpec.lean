import Verif.Device.Spec
import Verif.Ctap.AuthDataSpec

/-!
# What a relying party reads in the answers

The bytes of an answer, read with the tables of CTAP 2.1 (`Response.SaidBy`) and the layout of authenticator data
(`AuthData.bytes`), and then with FIPS 180-4 and 186-4 only.
-/
namespace Verif.Device
open Verif.Ctap
open Verif.P256.Spec (coords number)
open Verif.Crypto.Sha (SHA256)
section
variable [Dev]

/-- The answer `ans` to the registration `a` is the one for a new credential with the id `id` and the public key `x`, `y`: it is
for this relying party, the user was present, and has been verified if the request had a token. The signature is one of the new
key, or, if there is a certificate, one of the key in the attestation store `att`. -/
def GivesKey (a : McParams) (att : Option Attestation) (ans id x y : Bytes) : Prop :=
  ∃ (m : McResponse) (d : AuthData) (c : AttestedCredential), (Response.makeCredential m).SaidBy ans ∧ d.Ok ∧ m.authData = d.bytes ∧
    d.rpIdHash = SHA256 a.rp.id ∧ d.up = true ∧ d.uv = a.authParam.isSome ∧
    d.credential = some c ∧ c.id = id ∧ CoseKey.Shows c.key { x := x, y := y, alg := -7, kty := 2, crv := 1 } ∧ x.length = 32 ∧ y.length = 32 ∧
    (m.x5c = none → Verifies x y (m.authData ++ a.clientDataHash) m.sig) ∧
    ∀ cert, m.x5c = some cert → ∃ sk x' y', att = some ⟨sk, cert⟩ ∧ KeyPair sk x' y' ∧ Verifies x' y' (m.authData ++ a.clientDataHash) m.sig

/-- The answer `ans` to the login `a` proves that the device has the private key to `x`, `y`, whose credential has the id `id`: it
is for this relying party, tells truthfully whether the user was present and verified, and the signature verifies. -/
def ProvesKey (a : GaParams) (ans id x y : Bytes) : Prop :=
  ∃ (g : GaResponse) (d : AuthData), (Response.getAssertion g).SaidBy ans ∧ g.credential = { id := id } ∧ d.Ok ∧ g.authData = d.bytes ∧
    d.rpIdHash = SHA256 a.rpId ∧ d.up = a.options.up ∧ d.uv = a.authParam.isSome ∧ d.credential = none ∧
    Verifies x y (g.authData ++ a.clientDataHash) g.signature

end

/-- The requests that are meant to remove the discoverable credential with this id, of this user of this relying party: a factory
reset, the deletion of this id, and the registration of another discoverable credential for the same account. -/
def RemovesKey (rp user id : Bytes) : Command → Prop
  | .reset => True
  | .makeCredential a => a.options.rk = true ∧ a.rp.id = rp ∧ a.user.id = user
  | .credMgmt a => a.sub = .delete ∧ ∃ p d, a.params = some p ∧ p.credentialId = some d ∧ d.id = id
  | _ => False

end Verif.Device
