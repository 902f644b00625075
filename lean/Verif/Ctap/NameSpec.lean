import Verif.Ctap.CredSpec
import Verif.Ctap.KeyStore

/-!
# Specification: which credentials an id names, and which are visible
-/
namespace Verif.Ctap

/-- Protection policies when the id of the credential is known to the caller: a credential that requires user
verification is invisible without. -/
def VisibleById (policy : Option Policy) (uv : Bool) : Prop := uv = true ∨ policy ≠ some .required

/-- Protection policies in requests without a list of ids. -/
def VisibleByRp (policy : Option Policy) (uv : Bool) : Prop :=
  uv = true ∨ policy = none ∨ policy = some .optional

instance (p : Option Policy) (uv : Bool) : Decidable (VisibleById p uv) := by unfold VisibleById; infer_instance
instance (p : Option Policy) (uv : Bool) : Decidable (VisibleByRp p uv) := by unfold VisibleByRp; infer_instance

/-- A stored credential with this id for this relying party. -/
def NamesStored (stored : List Cred) (rp id : Bytes) (c : Cred) : Prop := c ∈ stored ∧ c.id = id ∧ c.rpId = rp

variable [Dev]

/-- The id carries a valid authentication tag of a device with master keys `mk`: the last 32 of its 241 bytes are the
HMAC of the others under the second of the four master keys. -/
def Tagged (mk id : Bytes) : Prop :=
  id.length = 241 ∧ id.drop 209 = Dev.hmac ((mk.drop 32).take 32) (id.take 209)

/-- The id is a sealed credential `w` of a device with master keys `mk`, for the relying party with this hash. -/
structure Opens (mk id rpIdHash : Bytes) (w : CredSource) : Prop where
  tagged : Tagged mk id
  version : id.head? = some 0x01
  content : decryptCredId (mk.take 32) (mk.take 32) ((id.take 209).drop 1) = .ok (some w)
  rp : w.rpIdHash = rpIdHash

/-- The id names a credential of this device for this relying party that is visible. -/
def Offered (stored : List Cred) (mk rp id : Bytes) (uv : Bool) : Prop :=
  (∃ c, NamesStored stored rp id c ∧ VisibleById c.policy uv) ∨
  ∃ w, Opens mk id (Dev.sha256 rp) w ∧ VisibleById w.policy uv

/-- In this state, the id names a credential of this device for this relying party that is visible. -/
def St.Names (s : St) (rp id : Bytes) (uv : Bool) : Prop :=
  (∃ c, NamesStored s.stored rp id c ∧ VisibleById c.policy uv) ∨
  ∃ mk w, s.p.master = some mk ∧ Opens mk id (Dev.sha256 rp) w ∧ VisibleById w.policy uv

end Verif.Ctap
