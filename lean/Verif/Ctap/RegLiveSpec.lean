import Verif.Ctap.LiveSpec

/-!
# Specification: honest registrations
-/
namespace Verif.Ctap
variable [Dev]

/-- A private key: it has a public key and can sign. -/
def IsKey (sk : Bytes) : Prop := (Dev.ecdsaPub sk).isSome ∧ CanSign sk

/-- Whatever 32 bytes the random number generator delivers are a private key (the generation of keys draws again otherwise). -/
def Oracle.DrawsKeys (o : Oracle) : Prop := ∀ k, IsKey ((List.range 32).map (o.rnd k))

/-- The id names no visible credential of this device for this relying party, and it is no accident and no forgery, also not with
the master keys that a device without any draws at first use. -/
structure St.Unknown (s : St) (rp id : Bytes) (uv : Bool) : Prop where
  once : (s.stored.filter fun c => c.id == id).length ≤ 1
  stored : ¬ ∃ c, NamesStored s.stored rp id c ∧ VisibleById c.policy uv
  sealed : ∀ mk, s.p.master = none ∨ s.p.master = some mk → Tagged mk id →
    ∃ w h, Opens mk id h w ∧ ¬ (h = Dev.sha256 rp ∧ VisibleById w.policy uv)

/-- An honest registration, in an environment where nothing fails. -/
structure McParams.Fair (a : McParams) (s : St) (o : Oracle) : Prop where
  calm : o.Calm
  user : o.Confirms
  keys : o.DrawsKeys
  /-- ECDSA with P-256 and SHA-256 is among the algorithms. -/
  algorithm : ∃ p ∈ a.credParams, p.publicKey = true ∧ p.es256 = true
  /-- Enterprise attestation is asked for only if the device offers it. -/
  enterprise : ∀ n, a.enterprise = some n → (n = 1 ∨ n = 2) ∧ Dev.epMode.isSome ∧ s.p.enterprise = true
  /-- The attestation key is there, if it is needed. -/
  attestation : a.enterprise.isSome ∨ Dev.useBatchAttestation = true → ∃ att, s.p.attestation = some att ∧ CanSign att.sk
  /-- Without a token: user verification is not asked for, and not required by the device. -/
  noToken : a.authParam = none → a.options.uv = false ∧ s.p.uvRequired = false ∧ (a.options.rk = true → s.p.pin = none)
  token : s.Entitles 0x01 a.rp.id a.clientDataHash a.authProto a.authParam
  /-- No credential of the device is excluded. -/
  exclude : ∀ d ∈ a.excludeList.getD [], s.Unknown a.rp.id d.id a.authParam.isSome
  /-- There is room for a discoverable credential, or it replaces the one for the same account. -/
  room : a.options.rk = true → s.stored.length < Dev.maxResidentKeys ∨
    ∃ c ∈ s.stored, c.rpId = a.rp.id ∧ c.userHandle = a.user.id

end Verif.Ctap
