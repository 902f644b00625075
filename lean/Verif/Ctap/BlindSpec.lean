import Verif.Ctap.NameSpec
import Verif.Ctap.Step

/-!
# Specification: requests that cannot depend on hidden credentials

Two devices that differ only in credentials that a client may not see give that client the same answers.
-/
namespace Verif.Ctap

/-- The request for a login asks about the credential: it is for the same relying party, and its protection policy lets
the client see it, by its id if the client sends ids. -/
def GaParams.Sees (a : GaParams) (c : Cred) : Prop :=
  c.rpId = a.rpId ∧
  match a.allowList with
  | none => VisibleByRp c.policy a.authParam.isSome
  | some l => (∃ d ∈ l, d.id = c.id) ∧ VisibleById c.policy a.authParam.isSome

/-- The request for a registration asks about the credential: it is for the same relying party, excludes the id, and the
protection policy of the credential lets the client see it. -/
def McParams.Sees (a : McParams) (c : Cred) : Prop :=
  c.rpId = a.rp.id ∧ (∃ d ∈ a.excludeList.getD [], d.id = c.id) ∧ VisibleById c.policy a.authParam.isSome

/-- The command does not ask about hidden credentials. Credential management, and the creation of a further discoverable
credential (which fails if there is no room), are left out. -/
def Command.Blind (hidden : Cred → Prop) : Command → Prop
  | .makeCredential a => a.options.rk = false ∧ ∀ c, hidden c → ¬ a.Sees c
  | .getAssertion a => ∀ c, hidden c → ¬ a.Sees c
  | .credMgmt _ => False
  | _ => True

variable [Dev]

/-- The input does not ask about hidden credentials. -/
def Input.Blind (hidden : Cred → Prop) : Input → Prop
  | .ctap2 _ msg => ∀ cmd, Command.deserialize msg = .ok cmd → cmd.Blind hidden
  | _ => True

/-- The input is the request `authenticatorGetInfo`. -/
def Input.AsksInfo : Input → Prop
  | .ctap2 _ msg => Command.deserialize msg = .ok .getInfo
  | _ => False

/-- The slots, ids and creation orders of the stored credentials are different, and there is room for all of them. -/
structure Orderly (l : List (Nat × Cred)) : Prop where
  slots : (l.map (·.1)).Nodup
  ids : (l.map (·.2.id)).Nodup
  orders : (l.map (·.2.order)).Nodup
  room : l.length ≤ Dev.maxResidentKeys

/-- Two devices that differ at most in hidden credentials (and in the history, which no command reads). While a login is
under way, the credentials that are still to be used are the same. -/
structure Alike (hidden : Cred → Prop) (s1 s2 : St) : Prop where
  env : s2.env = s1.env
  volatile : s2.v = s1.v
  data : s2.p = { s1.p with creds := s2.p.creds }
  visible : ∀ k c, ¬ hidden c → ((k, c) ∈ s1.p.creds ↔ (k, c) ∈ s2.p.creds)
  orderly1 : Orderly s1.p.creds
  orderly2 : Orderly s2.p.creds
  login : ∀ inp keys, s1.v.sp.cmd = some (.getAssertion inp keys) →
    ∀ k ∈ keys, s1.p.creds.lookup k = s2.p.creds.lookup k

/-- The two answers to an input are the same; except that information about the device tells the number of credentials
for which there is room. -/
inductive SameAnswer (i : Input) : Res Reply → Res Reply → Prop
  | same (r : Res Reply) : SameAnswer i r r
  | info (r : InfoResponse) (n : Nat) (v v' : Verif.Cbor.Value) (b b' : Bytes) (hi : i.AsksInfo)
      (h : r.toCbor = some v) (hb : v.write (some 4) = .ok b)
      (h' : { r with remaining := n }.toCbor = some v') (hb' : v'.write (some 4) = .ok b') :
      SameAnswer i (.ok (.ctap2 (0x00 :: b))) (.ok (.ctap2 (0x00 :: b')))

/-- What a device answers to a history of inputs, each with its environment; `none` is a power-up (at any time). -/
def session : List (Oracle × Option Input) → St → List (Input × Res Reply)
  | [], _ => []
  | (o, none) :: l, s => session l (bootM (s.withOracle o)).2
  | (o, some i) :: l, s => (i, (stepM i (s.withOracle o)).1) :: session l (stepM i (s.withOracle o)).2

/-- All answers of two sessions are the same. -/
def AllSame : List (Input × Res Reply) → List (Input × Res Reply) → Prop
  | [], [] => True
  | (i, r) :: l, (i', r') :: l' => i = i' ∧ SameAnswer i r r' ∧ AllSame l l'
  | _, _ => False

/-- What a client that speaks for one relying party sends: registrations (of credentials that are not stored) and logins
for this relying party, and everything else but credential management. -/
def Input.OnlyFor (rp : Bytes) : Input → Prop
  | .ctap2 _ msg => ∀ cmd, Command.deserialize msg = .ok cmd →
    (∀ a, cmd = .makeCredential a → a.rp.id = rp ∧ a.options.rk = false) ∧
    (∀ a, cmd = .getAssertion a → a.rpId = rp) ∧ ∀ a, cmd ≠ .credMgmt a
  | _ => True

/-- What a client sends that never proves user verification: its registrations (of credentials that are not stored) and
logins have no PIN/UV auth parameter, and there is no credential management. -/
def Input.WithoutUv : Input → Prop
  | .ctap2 _ msg => ∀ cmd, Command.deserialize msg = .ok cmd →
    (∀ a, cmd = .makeCredential a → a.authParam = none ∧ a.options.rk = false) ∧
    (∀ a, cmd = .getAssertion a → a.authParam = none) ∧ ∀ a, cmd ≠ .credMgmt a
  | _ => True

/-- The client sends no ids of credentials. -/
def Input.WithoutIds : Input → Prop
  | .ctap2 _ msg => ∀ cmd, Command.deserialize msg = .ok cmd →
    (∀ a, cmd = .makeCredential a → a.excludeList.getD [] = []) ∧ (∀ a, cmd = .getAssertion a → a.allowList = none)
  | _ => True

end Verif.Ctap
