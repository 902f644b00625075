import Verif.Ctap.SessionLemmas
import Verif.Ctap.FlagsSpec

/-!
# Enumerations: a first request and its continuations
-/
namespace Verif.Ctap
variable [Dev]

/-- The elements of two lists correspond one to one, in order. -/
def EachOf (R : α → β → Prop) : List α → List β → Prop
  | [], [] => True
  | a :: as, b :: bs => R a b ∧ EachOf R as bs
  | _, _ => False

/-- An input that is no CTAP2 request: the passing of time, a touch of the button, a U2F message, or a message that can not
be parsed. -/
def Input.idle (i : Input) : Prop := ∀ ch msg cmd, i = .ctap2 ch msg → Command.deserialize msg ≠ .ok cmd

/-- In the state `s`, the request `cmd` on the channel `ch` gets the response `r`, and leads to the state `s'`. -/
def Served (P : Oracle → Prop) (ch : Channel) (cmd : Command) (s : St) (r : Response) (s' : St) : Prop :=
  ∃ o msg x s1, P o ∧ Command.deserialize msg = .ok cmd ∧ processParsed cmd ch (s.withOracle o) = (.ok r, s1) ∧
    stepM (.ctap2 ch msg) (s.withOracle o) = (.ok x, s')

/-- From `s` to `s'`, the device only got inputs that are no CTAP2 requests and, on the channel `ch`, requests for the next
item, which got the responses `rs`. -/
inductive Continued (P : Oracle → Prop) (ch : Channel) (isNext : Command → Prop) (s : St) : List Response → St → Prop
  | start : Continued P ch isNext s [] s
  | next {rs : List Response} {s1 s2 : St} {cmd : Command} {r : Response} (h : Continued P ch isNext s rs s1)
      (hc : isNext cmd) (hs : Served P ch cmd s1 r s2) : Continued P ch isNext s (rs ++ [r]) s2
  | idle {rs : List Response} {s1 s2 : St} {o : Oracle} {i : Input} {x : Reply} (h : Continued P ch isNext s rs s1)
      (ho : P o) (hi : i.idle) (hs : stepM i (s1.withOracle o) = (.ok x, s2)) : Continued P ch isNext s rs s2

/-- From `s` to `s'`, no CTAP2 request of a given kind came in. -/
inductive Without (P : Oracle → Prop) (kind : Command → Prop) (s : St) : St → Prop
  | start : Without P kind s s
  | boot {s1 : St} {o : Oracle} (h : Without P kind s s1) (ho : P o) : Without P kind s (bootM (s1.withOracle o)).2
  | step {s1 : St} {o : Oracle} {i : Input} (h : Without P kind s s1) (ho : P o)
      (hi : ∀ ch msg cmd, i = .ctap2 ch msg → Command.deserialize msg = .ok cmd → ¬ kind cmd) :
      Without P kind s (stepM i (s1.withOracle o)).2

/-- A response to the request `a` for an assertion by the credential `c`. -/
structure AssertedBy (a : GaParams) (c : Cred) (g : GaResponse) : Prop where
  id : g.credential = { id := c.id }
  user : g.user = gaUser c a.authParam.isSome
  signature : Dev.ecdsaSign c.sk (g.authData ++ a.clientDataHash) = some g.signature

/-- The request asks for the next relying party, or the next credential. -/
def isNextRp : Command → Prop
  | .credMgmt a => a.sub = .rpsNext
  | _ => False
def isNextCred : Command → Prop
  | .credMgmt a => a.sub = .credsNext
  | _ => False

/-- The entry of a relying party in an enumeration. -/
def DescribesRp (total : Option Nat) (rp : Bytes) (r : CmResponse) : Prop :=
  r = { rp := some { id := rp }, rpIdHash := some (Dev.sha256 rp), totalRps := total }

/-- The entry of a credential in an enumeration. -/
def DescribesCred (total : Option Nat) (c : Cred) (r : CmResponse) : Prop :=
  ∃ k, pubKey c.sk = .ok k ∧
    r = { user := some { id := c.userHandle, name := c.userName, displayName := c.userDisplayName, icon := c.userIcon }
          credentialId := some { id := c.id }, publicKey := some k, totalCredentials := total
          credProtect := c.policy, largeBlobKey := c.largeBlobKey }

/-- In the state `s`, the request for credential management is authenticated: its tag is the one of subcommand and parameters
under the current token of the protocol; this token was issued at most 30 s ago, with the permission for credential management
(4), and no request used up this permission since. -/
structure MgmtVerified (a : CmParams) (s : St) : Prop where
  tag : ∃ pr p msg, a.authProto = some pr ∧ a.authParam = some p ∧ cmMessage a = some msg ∧
    p = PinSpec.tag pr (s.v.pin.proto pr).token msg
  issued : ∃ new t perms r, LastIssued s.log new t perms r ∧ s.env.now < t + 30000 ∧ 4 &&& perms ≠ 0 ∧ .tokenConsumed ∉ new

/-- The stored credentials of other relying parties than `rp`. -/
def St.storedElsewhere (s : St) (rp : Bytes) : List Cred := s.stored.filter fun c => c.rpId != rp

end Verif.Ctap
