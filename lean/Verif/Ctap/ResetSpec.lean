import Verif.Ctap.EnumLemmas

/-!
# Factory reset: the time since power-up and the requests since
-/
namespace Verif.Ctap
variable [Dev]

/-- The requests that do not end the permission to reset. -/
def Command.harmless : Command → Bool
  | .getInfo | .selection | .makeCredential _ | .reset => true
  | _ => false

/-- The CTAP2 request in an input, if it can be parsed. -/
def Input.requests : Input → List Command
  | .ctap2 _ msg => match Command.deserialize msg with
    | .ok cmd => [cmd]
    | .error _ => []
  | _ => []

/-- The device was powered up at time `t`, got the CTAP2 requests `cmds` since, and is now in the state `s`. -/
inductive PoweredUp (P : Oracle → Prop) : Nat → List Command → St → Prop
  | boot {b : Bool} {s : St} {o : Oracle} (h : Reach P b s) (ho : P o) (ha : (bootM (s.withOracle o)).1.alive = true) :
      PoweredUp P (bootM (s.withOracle o)).2.env.now [] (bootM (s.withOracle o)).2
  | step {t : Nat} {cmds : List Command} {s : St} {o : Oracle} {i : Input} (h : PoweredUp P t cmds s) (ho : P o)
      (ha : (stepM i (s.withOracle o)).1.alive = true) : PoweredUp P t (cmds ++ i.requests) (stepM i (s.withOracle o)).2

/-- The persistent data of a device that holds no user data: only the attestation key and certificate. -/
def Persist.factory (att : Option Attestation) : Persist := { attestation := att }

/-- The number of completed erasures in a history. -/
def erasures (log : List Ev) : Nat := log.count .erased

end Verif.Ctap
