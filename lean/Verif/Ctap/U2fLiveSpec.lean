import Verif.Ctap.RegLiveSpec
import Verif.Ctap.U2fUpSpec

/-!
# Specification: U2F requests by an honest client, with a user who touches the device in time
-/
namespace Verif.Ctap
variable [Dev]

/-- Only U2F messages arrive, and time passes. -/
def Input.isU2f : Input → Prop
  | .ctap1 _ => True
  | .wait _ => True
  | _ => False

/-- Only U2F messages that need no touch arrive, and time passes. -/
def Input.isQuiet : Input → Prop
  | .ctap1 msg => ∀ c, U2fCommand.parse msg = .ok c → c.needsTouch = false
  | .wait _ => True
  | _ => False

/-- Inputs of this kind were processed, in whatever environment, and the device is still running. -/
inductive Only (K : Input → Prop) (s : St) : St → Prop
  | start : Only K s s
  | step {t : St} (h : Only K s t) (o : Oracle) (i : Input) (hi : K i)
      (ha : (stepM i (t.withOracle o)).1.alive = true) : Only K s (stepM i (t.withOracle o)).2

/-- The user touched the device as asked, at time `at`, and the touch was not used since. First a request that needs a touch is
answered with "conditions not satisfied"; while the client repeats such requests, the user touches the device, less than 10 s
after the first; after that, only requests come that need no touch. -/
def TouchedFor (at' : Nat) (s : St) : Prop :=
  ∃ (s0 s1 s2 : St) (msg : Bytes) (c : U2fCommand) (o1 o2 : Oracle), U2fCommand.parse msg = .ok c ∧ c.needsTouch = true ∧
    stepM (.ctap1 msg) (s0.withOracle o1) = (.ok (.ctap1 (.error .condUseNotSatisfied)), s1) ∧
    Only Input.isU2f s1 s2 ∧ at' = s2.env.now ∧ at' < s0.env.now + 10000 ∧
    Only Input.isQuiet (stepM .touch (s2.withOracle o2)).2 s

/-- Nothing fails, user verification is not required for everything, and if the request needs a touch, the user gave it less than
30 s before the answer. -/
structure U2fCommand.Fair (c : U2fCommand) (msg : Bytes) (s : St) (o : Oracle) : Prop where
  parsed : U2fCommand.parse msg = .ok c
  calm : o.Calm
  noUv : s.p.uvRequired = false
  touch : c.needsTouch = true → ∃ t, TouchedFor t s ∧ (stepM (.ctap1 msg) (s.withOracle o)).2.env.now < t + 30000

end Verif.Ctap
