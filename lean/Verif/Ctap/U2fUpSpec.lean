import Verif.Ctap.Step

/-!
# Specification of user presence for U2F

The events are: a request asks the user to touch the button (`u2fPrompt`), the button is touched (`u2fTouch`), a request
uses a touch (`u2fConsume`). Histories have the latest event first.
-/
namespace Verif.Ctap

/-- No touch is used, and the device is not restarted. -/
def Unused (l : List Ev) : Prop := ∀ e ∈ l, (∀ t, e ≠ .u2fConsume t) ∧ ∀ t, e ≠ .boot t

/-- The history before a touch at `t`: a request asked for it less than 10 s ago; since then there was no other touch. -/
def Asked (t : Nat) (before : List Ev) : Prop :=
  ∃ mid t0 rest, before = mid ++ .u2fPrompt t0 :: rest ∧ Unused mid ∧ (∀ e ∈ mid, ∀ t, e ≠ .u2fTouch t) ∧
    t0 ≤ t ∧ t < t0 + 10000

/-- The history before a touch is used at `t`: the button was touched less than 30 s ago, as asked, and no touch was
used since. -/
def Touched (t : Nat) (before : List Ev) : Prop :=
  ∃ mid t1 rest, before = mid ++ .u2fTouch t1 :: rest ∧ Unused mid ∧ t1 ≤ t ∧ t < t1 + 30000 ∧ Asked t1 rest

/-- Requests that need a touch. -/
def U2fCommand.needsTouch : U2fCommand → Bool
  | .register _ _ => true
  | .authenticate _ _ _ f => f == .enforce
  | _ => false

end Verif.Ctap
