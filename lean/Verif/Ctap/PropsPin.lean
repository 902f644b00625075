import Verif.Ctap.BlockedLemmas
import Verif.Ctap.Toy

/-!
# C10, C11: bounds on PIN guesses

Histories list the most recent event first.  `Reach P b s`: the device can get into state `s` from the factory state
by any sequence of power-ups, messages, touches and waiting, with an arbitrary environment satisfying `P` at each
step (failing storage, power cuts within a step, random numbers, user behaviour).
-/
namespace Verif.Ctap
set_option linter.unusedSectionVars false
set_option maxRecDepth 100000

section
variable [Dev] {P : Oracle → Prop} {b : Bool} {s s' : St}

/-- **C10.** In every stretch of the history without a successful PIN comparison and without a factory reset (the
event that follows the stretch may be a successful comparison), at most the configured number of guesses (at most 8)
is compared with the stored PIN.  The stretch may contain power-ups, and power may be cut anywhere. -/
theorem C10_guess_bound (h : Reach P b s) : GuessBound Ev.endsGuessing Dev.maxPinRetries s.log :=
  (inv10_reach h).1

/-- **C11**, first part. In every stretch of the history without a power-up, without a successful PIN comparison and
without a factory reset, at most three guesses are compared with the stored PIN (the event after the stretch included).
Missing: environments in which reading the flash storage fails, see the comment at `C11_read_failure_bypass`. -/
theorem C11_three_wrong_pins_partial (h : Reach NoReadFail b s) : GuessBound Ev.endsCycle 3 s.log :=
  (inv11_reach h).1.1

/-- **C11**, second part. After three wrong guesses, the number of remaining retries does not change in any run until the
device is started again or user data is erased.  Missing: failed verifications without comparison, see
`C11_malformed_bypass`. -/
theorem C11_retries_frozen_partial {P' : Oracle → Prop} (h : Reach NoReadFail true s) (h3 : 3 ≤ wrongGuesses s.log)
    (hr : Run P' s b s') : s'.p.retries = s.p.retries ∨ HappenedSince s.log Ev.isBootOrErased s'.log := by
  obtain ⟨_, hI⟩ := inv11_reach h
  obtain ⟨_, _, h1, h2⟩ := hI rfl
  rw [wrongGuesses_eq] at h3
  have hb : Blocked s.p.retries s := ⟨fun hn => by have := h2 hn; omega, rfl, h1.imp (by omega) id⟩
  rcases run_blocked hr hb with h | h
  · exact .inr h
  · exact .inl h.2.2.1

end

namespace Toy

def pin : Bytes := b! "1234"
def wrong : Bytes := b! "4321"
/-- A running device with a PIN. -/
def withPin : St := step good (setPin pin) (boot good factory)

theorem reach_withPin {P : Oracle → Prop} (h : P good) : Reach P true withPin :=
  reach_step good h _ (reach_boot good h (Reach.factory _ _) (by decide +kernel)) (by decide +kernel)

/-- The same, after three wrong guesses. -/
def blocked : St := step good (getToken wrong) (step good (getToken wrong) (step good (getToken wrong) withPin))

theorem reach_blocked {P : Oracle → Prop} (h : P good) : Reach P true blocked :=
  reach_step good h _ (reach_step good h _ (reach_step good h _ (reach_withPin h) (by decide +kernel))
    (by decide +kernel)) (by decide +kernel)

theorem good_noReadFail : NoReadFail good := fun _ => rfl

/-- C10, C11: three guesses are compared, the fourth one is refused with PIN_AUTH_BLOCKED, and works after a power
cycle; five retries remain, then eight. -/
example : wrongGuesses blocked.log = 3 ∧ blocked.p.retries = 5 ∧ bytes good (getToken pin) blocked = some [0x34] ∧
    (step good (getToken pin) blocked).p.retries = 5 ∧
    (step good (getToken pin) (boot good blocked)).p.retries = 8 ∧
    (step good (getToken pin) (boot good blocked)).log.countP Ev.isGuess = 4 := by decide +kernel

example : GuessBound Ev.endsGuessing 8 blocked.log := C10_guess_bound (reach_blocked (P := fun _ => True) trivial)
example : GuessBound Ev.endsCycle 3 blocked.log := C11_three_wrong_pins_partial (reach_blocked good_noReadFail)
example : (step (cutAt 4) (getToken pin) blocked).p.retries = blocked.p.retries :=
  (C11_retries_frozen_partial (reach_blocked good_noReadFail) (by decide +kernel)
    (Run.step (P := fun _ => True) (cutAt 4) trivial (getToken pin) Run.refl)).resolve_right (by
      rintro ⟨new, h1, h2⟩
      have h3 : (step (cutAt 4) (getToken pin) blocked).log = blocked.log := by decide +kernel
      have : new = [] := List.append_cancel_right (h1.symm.trans h3)
      simp [this] at h2)

/-- A request for a token whose encrypted PIN hash is one byte long. -/
def malformed : Input :=
  send 0x06 (map [(.unsigned 1, .unsigned 1), (.unsigned 2, .unsigned 5), (.unsigned 3, cose),
    (.unsigned 6, .bytes [0])])

/-- **C11 is false as stated**: within one power cycle, eight consecutive PIN verifications fail (the answer is
PIN_INVALID) and each of them takes a retry, until none is left.  The encrypted PIN hash is malformed in these
requests, so that the code returns before it counts the failure (`client_pin.rs:188-196`). -/
theorem C11_malformed_bypass : ∃ s : Nat → St, (∀ n, n ≤ 8 → Reach NoReadFail true (s n)) ∧
    (∀ n, n < 8 → bytes good malformed (s n) = some [Status.pinInvalid.toByte] ∧ s (n + 1) = step good malformed (s n)) ∧
    (s 0).p.retries = 8 ∧ (s 8).p.retries = 0 ∧ (s 8).log = (s 0).log := by
  let s : Nat → St := fun n => Nat.rec withPin (fun _ t => step good malformed t) n
  have hs : ∀ n, n < 8 → bytes good malformed (s n) = some [Status.pinInvalid.toByte] ∧
      (stepM malformed ((s n).withOracle good)).1.alive = true := by decide +kernel
  refine ⟨s, ?_, fun n hn => ⟨(hs n hn).1, rfl⟩, by decide +kernel, by decide +kernel, by decide +kernel⟩
  intro n
  induction n with
  | zero => exact fun _ => reach_withPin good_noReadFail
  | succ n ih => exact fun h => reach_step good good_noReadFail _ (ih (by omega)) (hs n (by omega)).2

/-- As `good`, but reading the storage fails at interaction `n`. -/
def readFailAt (n : Nat) : Oracle := { good with rfail := fun k => if k = n then some .storageError else none }

/-- The first part of C11 needs the assumption that reading the storage does not fail: a failure right after a wrong
guess skips the counting (`client_pin.rs:199`), so that four guesses are compared within one power cycle. -/
theorem C11_read_failure_bypass : ∃ s, Reach (fun _ => True) true s ∧ ¬ GuessBound Ev.endsCycle 3 s.log := by
  let bad : Oracle := readFailAt 5
  refine ⟨step bad (getToken wrong) (step bad (getToken wrong) (step bad (getToken wrong) (step bad (getToken wrong)
    withPin))), ?_, ?_⟩
  · exact reach_step _ trivial _ (reach_step _ trivial _ (reach_step _ trivial _ (reach_step _ trivial _
      (reach_withPin trivial) (by decide +kernel)) (by decide +kernel)) (by decide +kernel)) (by decide +kernel)
  · intro h
    have := h (.pinCompare false) [.pinCompare false, .pinCompare false, .pinCompare false]
    revert this
    decide +kernel

end Toy
end Verif.Ctap
