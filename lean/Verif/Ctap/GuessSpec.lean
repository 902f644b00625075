import Verif.Ctap.Base

/-!
# Vocabulary for statements about histories

Histories are lists of events, the most recent event first.
-/
namespace Verif.Ctap

/-- A guess was compared with the stored PIN. -/
def Ev.isGuess : Ev → Bool
  | .pinCompare _ => true
  | _ => false

/-- The right PIN was presented, or user data was erased. -/
def Ev.endsGuessing : Ev → Bool
  | .pinCompare true => true
  | .erased => true
  | _ => false

/-- The device was started, the right PIN was presented, or user data was erased. -/
def Ev.endsCycle : Ev → Bool
  | .boot _ => true
  | e => e.endsGuessing

/-- Every stretch `w` of the history without an event that satisfies `ends`, together with the event `e` that
follows it, contains at most `n` guesses. -/
def GuessBound (ends : Ev → Bool) (n : Nat) (log : List Ev) : Prop :=
  ∀ e w, e :: w <:+: log → (∀ x ∈ w, ends x = false) → (e :: w).countP Ev.isGuess ≤ n

/-- The device was started or user data was erased. -/
def Ev.isBootOrErased : Ev → Bool
  | .boot _ => true
  | .erased => true
  | _ => false

/-- User data was erased. -/
def Ev.isErased : Ev → Bool
  | .erased => true
  | _ => false

/-- After the history `l`, and until the history was `log`, an event with `q` happened. -/
def HappenedSince (l : List Ev) (q : Ev → Bool) (log : List Ev) : Prop :=
  ∃ new, log = new ++ l ∧ ∃ e ∈ new, q e = true

/-- The number of wrong guesses compared with the stored PIN after the device was last started, the right PIN was
last presented and user data was last erased. -/
def wrongGuesses (log : List Ev) : Nat :=
  (log.takeWhile fun e => !e.endsCycle).countP Ev.isGuess

end Verif.Ctap
