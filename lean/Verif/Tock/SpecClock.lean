import Verif.Tock.Clock

/-!
# What the clock should do

The hardware counts ticks since the start and shows the last 24 bits of their number. Time is the true number of ticks.
-/
namespace Verif.Tock

/-- What the counter shows after a number of ticks. -/
def shown (time : Nat) : Nat := time % 2 ^ 24

/-- The clock is used at the given times, one after the other: the state of the clock after these uses. -/
def clockAfter (times : List Nat) : Timestamp := times.foldl (fun now t => tickle now (shown t)) ⟨0, 0⟩

/-- The times are those of uses of the clock: not decreasing, less than one wrap apart, starting within the first wrap after the
start, and within the life time of the clock (2^55 ticks: more than 34000 years at 32768 Hz). -/
def Regular : Nat → List Nat → Prop
  | _, [] => True
  | last, t :: ts => last ≤ t ∧ t < last + 2 ^ 24 ∧ t < 2 ^ 55 ∧ Regular t ts

end Verif.Tock
