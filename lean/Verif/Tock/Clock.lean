/-!
# The clock (`src/env/tock/clock.rs`)

Numbers of type `u32` are natural numbers less than 2^32; where a sum could exceed it the release build wraps around. That the
system calls fail (then the code panics) is not modelled.
-/
namespace Verif.Tock

/-- `u32::MAX + 1`. -/
def u32Size : Nat := 2 ^ 32

/-- `Timestamp` (`clock.rs:24-27`). -/
structure Timestamp where
  epoch : Nat
  tick : Nat
deriving DecidableEq, Repr

/-- `Timestamp::add_ticks` (`clock.rs:31-36`). -/
def Timestamp.addTicks (t : Timestamp) (ticks : Nat) : Timestamp :=
  let sum := min (t.tick + ticks) (u32Size - 1)
  ⟨(t.epoch + (sum >>> 24)) % u32Size, sum &&& 0xffffff⟩

/-- The derived order of timestamps (`clock.rs:23`) is lexicographic: `other <= self`. -/
def Timestamp.ge (t d : Timestamp) : Bool := decide (d.epoch < t.epoch) || (t.epoch == d.epoch && decide (d.tick ≤ t.tick))

/-- `TockClock::tickle` (`clock.rs:67-73`) with what the counter of the hardware shows. -/
def tickle (now : Timestamp) (curTick : Nat) : Timestamp :=
  if curTick < now.tick then ⟨(now.epoch + 1) % u32Size, curTick⟩ else ⟨now.epoch, curTick⟩

/-- The number of ticks in `make_timer` (`clock.rs:83-87`). -/
def deltaTick (milliseconds frequency : Nat) : Nat :=
  if milliseconds * frequency < u32Size then milliseconds * frequency / 1000
  else min (milliseconds / 100 * (frequency / 10)) (u32Size - 1)

/-- `make_timer` (`clock.rs:79-91`): the deadline and the clock. -/
def makeTimer (now : Timestamp) (curTick frequency milliseconds : Nat) : Timestamp × Timestamp :=
  ((tickle now curTick).addTicks (deltaTick (milliseconds % u32Size) frequency), tickle now curTick)

/-- `is_elapsed` (`clock.rs:93-96`): the answer and the clock. -/
def isElapsed (now : Timestamp) (curTick : Nat) (deadline : Timestamp) : Bool × Timestamp :=
  ((tickle now curTick).ge deadline, tickle now curTick)

end Verif.Tock
