/-!
# Waiting for the user: `wait_with_timeout` of the Tock environment (`src/env/tock/mod.rs:272-355`)

The answers of the kernel to the system calls, and the upcalls it delivers, are arbitrary. The LEDs are not modelled.
-/
namespace Verif.Tock.Presence

/-- What `yield_wait` delivers: a button changes its state, the alarm fires, or something else. -/
inductive Upcall
  | button (n : Nat) (pressed : Bool)
  | alarm
  | other
deriving DecidableEq

/-- The answer of the alarm driver to `stop_alarm` (`third_party/libtock-drivers/src/timer.rs:131-136`). -/
inductive Stop | ok | already | fail
deriving DecidableEq

/-- What the kernel does during a wait. -/
structure Kernel where
  /-- `Buttons::count` -/
  count : Option Nat
  /-- `Buttons::enable_interrupts` -/
  enable : Nat → Bool
  /-- `Buttons::register_listener` -/
  register : Bool
  /-- `keepalive_callback.init` -/
  init : Bool
  /-- `keepalive_callback.enable` -/
  subscribe : Bool
  /-- `keepalive.set_alarm` -/
  set : Bool
  /-- the upcalls, in order; after the last one nothing more happens -/
  upcalls : List Upcall
  /-- `Buttons::disable_interrupts` -/
  disable : Nat → Bool
  /-- `keepalive.stop_alarm` -/
  stop : Stop

/-- How a wait ends: `Ok(())`, `Err(Timeout)`, `Err(Fail)`, a panic, or not at all. -/
inductive Outcome | touched | timeout | fail | panic | waiting
deriving DecidableEq

/-- The listener of the buttons (`mod.rs:286-291`). -/
def isPress : Upcall → Bool
  | .button _ true => true
  | _ => false

/-- The callback of the alarm (`mod.rs:294-296`). -/
def isAlarm : Upcall → Bool
  | .alarm => true
  | _ => false

/-- `yieldk_for` (`third_party/libtock-drivers/src/util.rs:8-12`) with its condition (`mod.rs:322-324`): the cells
`button_touched` and `keepalive_expired` at its end. -/
def yieldFor (touched expired : Bool) : List Upcall → Option (Bool × Bool)
  | [] => if touched || expired then some (touched, expired) else none
  | u :: us => if touched || expired then some (touched, expired) else yieldFor (touched || isPress u) (expired || isAlarm u) us

/-- `wait_with_timeout` (`mod.rs:272-355`). -/
def wait (ms : Nat) (k : Kernel) : Outcome :=
  if ms = 0 then .timeout else
  match k.count with
  | none => .fail
  | some n =>
    if !(List.range n).all k.enable then .fail else
    if !k.register then .fail else
    if !k.init then .panic else
    if !k.subscribe then .fail else
    if !k.set then .panic else
    match yieldFor false false k.upcalls with
    | none => .waiting
    | some (touched, expired) =>
      if !(List.range n).all k.disable then .fail else
      if k.stop = .fail || (k.stop = .already && !expired) then .panic else
      if touched then .touched else if expired then .timeout else .panic

end Verif.Tock.Presence
