import Verif.Hid.Model

/-!
# The USB driver in the kernel (`patches/tock/03-add-ctap-modules.patch`)

The patch adds a driver to the kernel, between the controller of the USB hardware and the application. Line numbers are those of
the patch. The feature `vendor_hid` is on: there are two endpoints. Simplifications: there is one application, it has connected
(`CTAP_CMD_CONNECT`) and has allowed a packet to transmit; descriptors and control transfers are left out; upcalls are delivered.
`none` is a panic of the kernel.
-/
namespace Verif.Usb.Kernel
open Verif.Hid (Bytes Transport)

/-- `Side` (123-127). -/
inductive Side | transmit | receive | transmitOrReceive
deriving DecidableEq

/-- `Side::can_transmit` (130-135). -/
def Side.canTransmit : Side → Bool
  | .transmit | .transmitOrReceive => true
  | .receive => false

/-- `Side::can_receive` (137-142). -/
def Side.canReceive : Side → Bool
  | .receive | .transmitOrReceive => true
  | .transmit => false

/-- What the application is told. With a received packet, the contents of its buffer. -/
inductive Upcall
  | transmitted
  | received (t : Transport) (p : Bytes)
deriving DecidableEq

/-- `EndpointState` (683-691), without the buffer that the controller reads. -/
structure Endpoint where
  outBuffer : Bytes := []
  txPacket : Option Bytes := none
  pendingIn : Bool := false
  delayedOut : Bool := false

/-- `App` (146-156) and `ClientCtapHID` (706-717). `recvLen` is the length of the buffer that the application allows for packets;
`upcalls` are those so far. -/
structure Kernel where
  side : Option Side := none
  waiting : Bool := false
  recvLen : Nat := 0
  upcalls : List Upcall := []
  eps : Transport → Endpoint := fun _ => {}
  pendingOut : Bool := false
  next : Transport := .main

/-- A change of one endpoint. -/
def Kernel.set (k : Kernel) (t : Transport) (f : Endpoint → Endpoint) : Kernel :=
  { k with eps := fun u => if u = t then f (k.eps u) else k.eps u }

/-- `App::can_receive_packet` (159-161). -/
def Kernel.canReceive (k : Kernel) : Bool := k.waiting && (match k.side with | some s => s.canReceive | none => false)

/-- The condition of `packet_transmitted` (369-372). -/
def Kernel.canTransmit (k : Kernel) : Bool := k.waiting && (match k.side with | some s => s.canTransmit | none => false)

/-- `waiting = false` and `check_side` (163-167). -/
def Kernel.stopWaiting (k : Kernel) : Kernel := { k with waiting := false, side := none }

/-- `app_packet_received` (295-322). The kernel panics if the buffer has fewer than 64 bytes, or more (`copy_from_slice`). -/
def Kernel.appPacketReceived (k : Kernel) (p : Bytes) (t : Transport) : Option Kernel :=
  if k.canReceive then
    if k.recvLen ≠ 64 then none
    else some { k.stopWaiting with upcalls := k.upcalls ++ [.received t p] }
  else some k

/-- `cancel_in_transaction` (971-979). -/
def Kernel.cancelIn (k : Kernel) (t : Transport) : Bool × Kernel :=
  ((k.eps t).pendingIn, k.set t fun e => { e with txPacket := none, pendingIn := false })

/-- `cancel_out_transaction` (981-988). -/
def Kernel.cancelOut (k : Kernel) : Bool × Kernel := (k.pendingOut, { k with pendingOut := false })

/-- The endpoint after this one (945-950). -/
def nextEndpoint : Transport → Transport
  | .main => .vendor
  | .vendor => .main

/-- `send_packet_to_client` (911-957). -/
def Kernel.sendPacketToClient (k : Kernel) (t : Transport) : Option (Bool × Kernel) :=
  if (k.eps t).delayedOut then none
  else if k.canReceive then
    if !k.pendingOut then none
    else
      let k := { k with pendingOut := false }
      let k := (k.cancelIn t).2
      (k.appPacketReceived (k.eps t).outBuffer t).map fun k => (true, { k with next := nextEndpoint t })
  else some (false, k.set t fun e => { e with delayedOut := true })

/-- The body of the loop in `receive_packet` (894-904). -/
def Kernel.deliverDelayed (k : Kernel) (t : Transport) : Option Kernel :=
  if (k.eps t).delayedOut then ((k.set t fun e => { e with delayedOut := false }).sendPacketToClient t).map (·.2)
  else some k

/-- `receive_packet` (885-907). -/
def Kernel.receivePacket (k : Kernel) : Option Kernel :=
  if k.pendingOut then some k
  else (({ k with pendingOut := true } : Kernel).deliverDelayed k.next).bind fun k' => k'.deliverDelayed (nextEndpoint k.next)

/-- `CommandReturn`. -/
inductive Ret | success | already | busy | inval
deriving DecidableEq

/-- `get_endpoint` (853-860). -/
def getEndpoint (n : Nat) : Option Transport := if n = 1 then some .main else if n = 2 then some .vendor else none

/-- `transmit_packet` (866-883). -/
def Kernel.transmitPacket (k : Kernel) (p : Bytes) (n : Nat) : Ret × Kernel :=
  match getEndpoint n with
  | some t =>
    if (k.eps t).pendingIn then (.busy, k)
    else (.success, k.set t fun e => { e with pendingIn := true, txPacket := some p })
  | none => (.inval, k)

/-- `set_side` (169-177). -/
def Kernel.setSide (k : Kernel) (s : Side) : Bool × Kernel :=
  match k.side with
  | none => (true, { k with side := some s })
  | some s' => (s = s', k)

/-- `CTAP_CMD_TRANSMIT` (424-462). -/
def Kernel.transmit (k : Kernel) (n : Nat) (p : Bytes) : Ret × Kernel :=
  let r := k.setSide .transmit
  if !r.1 then (.inval, r.2)
  else if r.2.waiting then (.already, r.2)
  else
    let x := r.2.transmitPacket p n
    if x.1 = .success then (.success, { x.2 with waiting := true }) else x

/-- `CTAP_CMD_RECEIVE` (463-486). -/
def Kernel.receive (k : Kernel) : Option (Ret × Kernel) :=
  let r := k.setSide .receive
  if !r.1 then some (.inval, r.2)
  else if r.2.waiting then some (.already, r.2)
  else ({ r.2 with waiting := true } : Kernel).receivePacket.map fun k => (.success, k)

/-- `CTAP_CMD_TRANSMIT_OR_RECEIVE` (487-531). -/
def Kernel.transmitOrReceive (k : Kernel) (n : Nat) (p : Bytes) : Option (Ret × Kernel) :=
  let r := k.setSide .transmitOrReceive
  if !r.1 then some (.inval, r.2)
  else if r.2.waiting then some (.already, r.2)
  else ({ r.2 with waiting := true } : Kernel).receivePacket.map fun k =>
    if !k.waiting then (.success, k) else k.transmitPacket p n

/-- `cancel_transaction` (960-969). -/
def Kernel.cancelTransaction (k : Kernel) (n : Nat) : Bool × Kernel :=
  if n > 0 then
    match getEndpoint n with
    | some t =>
      let a := k.cancelIn t
      let b := a.2.cancelOut
      (a.1 || b.1, b.2)
    | none => (false, k)
  else
    let a := k.cancelIn .main
    let b := a.2.cancelOut
    let c := b.2.cancelIn .vendor
    let d := c.2.cancelOut
    (a.1 || b.1 || c.1 || d.1, d.2)

/-- `CTAP_CMD_CANCEL` (532-553). -/
def Kernel.cancel (k : Kernel) (n : Nat) : Ret × Kernel :=
  if k.waiting then
    let r := k.stopWaiting.cancelTransaction n
    (if r.1 then .success else .busy, r.2)
  else (.already, k)

/-- `packet_in` (1048-1070): the host asks for a packet. -/
def Kernel.packetIn (k : Kernel) (t : Transport) : Option Bytes × Kernel :=
  ((k.eps t).txPacket, k.set t fun e => { e with txPacket := none })

/-- `packet_out` (1073-1099): the controller has written a packet of 64 bytes of the host to the buffer. -/
def Kernel.packetOut (k : Kernel) (t : Transport) (p : Bytes) : Option Kernel :=
  ((k.set t fun e => { e with outBuffer := p }).sendPacketToClient t).map (·.2)

/-- `packet_transmitted` (1101-1120, 366-384). -/
def Kernel.packetTransmitted (k : Kernel) (t : Transport) : Option Kernel :=
  if (k.eps t).txPacket.isSome then none
  else
    let k := k.set t fun e => { e with pendingIn := false }
    let k := k.cancelOut.2
    if k.canTransmit then some { k.stopWaiting with upcalls := k.upcalls ++ [.transmitted] } else some k

/-- What can happen: system calls of the application, and events of the controller. -/
inductive Input
  | allow (len : Nat)
  | transmit (n : Nat) (p : Bytes)
  | receive
  | transmitOrReceive (n : Nat) (p : Bytes)
  | cancel (n : Nat)
  | packetIn (t : Transport)
  | packetOut (t : Transport) (p : Bytes)
  | transmitted (t : Transport)
deriving DecidableEq

/-- The kernel, the controller and what happened so far. -/
structure Sys where
  k : Kernel := {}
  /-- a packet was handed to the controller, and the host has not confirmed it yet -/
  inFlight : Transport → Bool := fun _ => false
  /-- the packets of the host -/
  host : Transport → List Bytes := fun _ => []
  /-- the packets that were handed to the controller for the host -/
  wire : Transport → List Bytes := fun _ => []
  /-- the packets of the application's successful commands -/
  submitted : Transport → List Bytes := fun _ => []

/-- Add to one of two lists. -/
def push (f : Transport → List Bytes) (t : Transport) (p : Bytes) : Transport → List Bytes :=
  fun u => if u = t then f u ++ [p] else f u

/-- The packet of the application is recorded if the command succeeds. -/
def submit (r : Ret) (f : Transport → List Bytes) (n : Nat) (p : Bytes) : Transport → List Bytes :=
  match getEndpoint n with
  | some t => if r = .success then push f t p else f
  | none => f

/-- One step. -/
def Sys.step (s : Sys) : Input → Option Sys
  | .allow len => some { s with k := { s.k with recvLen := len } }
  | .transmit n p =>
    let r := s.k.transmit n p
    some { s with k := r.2, submitted := submit r.1 s.submitted n p }
  | .receive => s.k.receive.map fun r =>
    { s with k := r.2 }
  | .transmitOrReceive n p => (s.k.transmitOrReceive n p).map fun r =>
    { s with k := r.2, submitted := submit r.1 s.submitted n p }
  | .cancel n => some { s with k := (s.k.cancel n).2 }
  | .packetIn t =>
    let r := s.k.packetIn t
    match r.1 with
    | some p => some { s with k := r.2, inFlight := fun u => u = t || s.inFlight u, wire := push s.wire t p }
    | none => some { s with k := r.2 }
  | .packetOut t p => (s.k.packetOut t p).map fun k => { s with k := k, host := push s.host t p }
  | .transmitted t => (s.k.packetTransmitted t).map fun k => { s with k := k, inFlight := fun u => u ≠ t && s.inFlight u }

/-- What the controller does, by the interface of the kernel for controllers: it asks for the next packet after the previous one is
confirmed, confirms only what it was given, and after `OutResult::Delay` keeps the packet until it is resumed. -/
def Legal (s : Sys) : Input → Prop
  | .packetIn t => s.inFlight t = false
  | .packetOut t _ => (s.k.eps t).delayedOut = false
  | .transmitted t => s.inFlight t = true
  | _ => True

/-- A host that takes its packets in time, and an application that cancels what it waits for: nothing is given up while a packet is
on its way to the host, and no packet comes in then, or while a packet for the other endpoint waits. There is a buffer of 64 bytes when the
application begins to wait for packets, and when one comes in. -/
def Prompt (s : Sys) : Input → Prop
  | .receive | .transmitOrReceive _ _ => s.k.recvLen = 64
  | .cancel n => n ≤ 2 ∧ ∀ t, s.inFlight t = false ∧ ((s.k.eps t).pendingIn = true → n = 0 ∨ getEndpoint n = some t)
  | .packetOut t _ => s.k.canReceive = true → s.k.recvLen = 64 ∧ ∀ u, s.inFlight u = false ∧ (u ≠ t → (s.k.eps u).pendingIn = false)
  | _ => True

/-- The application has allowed a buffer of 64 bytes. -/
def start : Sys := { k := { recvLen := 64 } }

instance {P : Transport → Prop} [∀ t, Decidable (P t)] : Decidable (∀ t, P t) :=
  if h : P .main ∧ P .vendor then isTrue fun | .main => h.1 | .vendor => h.2 else isFalse fun a => h ⟨a _, a _⟩

instance (s : Sys) (x : Input) : Decidable (Prompt s x) := by cases x <;> unfold Prompt <;> infer_instance

instance (s : Sys) (x : Input) : Decidable (Legal s x) := by cases x <;> unfold Legal <;> infer_instance

/-- All that happens. -/
def Sys.run (s : Sys) : List Input → Option Sys
  | [] => some s
  | x :: l => (s.step x).bind fun s => s.run l

/-- All that happens is allowed. -/
def LegalRun (s : Sys) : List Input → Prop
  | [] => True
  | x :: l => Legal s x ∧ ∀ s', s.step x = some s' → LegalRun s' l

/-- All that happens is prompt. -/
def PromptRun (s : Sys) : List Input → Prop
  | [] => True
  | x :: l => Prompt s x ∧ ∀ s', s.step x = some s' → PromptRun s' l

instance decideLegal (s : Sys) : (l : List Input) → Decidable (LegalRun s l)
  | [] => isTrue trivial
  | x :: l =>
    match h : s.step x with
    | none => decidable_of_iff (Legal s x) ⟨fun a => ⟨a, fun s' e => by rw [h] at e; cases e⟩, fun a => a.1⟩
    | some s1 =>
      have := decideLegal s1 l
      decidable_of_iff (Legal s x ∧ LegalRun s1 l)
        ⟨fun a => ⟨a.1, fun s' e => by rw [h] at e; cases e; exact a.2⟩, fun a => ⟨a.1, a.2 s1 h⟩⟩

instance decidePrompt (s : Sys) : (l : List Input) → Decidable (PromptRun s l)
  | [] => isTrue trivial
  | x :: l =>
    match h : s.step x with
    | none => decidable_of_iff (Prompt s x) ⟨fun a => ⟨a, fun s' e => by rw [h] at e; cases e⟩, fun a => a.1⟩
    | some s1 =>
      have := decidePrompt s1 l
      decidable_of_iff (Prompt s x ∧ PromptRun s1 l)
        ⟨fun a => ⟨a.1, fun s' e => by rw [h] at e; cases e; exact a.2⟩, fun a => ⟨a.1, a.2 s1 h⟩⟩

/-- The packets that the application received from an endpoint. -/
def delivered (l : List Upcall) (t : Transport) : List Bytes :=
  l.filterMap fun u => match u with
    | .received u p => if u = t then some p else none
    | .transmitted => none

/-- The endpoint whose turn it is: not the one of the last packet. -/
def turn (l : List Upcall) : Transport :=
  l.foldl (fun t u => match u with
    | .received .main _ => .vendor
    | .received .vendor _ => .main
    | .transmitted => t) .main

end Verif.Usb.Kernel
