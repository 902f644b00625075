import Verif.Usb.Capsule

/-!
# The USB driver of the application
`third_party/libtock-drivers/src/usb_ctap_hid.rs`, on top of the driver in the kernel. Line numbers are those of this file.

The kernel and the controller run between any two system calls. An application gets one upcall each time it yields, in the order
in which they were scheduled; the kernel drops the upcalls of a listener that is unregistered, and a buffer that is revoked has
length 0 (both is how Tock works, whose source is not in the repository).
-/
namespace Verif.Usb.Kernel
open Verif.Hid (Bytes Transport)

/-- `recv_with_timeout` (`usb_ctap_hid.rs:123-148,215-304`), `send` (`usb_ctap_hid.rs:154-171,306-403`), `send_or_recv_with_timeout`
(`usb_ctap_hid.rs:185-213,405-520`). -/
inductive Call
  | recv
  | send (n : Nat) (p : Bytes)
  | sendOrRecv (n : Nat) (p : Bytes)
deriving DecidableEq

/-- The command (249, 343, 449-455). -/
def Call.input : Call → Input
  | .recv => .receive
  | .send n p => .transmit n p
  | .sendOrRecv n p => .transmitOrReceive n p

/-- The argument of the command that cancels (287, 385, 498). -/
def Call.cancelArg : Call → Nat
  | .recv => 0
  | .send n _ => n
  | .sendOrRecv _ _ => 0

/-- The buffer for packets is shared (239, 437), but not to send (334); then the command. -/
def Call.first : Call → List Input
  | .send n p => [.transmit n p]
  | c => [.allow 64, c.input]

/-- What the command returns. -/
def Call.ret (c : Call) (k : Kernel) : Option Ret :=
  match c with
  | .recv => ({ k with recvLen := 64 } : Kernel).receive.map (·.1)
  | .send n p => some (k.transmit n p).1
  | .sendOrRecv n p => (({ k with recvLen := 64 } : Kernel).transmitOrReceive n p).map (·.1)

/-- What the controller does during a call: `early`, until the call sees an upcall; `late`, until the listener is unregistered and the buffer
is revoked; `last`, until the call returns, or cancels. `timer` says that the timer expires after `early`. -/
structure Race where
  early : List Input
  timer : Bool
  late : List Input
  last : List Input

/-- `SendOrRecvStatus` with the contents of the buffer (54-59). `waiting`: the call has not returned; `fail`: it returned an error. -/
inductive Status
  | timeout
  | sent
  | received (t : Transport) (p : Bytes)
  | waiting
  | fail
deriving DecidableEq

/-- The listeners (221-225, 312-318, 411-418). Upcalls that a call does not listen to do not occur in it (`C94_kind`). -/
def Status.ofUpcall : Upcall → Status
  | .transmitted => .sent
  | .received t p => .received t p

/-- What happens after the first upcall (252-303, 347-402, 458-519): the command is cancelled if it was the one of the timer. All
answers of the kernel to that are accepted. -/
def Call.rest (c : Call) (r : Race) (u : List Upcall) : List Input :=
  r.late ++ .allow 0 :: (r.last ++ if u.isEmpty then [.cancel c.cancelArg] else [])

/-- The upcalls that are new. -/
def newUpcalls (s s' : Sys) : List Upcall := s'.k.upcalls.drop s.k.upcalls.length

/-- A call. `none`: the kernel panics. -/
def Sys.call (s : Sys) (c : Call) (r : Race) : Option (Status × Sys) :=
  (c.ret s.k).bind fun x =>
    if x = .success then
      (s.run (c.first ++ r.early)).bind fun s2 =>
        let u := newUpcalls s s2
        if u.isEmpty && !r.timer then some (.waiting, s2)
        else (s2.run (c.rest r u)).map fun s3 => (match u with | [] => .timeout | x :: _ => .ofUpcall x, s3)
    else (s.run (c.first ++ [.allow 0])).map fun s2 => (.fail, s2)

/-- The controller does nothing that its interface does not allow during the call. -/
def LegalCall (s : Sys) (c : Call) (r : Race) : Prop :=
  LegalRun s (c.first ++ r.early) ∧ ∀ s2, s.run (c.first ++ r.early) = some s2 → LegalRun s2 (c.rest r (newUpcalls s s2))

/-- An event of the controller. -/
def Input.isEvent : Input → Bool
  | .packetIn _ | .packetOut _ _ | .transmitted _ => true
  | _ => false

/-- A packet of the host. -/
def Input.isPacket : Input → Bool
  | .packetOut _ _ => true
  | _ => false

/-- Only the controller acts during the call. -/
def Race.Events (r : Race) : Prop := ∀ x ∈ r.early ++ r.late ++ r.last, x.isEvent = true

/-- No packet of the host comes in after the timer expired and before the command is cancelled. -/
def Race.Calm (r : Race) : Prop := ∀ x ∈ r.late ++ r.last, x.isPacket = false

/-- Calls one after the other, each of which returns without an error, with what they return. -/
def Sys.calls (s : Sys) : List (Call × Race) → Option (List Status × Sys)
  | [] => some ([], s)
  | (c, r) :: l => (s.call c r).bind fun (st, s') =>
    if st = .waiting ∨ st = .fail then none else (s'.calls l).map fun (a, s'') => (st :: a, s'')

/-- All calls are legal. -/
def LegalCalls (s : Sys) : List (Call × Race) → Prop
  | [] => True
  | (c, r) :: l => LegalCall s c r ∧ ∀ st s', s.call c r = some (st, s') → LegalCalls s' l

/-- The packets from an endpoint that the calls returned. -/
def returned (l : List Status) (t : Transport) : List Bytes :=
  l.filterMap fun u => match u with
    | .received u p => if u = t then some p else none
    | _ => none

end Verif.Usb.Kernel
