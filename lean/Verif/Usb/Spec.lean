import Verif.Usb.Model
import Verif.Hid.Spec

/-!
# C70: what a client may expect of the device behind its USB interface

The format of packets is that of CTAP 2.1, section 11.2.4 (`Hid.IsInit`, `Hid.IsCont`).
-/
namespace Verif.Usb
open Verif.Ctap hiding Transport
open Verif.Hid (Transport IsInit IsCont)
variable [Dev]

/-- These packets, of channel `cid`, are one initialisation packet with this command byte and the continuation packets 0, 1, 2, …,
and their data, up to the length that is announced, is this message. -/
def Spells (ps : List Bytes) (cid : Bytes) (cmd : Nat) (payload : Bytes) : Prop :=
  ∃ (p0 : Bytes) (rest : List Bytes) (data0 : Bytes) (datas : List Bytes), ps = p0 :: rest ∧ IsInit p0 cid cmd payload.length data0 ∧ datas.length = rest.length ∧
    (∀ i (h : i < rest.length) (h' : i < datas.length), IsCont rest[i] cid i datas[i]) ∧
    payload.length ≤ (data0 ++ datas.flatten).length ∧ payload = (data0 ++ datas.flatten).take payload.length

/-- What happened: the time, the input and the answer. -/
structure Event where
  time : Nat
  input : Input
  out : Res (List Bytes)

/-- The history since power-up of a running device, whatever the environment does at each input. Packets have 64 bytes. -/
inductive Trace : List Event → Device → Prop
  | boot (d : Device) (h : (boot d).1.alive = true) : Trace [] (boot d).2
  | step {l : List Event} {d : Device} (o : Oracle) (i : Input) (h : Trace l d) (hi : ∀ t p, i = .packet t p → p.length = 64)
      (ha : (step i (d.withOracle o)).1.alive = true) :
      Trace (l ++ [⟨d.st.env.now, i, (step i (d.withOracle o)).1⟩]) (step i (d.withOracle o)).2

/-- The packets that came in on an interface, with their times. -/
def packetsOn (t : Transport) (l : List Event) : List (Nat × Bytes) :=
  l.filterMap fun e => match e.input with
    | .packet t' p => if t' = t then some (e.time, p) else none
    | _ => none

/-- Among these packets a client sent this message, the last packet being its last one, with less than 100 ms from each packet
to the next. -/
def Sent (l : List (Nat × Bytes)) (cid : Bytes) (cmd : Nat) (payload : Bytes) : Prop :=
  ∃ acc : List (Nat × Bytes), acc.Sublist l ∧ acc.getLast? = l.getLast? ∧ Spells (acc.map (·.2)) cid cmd payload ∧
    ∀ i (h : i + 1 < acc.length), acc[i + 1].1 < acc[i].1 + 100

/-- The device gave out this channel: it answered a packet on the broadcast channel of this interface with one INIT packet
that has this id after the eight bytes of the nonce. -/
def GaveOut (t : Transport) (l : List Event) (cid : Bytes) : Prop :=
  ∃ e ∈ l, ∃ p q data, e.input = .packet t p ∧ p.take 4 = [0xFF, 0xFF, 0xFF, 0xFF] ∧ e.out = .ok [q] ∧
    IsInit q [0xFF, 0xFF, 0xFF, 0xFF] 0x06 17 data ∧ (data.drop 8).take 4 = cid

/-- The channel of a command. -/
def channel (t : Transport) (cid : Bytes) : Channel := match t with | .main => .main cid | .vendor => .vendor cid

/-- The bytes of an answer; a U2F answer ends with a status word, 0x9000 for success. -/
def content : Reply → Bytes
  | .ctap2 b => b
  | .ctap1 (.ok b) => b ++ [0x90, 0x00]
  | .ctap1 (.error sw) => [UInt8.ofNat (sw.toNat / 256), UInt8.ofNat (sw.toNat % 256)]
  | .nothing => []

/-- The command processor was given this message, once, and the packets in `r` are its answer; an answer that does not fit is
replaced by an internal error. -/
def Executed (i : Ctap.Input) (cid : Bytes) (cmd : Nat) (s : St) (r : Res (List Bytes)) (s' : St) : Prop :=
  s' = (stepM i s).2 ∧ r.alive = (stepM i s).1.alive ∧
    ∀ reply, (stepM i s).1 = .ok reply → ∃ out, r = .ok out ∧
      ((content reply).length ≤ 7609 → Spells out cid cmd (content reply)) ∧
      (7609 < (content reply).length → Spells out cid 0x10 [Status.internalError.toByte])

/-- The message was executed: a CTAP2 message (command 0x10) on either interface, or a U2F message (command 0x03) on the main
one. -/
def Served (t : Transport) (cid : Bytes) (cmd : Nat) (payload : Bytes) (s : St) (r : Res (List Bytes)) (s' : St) : Prop :=
  (cmd = 0x10 ∧ Executed (.ctap2 (channel t cid) payload) cid 0x10 s r s') ∨
  (cmd = 0x03 ∧ t = .main ∧ Executed (.ctap1 payload) cid 0x03 s r s')

/-- The time that passes. -/
def total (xs : List (Nat × Bytes)) : Nat := (xs.map (·.1)).sum

/-- Packets sent to one interface, with the milliseconds that pass before each; the answers and the device after it. -/
def feed (t : Transport) : List (Nat × Bytes) → Device → List (Res (List Bytes)) × Device
  | [], d => ([], d)
  | (ms, p) :: rest, d =>
    let r := step (.packet t p) (step (.wait ms) d).2
    let q := feed t rest r.2
    (r.1 :: q.1, q.2)

/-- The packet is of this channel. -/
def own (cid : Bytes) (x : Nat × Bytes) : Bool := x.2.take 4 == cid

/-- Less than 100 ms pass from each packet of the channel to the next (`gap` have passed already). -/
def Soon (cid : Bytes) : Nat → List (Nat × Bytes) → Prop
  | _, [] => True
  | gap, x :: rest => gap + x.1 < 100 ∧ Soon cid (if own cid x then 0 else gap + x.1) rest

/-- No channel lock is in force, on either interface. -/
def Quiet (d : Device) : Prop := ∀ t c, ¬ (d.hid.get t).HoldsLock c d.st.env.now

/-- The interface is receiving no message, and no lock is in force. -/
def Idle (t : Transport) (d : Device) : Prop :=
  (d.hid.get t).asm.idle = true ∧ (d.hid.get t).asm.payload = [] ∧ Quiet d

/-- The interface is ready for a message of this channel, which is one of those given out. -/
def Ready (t : Transport) (cid : Bytes) (d : Device) : Prop :=
  Idle t d ∧ cid.length = 4 ∧ cid ≠ [0xFF, 0xFF, 0xFF, 0xFF] ∧ 0 < Hid.cidToNat cid ∧
    Hid.cidToNat cid ≤ (d.hid.get t).allocated

/-- The answer to a packet while a message of channel `cid` is being received: nothing for the packets of the message, an
error packet (busy, or invalid channel) on its own channel for any other. -/
def Held (cid : Bytes) (x : Nat × Bytes) (r : Res (List Bytes)) : Prop :=
  if own cid x then r = .ok []
  else ∃ q data, r = .ok [q] ∧ IsInit q (x.2.take 4) 0x3F 1 data ∧ (data.head? = some 0x06 ∨ data.head? = some 0x0B)

/-- An empty WINK (command 0x08) was answered on the main interface, with an empty WINK. -/
def Winked (e : Event) : Prop :=
  ∃ p q cid data, e.input = .packet .main p ∧ e.out = .ok [q] ∧ IsInit q cid 0x08 0 data

/-- Not a packet of the main interface that was answered. -/
def Unanswered (e : Event) : Prop := ∀ p, e.input = .packet .main p → e.out = .ok []

/-- The state after some time. -/
def later (ms : Nat) (s : St) : St := { s with env := { s.env with now := s.env.now + ms } }

/-- The reachable devices, as `Ctap.Reach`. -/
inductive Reach (P : Oracle → Prop) : Bool → Device → Prop
  | factory (env : Env) (att : Option Attestation) (hid : Hid.Both) (wink : Timer) :
      Reach P false { st := { env := env, p := { attestation := att }, v := Vol.off, log := [] }, hid := hid, wink := wink }
  | boot {b : Bool} {d : Device} (o : Oracle) (ho : P o) (h : Reach P b d) :
      Reach P (Usb.boot (d.withOracle o)).1.alive (Usb.boot (d.withOracle o)).2
  | step {d : Device} (o : Oracle) (ho : P o) (i : Input) (h : Reach P true d) :
      Reach P (Usb.step i (d.withOracle o)).1.alive (Usb.step i (d.withOracle o)).2

end Verif.Usb
