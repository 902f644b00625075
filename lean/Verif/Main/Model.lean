import Verif.Usb.Model

/-!
# The main loop of the firmware: `src/main.rs`

One iteration sends one packet, or waits for one and processes it. Both features `with_ctap1` and `vendor_hid` are on,
`debug_ctap` is off.
-/
namespace Verif.Main
open Verif.Ctap hiding Transport Input
open Verif.Hid (Message Transport Splitter)
open Verif.Usb (Device)
variable [Dev]

/-- `HidPacketIterator` (`hid/send.rs:22`). -/
abbrev Iter := Option Splitter

/-- `MessageSplitter::finished` (`send.rs:109-115`); it says the opposite of its name. -/
def finished (s : Splitter) : Bool :=
  match s.seq with
  | none => true
  | some _ => s.i < s.msg.payload.length

/-- `HidPacketIterator::has_data` (`send.rs:38-44`). -/
def Iter.hasData : Iter → Bool
  | some s => finished s
  | none => false

/-- `HidPacketIterator::next` (`send.rs:50-55`); an iterator without a next packet stays as it is. -/
def Iter.next : Iter → Option (Bytes × Iter)
  | some s => s.next.map fun r => (r.1, some r.2)
  | none => none

/-- `split_message` (`hid/mod.rs:423-434`). -/
def splitMessage (m : Message) : Iter :=
  match Splitter.new m with
  | some s => some s
  | none => Splitter.new { cid := m.cid, cmd := .cbor, payload := [Status.internalError.toByte] }

/-- `CtapHid::keepalive` (`hid/mod.rs:435-441`) for `KeepaliveStatus::UpNeeded` (`hid/mod.rs:147-150`). -/
def keepalive (cid : Bytes) : Iter := splitMessage { cid := cid, cmd := .keepalive, payload := [2] }

/-- `Ctap::process_hid_packet` (`libraries/opensk/src/lib.rs:92-119`), with the iterator that it returns; see `Usb.processPacket`. -/
def processPacket (t : Transport) (p : Bytes) (d : Device) : Res Iter × Device :=
  let r := d.hid.parsePacket Dev.maxMsgSize d.st.env.now t p
  let d := { d with hid := r.1 }
  match r.2 with
  | none => (.ok none, d)
  | some m =>
    let r := Usb.processMessage t m d
    (Usb.mapRes splitMessage r.1, r.2)

/-- `EndpointReplies` (`main.rs:90-92`): the iterator of each endpoint. -/
structure Replies where
  main : Iter
  vendor : Iter

/-- `EndpointReplies::new` (`main.rs:95-103`). -/
def Replies.new : Replies := { main := none, vendor := none }

/-- `EndpointReplies::next_packet` (`main.rs:105-115`): the endpoint and the packet. -/
def Replies.nextPacket (r : Replies) : Option ((Transport × Bytes) × Replies) :=
  match r.main.next with
  | some (p, it) => some ((.main, p), { r with main := it })
  | none =>
    match r.vendor.next with
    | some (p, it) => some ((.vendor, p), { r with vendor := it })
    | none => none

/-- The assignment to the reply of an endpoint (`main.rs:117-124`, `main.rs:236-248`). -/
def Replies.set (r : Replies) (t : Transport) (it : Iter) : Replies :=
  match t with
  | .main => { r with main := it }
  | .vendor => { r with vendor := it }

/-- `UsbEndpoint::try_from` (`api/connection.rs:24-35`) and the transport of an endpoint (`main.rs:227-231`). -/
def endpoint (n : Nat) : Option Transport :=
  if n = 1 then some .main else if n = 2 then some .vendor else none

/-- How `UsbCtapHid::send` ends; `fail` is an error or an unexpected status. -/
inductive SendStatus | sent | timeout | fail
deriving DecidableEq

/-- How `UsbCtapHid::recv_with_timeout` ends; `fail` is an error or an unexpected status. -/
inductive RecvStatus
  | received (endpoint : Nat) (p : Bytes)
  | timeout
  | fail
deriving DecidableEq

/-- What the world does during one iteration. -/
structure Turn where
  /-- the environment of the commands -/
  o : Oracle
  /-- the milliseconds that pass while sending or receiving -/
  ms : Nat
  /-- which buttons are held down; `none` if there is no button driver -/
  buttons : Option (List Bool)
  send : SendStatus
  recv : RecvStatus

/-- What the LEDs show: off, or one of the patterns of `wink_leds` and `blink_leds` (`env/tock/mod.rs:462-510`). -/
inductive Leds | off | wink (n : Nat) | blink (n : Nat)
deriving DecidableEq

/-- What happens in an iteration. -/
inductive Event
  /-- a packet was handed to the client -/
  | sent (t : Transport) (p : Bytes)
  /-- a packet was given up, since the client did not take it in time -/
  | lost (t : Transport) (p : Bytes)
  /-- a button is held down -/
  | touch
  /-- a packet came in, and these packets are the answer -/
  | packet (t : Transport) (p : Bytes) (answer : List Bytes)
deriving DecidableEq

/-- The variables of `main` (`main.rs:138-146`). -/
structure Loop where
  dev : Device
  replies : Replies
  ledCounter : Nat
  ledTimer : Timer
  leds : Leds

/-- The packets that an iterator will yield. -/
def Iter.rest : Iter → List Bytes
  | some s => s.collect (s.msg.payload.length + 2)
  | none => []

/-- The LEDs (`main.rs:253-273`). The counter is unbounded here. -/
def showLeds (l : Loop) : Loop :=
  let now := l.dev.st.env.now
  let l := if Verif.Hid.Timer.isElapsed l.ledTimer now then { l with ledCounter := l.ledCounter + 1, ledTimer := makeTimer now 100 } else l
  if l.dev.shouldWink then { l with leds := .wink l.ledCounter }
  else if l.dev.st.v.u2f.isNeeded now then { l with leds := .blink l.ledCounter }
  else { l with leds := .off }

/-- The button (`main.rs:214-220`). -/
def grant (o : Oracle) (pressed : Bool) (l : Loop) : Loop :=
  if pressed then { l with dev := (Usb.step .touch (l.dev.withOracle o)).2 } else l

/-- The packet that came in (`main.rs:226-251`). -/
def serve (o : Oracle) (x : Option (Transport × Bytes)) (l : Loop) : Res (List Event) × Loop :=
  match x with
  | none => (.ok [], l)
  | some (t, p) =>
    let r := processPacket t p (l.dev.withOracle o)
    let l := { l with dev := r.2 }
    match r.1 with
    | .ok it => (.ok [.packet t p it.rest], { l with replies := if it.hasData then l.replies.set t it else l.replies })
    | .err e => (.err e, l)
    | .panic => (.panic, l)
    | .crash => (.crash, l)

/-- The second half of an iteration (`main.rs:214-273`). -/
def finish (o : Oracle) (bs : List Bool) (evs : List Event) (x : Option (Transport × Bytes)) (l : Loop) : Res (List Event) × Loop :=
  let pressed := bs.any id
  let r := serve o x (grant o pressed l)
  (Usb.mapRes (fun es => evs ++ (if pressed then [.touch] else []) ++ es) r.1, showLeds r.2)

/-- An iteration of the loop (`main.rs:154-274`). -/
def turn (x : Turn) (l : Loop) : Res (List Event) × Loop :=
  match x.buttons with
  | none => (.panic, l)
  | some bs =>
    let later (l : Loop) : Loop := { l with dev := (Usb.step (.wait x.ms) (l.dev.withOracle x.o)).2 }
    match l.replies.nextPacket with
    | some ((t, p), rs) =>
      match x.send with
      | .sent => finish x.o bs [.sent t p] none (later { l with replies := rs })
      | .timeout => finish x.o bs [.lost t p] none (later { l with replies := rs.set t none })
      | .fail => (.panic, later l)
    | none =>
      match x.recv with
      | .received e p => finish x.o bs [] ((endpoint e).map fun t => (t, p)) (later l)
      | .timeout => finish x.o bs [] none (later l)
      | .fail => (.panic, later l)

/-- The state when the loop begins (`main.rs:138-146`). -/
def start (d : Device) : Loop := { dev := d, replies := Replies.new, ledCounter := 0, ledTimer := none, leds := .off }

end Verif.Main
