import Verif.Hid.Model
/-!
# Specification vocabulary for CTAP HID (independent of the assembler and the splitter)

CTAP 2.1, section 11.2.4: an initialisation packet is `CID(4) ‖ 0x80|CMD ‖ BCNT(2, big endian) ‖ DATA(57)`,
a continuation packet is `CID(4) ‖ SEQ(<0x80) ‖ DATA(59)`.
-/
namespace Verif.Hid

/-- `p` is an initialisation packet of channel `cid` with command byte `cmd` announcing `len` bytes. -/
def IsInit (p cid : Bytes) (cmd len : Nat) (data : Bytes) : Prop :=
  ∃ b0 b1 b2 : UInt8, p = cid ++ [b0, b1, b2] ++ data ∧ cid.length = 4 ∧ data.length = 57 ∧
    b0.toNat = 128 + cmd ∧ len = b1.toNat * 256 + b2.toNat

/-- `p` is the continuation packet number `seq` of channel `cid`. -/
def IsCont (p cid : Bytes) (seq : Nat) (data : Bytes) : Prop :=
  ∃ b : UInt8, p = cid ++ [b] ++ data ∧ cid.length = 4 ∧ data.length = 59 ∧ b.toNat = seq ∧ seq < 128

/-- The channel a packet is sent on. -/
def onChannel (cid p : Bytes) : Bool := p.take 4 == cid

/-- What the device saw and answered for one packet. -/
structure Ev where
  time : Nat
  packet : Bytes
  result : Except (Bytes × Err) (Option Message)

/-- The packet was accepted (not answered by an error). -/
def Ev.accepted (e : Ev) : Bool := match e.result with | .ok _ => true | .error _ => false

/-- Feeds packets, each with an arrival time and the lock state at that time, and logs the answers. -/
def log (maxMsg : Nat) : Asm → List (Nat × Bytes × Option Bytes) → List Ev
  | _, [] => []
  | a, (t, p, l) :: rest =>
    let r := a.parsePacket maxMsg t p l
    { time := t, packet := p, result := r.2 } :: log maxMsg r.1 rest

/-- `acc` is one initialisation packet of channel `cid` followed by its continuation packets 0, 1, 2, …, without
gap or repetition, no two further apart than the transaction timeout; `cmd` and `len` are those announced and
`bytes` is the concatenation of the data fields. -/
structure Sequence (acc : List Ev) (cid : Bytes) (cmd len : Nat) (bytes : Bytes) : Prop where
  split : ∃ (e0 : Ev) (es : List Ev) (data0 : Bytes) (datas : List Bytes), acc = e0 :: es ∧ IsInit e0.packet cid cmd len data0 ∧
    datas.length = es.length ∧
    (∀ i (h : i < es.length) (h' : i < datas.length), IsCont es[i].packet cid i datas[i]) ∧
    bytes = data0 ++ datas.flatten
  timely : ∀ i (h : i + 1 < acc.length), acc[i + 1].time < acc[i].time + 100

/-- Every packet arrives less than 100 ms after the previous packet of channel `cid` (`last` is when that was). -/
def inTime (cid : Bytes) : Nat → List (Nat × Bytes) → Prop
  | _, [] => True
  | last, (t, p) :: rest => t < last + 100 ∧ inTime cid (if onChannel cid p then t else last) rest

/-- The complete messages delivered, in order. -/
def delivered (evs : List Ev) : List Message :=
  evs.filterMap (fun e => match e.result with | .ok (some m) => some m | _ => none)

end Verif.Hid

namespace Verif.Hid

/-! ## Whole transports -/

/-- Feeds packets (arrival time, packet, other transport locked?) to one transport; logs the answers. -/
def hidLog (maxMsg : Nat) : Hid → List (Nat × Bytes × Bool) → List (Option Message)
  | _, [] => []
  | h, (t, p, d) :: rest =>
    let r := h.parsePacket maxMsg t p d
    r.2 :: hidLog maxMsg r.1 rest

/-- The state of a transport after some packets. -/
def hidRun (maxMsg : Nat) : Hid → List (Nat × Bytes × Bool) → Hid
  | h, [] => h
  | h, (t, p, d) :: rest => hidRun maxMsg (h.parsePacket maxMsg t p d).1 rest

/-- The channel ids handed out: bytes 8–11 of the answers to INIT on the broadcast channel. -/
def handedOut (out : List (Option Message)) : List Bytes :=
  out.filterMap (fun o => o.bind (fun m =>
    if m.cmd = .init ∧ m.cid = [0xFF, 0xFF, 0xFF, 0xFF] then some ((m.payload.drop 8).take 4) else none))

/-- Not a refusal: the device serves the request (or passes it on to the application). -/
def served (o : Option Message) : Prop := ∃ m, o = some m ∧ m.cmd ≠ .error

/-- Feeds packets to the device (arrival time, transport, packet). -/
def bothLog (maxMsg : Nat) : Both → List (Nat × Transport × Bytes) → List (Option Message)
  | _, [] => []
  | b, (t, tr, p) :: rest =>
    let r := b.parsePacket maxMsg t tr p
    r.2 :: bothLog maxMsg r.1 rest

/-- The device state after some packets. -/
def bothRun (maxMsg : Nat) : Both → List (Nat × Transport × Bytes) → Both
  | b, [] => b
  | b, (t, tr, p) :: rest => bothRun maxMsg (b.parsePacket maxMsg t tr p).1 rest

/-- Channel `c` holds the lock of this transport at time `now`. -/
def Hid.HoldsLock (h : Hid) (c : Bytes) (now : Nat) : Prop :=
  h.locked = some c ∧ ∃ d, h.lockTimer = some d ∧ now < d

end Verif.Hid

namespace Verif.Hid

/-- One of the two transports. -/
def Both.get (b : Both) : Transport → Hid
  | .main => b.main
  | .vendor => b.vendor

/-- The other transport. -/
def Transport.other : Transport → Transport
  | .main => .vendor
  | .vendor => .main

/-- Arrival times never go back (and start at `t` or later). -/
def Ordered : Nat → List (Nat × Transport × Bytes) → Prop
  | _, [] => True
  | t, x :: rest => t ≤ x.1 ∧ Ordered x.1 rest

/-- Time of the last packet. -/
def lastTime : Nat → List (Nat × Transport × Bytes) → Nat
  | t, [] => t
  | _, x :: rest => lastTime x.1 rest

/-- Power-up state of both transports. -/
def Both.new (c1 c2 : UInt8) : Both := { main := Hid.new c1, vendor := Hid.new c2 }

end Verif.Hid
