/-!
# Model of CTAP HID framing: `libraries/opensk/src/ctap/hid/{mod,receive,send}.rs`

Packets and channel ids are byte lists (`[u8; 64]`, `[u8; 4]` in Rust; the theorems carry the length
hypotheses the Rust types guarantee).  Time is a natural number of milliseconds supplied with every call
(`env.clock()`), so all schedules are covered.
-/
namespace Verif.Hid

abbrev Bytes := List UInt8

/-- `Clock::Timer` (`libraries/opensk/src/api/clock.rs:17-34`): a deadline; the default timer is elapsed. -/
abbrev Timer := Option Nat
/-- `Clock::make_timer` (`api/clock.rs:25`). -/
def makeTimer (now ms : Nat) : Timer := some (now + ms)
/-- `Clock::is_elapsed` (`api/clock.rs:30`). -/
def Timer.isElapsed (t : Timer) (now : Nat) : Bool :=
  match t with
  | none => true
  | some d => d ≤ now

/-- `CtapHidCommand` (`hid/mod.rs:56-67`). -/
inductive Cmd
  | ping | msg | lock | init | wink | cbor | cancel | keepalive | error
deriving DecidableEq, Repr

/-- Discriminants (`hid/mod.rs:57-65`). -/
def Cmd.toNat : Cmd → Nat
  | .ping => 0x01 | .msg => 0x03 | .lock => 0x04 | .init => 0x06 | .wink => 0x08
  | .cbor => 0x10 | .cancel => 0x11 | .keepalive => 0x3B | .error => 0x3F

/-- `impl From<u8> for CtapHidCommand` (`hid/mod.rs:69-85`). -/
def Cmd.ofByte (n : Nat) : Cmd :=
  if n = 0x01 then .ping else if n = 0x03 then .msg else if n = 0x04 then .lock
  else if n = 0x06 then .init else if n = 0x08 then .wink else if n = 0x10 then .cbor
  else if n = 0x11 then .cancel else if n = 0x3B then .keepalive else .error

/-- `CtapHidError` (`hid/mod.rs:91-115`), used variants. -/
inductive Err
  | invalidCmd | invalidPar | invalidLen | invalidSeq | msgTimeout | channelBusy | invalidChannel
  | unexpectedContinuation
deriving DecidableEq, Repr

/-- Discriminants (`hid/mod.rs:93-114`); `UnexpectedContinuation` is never sent. -/
def Err.toNat : Err → Nat
  | .invalidCmd => 0x01 | .invalidPar => 0x02 | .invalidLen => 0x03 | .invalidSeq => 0x04
  | .msgTimeout => 0x05 | .channelBusy => 0x06 | .invalidChannel => 0x0B | .unexpectedContinuation => 0x80

/-- `Message` (`hid/mod.rs:135-142`). -/
structure Message where
  cid : Bytes
  cmd : Cmd
  payload : Bytes
deriving DecidableEq, Repr

def channelReserved : Bytes := [0, 0, 0, 0]
def channelBroadcast : Bytes := [0xFF, 0xFF, 0xFF, 0xFF]

/-- `ProcessedPacket` (`hid/mod.rs:121-131`). -/
inductive Processed
  | init (cmd len : Nat) (data : Bytes)
  | cont (seq : Nat) (data : Bytes)
deriving DecidableEq, Repr

/-- `CtapHid::process_single_packet` (`hid/mod.rs:386-408`). `rest[0] & 0x80 != 0` is `≥ 128`,
`rest[0] & !0x80` is `% 128`. -/
def processSinglePacket (p : Bytes) : Bytes × Processed :=
  let cid := p.take 4
  let rest := p.drop 4
  let r0 := (rest.getD 0 0).toNat
  if r0 ≥ 128 then
    (cid, .init (r0 % 128) ((rest.getD 1 0).toNat * 256 + (rest.getD 2 0).toNat) (rest.drop 3))
  else (cid, .cont r0 (rest.drop 1))

/-! ## Receiving (`hid/receive.rs`) -/

/-- `TIMEOUT_DURATION_MS` (`receive.rs:25`). -/
def timeoutMs : Nat := 100

/-- `MessageAssembler` (`receive.rs:28-43`). -/
structure Asm where
  idle : Bool
  cid : Bytes
  timer : Timer
  cmd : Nat
  seq : Nat
  remaining : Nat
  payload : Bytes
deriving DecidableEq, Repr

/-- `MessageAssembler::default` (`receive.rs:46-56`) and `reset` (`receive.rs:62-70`). -/
def Asm.default : Asm := { idle := true, cid := [0, 0, 0, 0], timer := none, cmd := 0, seq := 0, remaining := 0, payload := [] }

/-- `append_payload` (`receive.rs:172-190`). -/
def Asm.appendPayload (a : Asm) (data : Bytes) : Asm × Option Message :=
  if data.length < a.remaining then
    ({ a with payload := a.payload ++ data, idle := false, remaining := a.remaining - data.length }, none)
  else
    ({ a with payload := [], idle := true },
      some { cid := a.cid, cmd := Cmd.ofByte a.cmd, payload := a.payload ++ data.take a.remaining })

/-- `parse_init_packet` (`receive.rs:151-170`). -/
def Asm.parseInit (maxMsg now : Nat) (a : Asm) (cid : Bytes) (cmd len : Nat) (data : Bytes) :
    Asm × Except (Bytes × Err) (Option Message) :=
  if len > maxMsg then (a, .error (cid, .invalidLen)) else
  let a := { a with cid := cid, timer := makeTimer now timeoutMs, cmd := cmd, seq := 0, remaining := len }
  let r := a.appendPayload data
  (r.1, .ok r.2)

/-- The lock test of `parse_packet` (`receive.rs:85-91`): locked by another channel. -/
def lockedOut (locked : Option Bytes) (cid : Bytes) : Bool :=
  match locked with
  | some l => l != cid
  | none => false

/-- `MessageAssembler::parse_packet` (`receive.rs:77-149`); `self.seq += 1` overflows a `u8` only beyond 255,
never reached (`Hid.Props`). -/
def Asm.parsePacket (maxMsg now : Nat) (a : Asm) (p : Bytes) (locked : Option Bytes) :
    Asm × Except (Bytes × Err) (Option Message) :=
  let cp := processSinglePacket p
  let cid := cp.1
  if lockedOut locked cid then (a, .error (cid, .channelBusy)) else
  let timedOut := !a.idle && a.timer.isElapsed now
  let cur := a.cid
  let a := if timedOut then Asm.default else a
  if timedOut && cid == cur then (a, .error (cid, .msgTimeout)) else
  if a.idle then
    match cp.2 with
    | .init cmd len data => a.parseInit maxMsg now cid cmd len data
    | .cont _ _ => (a, .error (cid, .unexpectedContinuation))
  else if cid != a.cid then (a, .error (cid, .channelBusy))
  else
    match cp.2 with
    | .init cmd len data =>
      if cmd = Cmd.init.toNat then Asm.default.parseInit maxMsg now cid cmd len data
      else (Asm.default, .error (cid, .invalidSeq))
    | .cont seq data =>
      if seq ≠ a.seq then (Asm.default, .error (cid, .invalidSeq))
      else
        let r := { a with timer := makeTimer now timeoutMs, seq := a.seq + 1 }.appendPayload data
        (r.1, .ok r.2)

/-! ## Sending (`hid/send.rs`) -/

/-- `MessageSplitter` (`send.rs:58-63`). -/
structure Splitter where
  msg : Message
  packet : Bytes
  seq : Option Nat
  i : Nat

/-- `MessageSplitter::new` (`send.rs:69-84`), via `HidPacketIterator::new` (`send.rs:25-32`). -/
def Splitter.new (m : Message) : Option Splitter :=
  if m.payload.length > 7609 then none
  else some { msg := m, packet := m.cid ++ List.replicate 60 0, seq := none, i := 0 }

/-- `consume_data` (`send.rs:90-106`) into a destination of `n` bytes: the new contents and the count. -/
def consumeData (n : Nat) (data : Bytes) : Bytes × Nat :=
  if data.length ≤ n then (data ++ List.replicate (n - data.length) 0, data.length)
  else (data.take n, n)

/-- `MessageSplitter::next` (`send.rs:121-150`). -/
def Splitter.next (s : Splitter) : Option (Bytes × Splitter) :=
  let len := s.msg.payload.length
  match s.seq with
  | none =>
    let c := consumeData 57 s.msg.payload
    let packet := s.packet.take 4 ++
      [UInt8.ofNat (s.msg.cmd.toNat ||| 0x80), UInt8.ofNat (len / 256 % 256), UInt8.ofNat (len % 256)] ++ c.1
    some (packet, { s with packet := packet, seq := some 0, i := c.2 })
  | some seq =>
    if s.i < len then
      let c := consumeData 59 (s.msg.payload.drop s.i)
      let packet := s.packet.take 4 ++ [UInt8.ofNat seq] ++ c.1
      some (packet, { s with packet := packet, seq := some (seq + 1), i := s.i + c.2 })
    else none

/-- All packets of the iterator, with a bound on the number of `next` calls. -/
def Splitter.collect : Nat → Splitter → List Bytes
  | 0, _ => []
  | n + 1, s =>
    match s.next with
    | none => []
    | some (p, s) => p :: collect n s

/-- The packets sent for a message, `None` if too long (`send.rs:25-32`). The bound suffices: each
continuation packet consumes at least one byte (`Hid.Props.C06_split_complete`). -/
def split (m : Message) : Option (List Bytes) :=
  (Splitter.new m).map (fun s => s.collect (m.payload.length + 2))

/-! ## Channels and locks (`hid/mod.rs`) -/

/-- `CtapHid` (`hid/mod.rs:180-192`). -/
structure Hid where
  asm : Asm
  allocated : Nat
  capabilities : UInt8
  locked : Option Bytes
  lockTimer : Timer
deriving DecidableEq, Repr

/-- `CtapHid::new` (`hid/mod.rs:203-211`). -/
def Hid.new (caps : UInt8) : Hid :=
  { asm := Asm.default, allocated := 0, capabilities := caps, locked := none, lockTimer := none }

/-- `locked_channel` (`hid/mod.rs:213-218`). -/
def Hid.lockedChannel (now : Nat) (h : Hid) : Hid × Option Bytes :=
  let h := if h.lockTimer.isElapsed now then { h with locked := none } else h
  (h, h.locked)

/-- `has_channel_lock` (`hid/mod.rs:221-223`). -/
def Hid.hasChannelLock (now : Nat) (h : Hid) : Hid × Bool :=
  let r := h.lockedChannel now
  (r.1, r.2.isSome)

/-- `u32::from_be_bytes`. -/
def cidToNat (cid : Bytes) : Nat := cid.foldl (fun acc b => acc * 256 + b.toNat) 0

/-- `(n as u32).to_be_bytes()`. -/
def natToCid (n : Nat) : Bytes :=
  [UInt8.ofNat (n / 2 ^ 24 % 256), UInt8.ofNat (n / 2 ^ 16 % 256), UInt8.ofNat (n / 2 ^ 8 % 256), UInt8.ofNat (n % 256)]

/-- `is_allocated_channel` (`hid/mod.rs:373-375`). -/
def Hid.isAllocated (h : Hid) (cid : Bytes) : Bool := cid != channelReserved && cidToNat cid ≤ h.allocated

/-- `has_valid_channel` (`hid/mod.rs:364-371`). -/
def Hid.hasValidChannel (h : Hid) (m : Message) : Bool :=
  if m.cid = channelBroadcast then m.cmd == .init else h.isAllocated m.cid

/-- `error_message` (`hid/mod.rs:377-383`). -/
def errorMessage (cid : Bytes) (e : Err) : Message := { cid := cid, cmd := .error, payload := [UInt8.ofNat e.toNat] }

/-- `preprocess_message` (`hid/mod.rs:286-362`). `allocated_cids` is unbounded here: the overflow after `2^32`
allocations (see the TODO at line 302) is visible through `natToCid`. -/
def Hid.preprocess (now : Nat) (h : Hid) (m : Message) : Hid × Option Message :=
  if !h.hasValidChannel m then (h, some (errorMessage m.cid .invalidChannel)) else
  match m.cmd with
  | .msg => (h, some m)
  | .cbor => (h, some m)
  | .init =>
    if m.payload.length ≠ 8 then (h, some (errorMessage m.cid .invalidLen)) else
    let h' := if m.cid = channelBroadcast then { h with allocated := h.allocated + 1 } else h
    let newCid := if m.cid = channelBroadcast then natToCid h'.allocated else m.cid
    (h', some { cid := m.cid, cmd := .init, payload := m.payload ++ newCid ++ [2, 1, 0, 0, h.capabilities] })
  | .ping => (h, some m)
  | .cancel => (h, none)
  | .wink => (h, some m)
  | .lock =>
    match m.payload with
    | [n] =>
      if n.toNat > 10 then (h, some (errorMessage m.cid .invalidPar))
      else
        let h' := if n.toNat = 0 then { h with locked := none }
          else { h with locked := some m.cid, lockTimer := makeTimer now (1000 * n.toNat) }
        (h', some { cid := m.cid, cmd := .lock, payload := [] })
    | _ => (h, some (errorMessage m.cid .invalidLen))
  | .keepalive => (h, some (errorMessage m.cid .invalidCmd))
  | .error => (h, some (errorMessage m.cid .invalidCmd))

/-- `CtapHid::parse_packet` (`hid/mod.rs:244-276`). -/
def Hid.parsePacket (maxMsg now : Nat) (h : Hid) (p : Bytes) (disabled : Bool) : Hid × Option Message :=
  let hl := if disabled then (h, some channelReserved) else h.lockedChannel now
  let h := hl.1
  let r := h.asm.parsePacket maxMsg now p hl.2
  let h := { h with asm := r.1 }
  match r.2 with
  | .ok (some m) => h.preprocess now m
  | .ok none => (h, none)
  | .error (cid, e) =>
    if e = .unexpectedContinuation then (h, none)
    else if !h.isAllocated cid then (h, some (errorMessage cid .invalidChannel))
    else (h, some (errorMessage cid e))

/-! ## Two transports (`libraries/opensk/src/lib.rs`) -/

inductive Transport
  | main | vendor
deriving DecidableEq, Repr

/-- The two HID transports of `Ctap` (`lib.rs:50-60`, feature `vendor_hid`). -/
structure Both where
  main : Hid
  vendor : Hid
deriving DecidableEq, Repr

/-- Receiving part of `Ctap::process_hid_packet` (`lib.rs:92-118`). -/
def Both.parsePacket (maxMsg now : Nat) (b : Both) (t : Transport) (p : Bytes) : Both × Option Message :=
  match t with
  | .main =>
    let l := b.vendor.hasChannelLock now
    let r := b.main.parsePacket maxMsg now p l.2
    ({ main := r.1, vendor := l.1 }, r.2)
  | .vendor =>
    let l := b.main.hasChannelLock now
    let r := b.vendor.parsePacket maxMsg now p l.2
    ({ main := l.1, vendor := r.1 }, r.2)

end Verif.Hid
