import Verif.Hid.Model
import Verif.Ctap.Step

/-!
# The device as seen from USB: `lib.rs`, `ctap/main_hid.rs`, `ctap/vendor_hid.rs`

Packets come in, packets go out. The transports are those of `Verif.Hid`, the commands those of `Verif.Ctap`. Both features
`with_ctap1` and `vendor_hid` are on.
-/
namespace Verif.Usb
open Verif.Ctap hiding Transport
open Verif.Hid (Message Transport Both)
variable [Dev]

/-- `Ctap` (`lib.rs:53-60`); the environment and `CtapState` are `st`, `wink` is the field `wink_permission` of `MainHid`
(`main_hid.rs:29-32`). -/
structure Device where
  st : St
  hid : Both
  wink : Timer

/-- `split_message` (`hid/mod.rs:423-434`): a response that is too long is replaced by an internal error. -/
def splitMessage (m : Message) : List Bytes :=
  match Hid.split m with
  | some ps => ps
  | none => (Hid.split { cid := m.cid, cmd := .cbor, payload := [Status.internalError.toByte] }).getD []

/-- The two bytes of a status word, `code.to_be_bytes()`. -/
def swBytes (sw : Sw) : Bytes := Verif.Cbor.beBytes 2 sw.toNat

/-- `ctap1_success_message` and `ctap1_error_message` (`main_hid.rs:134-155`). -/
def ctap1Message (cid : Bytes) : Except Sw Bytes → Message
  | .ok payload => { cid := cid, cmd := .msg, payload := payload ++ swBytes .success }
  | .error sw => { cid := cid, cmd := .msg, payload := swBytes sw }

/-- The outcome of a part of the code, as the outcome of the whole. -/
def mapRes (f : α → β) : Res α → Res β
  | .ok x => .ok (f x)
  | .err e => .err e
  | .panic => .panic
  | .crash => .crash

/-- A command changes the state `st`, its result becomes the message to send. -/
def answer (f : α → Message) (d : Device) (r : Res α × St) : Res Message × Device := (mapRes f r.1, { d with st := r.2 })

/-- `MainHid::process_message` (`main_hid.rs:71-121`). -/
def mainMessage (m : Message) (d : Device) : Res Message × Device :=
  let d := { d with wink := none }
  match m.cmd with
  | .msg =>
    answer (ctap1Message m.cid) d (processU2f m.payload d.st)
  | .cbor =>
    answer (fun r => { cid := m.cid, cmd := .cbor, payload := r }) d (processCommand (.main m.cid) m.payload d.st)
  | .wink =>
    if m.payload = [] then (.ok m, { d with wink := makeTimer d.st.env.now 5000 })
    else (.ok (Hid.errorMessage m.cid .invalidLen), d)
  | _ => (.ok m, d)

/-- `VendorHid::process_message` (`vendor_hid.rs:58-84`). -/
def vendorMessage (m : Message) (d : Device) : Res Message × Device :=
  match m.cmd with
  | .msg => (.ok (Hid.errorMessage m.cid .invalidCmd), d)
  | .cbor =>
    answer (fun r => { cid := m.cid, cmd := .cbor, payload := r }) d (processCommand (.vendor m.cid) m.payload d.st)
  | .wink => (.ok (Hid.errorMessage m.cid .invalidCmd), d)
  | _ => (.ok m, d)

/-- The message handler of a transport (`lib.rs:98-117`). -/
def processMessage : Transport → Message → Device → Res Message × Device
  | .main => mainMessage
  | .vendor => vendorMessage

/-- `Ctap::process_hid_packet` (`lib.rs:92-119`), `MainHid::process_hid_packet` (`main_hid.rs:55-69`),
`VendorHid::process_hid_packet` (`vendor_hid.rs:38-56`): the packets to send. -/
def processPacket (t : Transport) (p : Bytes) (d : Device) : Res (List Bytes) × Device :=
  let r := d.hid.parsePacket Dev.maxMsgSize d.st.env.now t p
  let d := { d with hid := r.1 }
  match r.2 with
  | none => (.ok [], d)
  | some m =>
    let r := processMessage t m d
    (mapRes splitMessage r.1, r.2)

/-- `should_wink` (`main_hid.rs:129-131`, `lib.rs:121-123`). -/
def Device.shouldWink (d : Device) : Bool := !d.wink.isElapsed d.st.env.now

/-- What reaches the device. -/
inductive Input
  /-- a packet on one of the interfaces -/
  | packet (t : Transport) (p : Bytes)
  /-- the button is touched while no command is running (`lib.rs:125-128`) -/
  | touch
  /-- time passes -/
  | wait (ms : Nat)
deriving DecidableEq

/-- Processing of one input. -/
def step : Input → Device → Res (List Bytes) × Device
  | .packet t p, d => processPacket t p d
  | .touch, d => (.ok [], { d with st := (stepM .touch d.st).2 })
  | .wait ms, d => (.ok [], { d with st := (stepM (.wait ms) d.st).2 })

/-- `CAPABILITY_WINK | CAPABILITY_CBOR` (`hid/mod.rs:195-197`, `main_hid.rs:37-38`). -/
def mainCapabilities : UInt8 := 0x01 ||| 0x04
/-- `CAPABILITY_CBOR | CAPABILITY_NMSG` (`hid/mod.rs:196-198`, `vendor_hid.rs:32`). -/
def vendorCapabilities : UInt8 := 0x04 ||| 0x08

/-- `Ctap::new` (`lib.rs:66-78`), `MainHid::default` (`main_hid.rs:34-51`), `VendorHid::default` (`vendor_hid.rs:29-34`). -/
def boot (d : Device) : Res Unit × Device :=
  let r := bootM d.st
  (r.1, { st := r.2, hid := { main := Hid.Hid.new mainCapabilities, vendor := Hid.Hid.new vendorCapabilities }, wink := none })

/-- A new oracle for the next input. -/
def Device.withOracle (d : Device) (o : Oracle) : Device := { d with st := d.st.withOracle o }

/-- `SendOrRecvStatus` (`api/connection.rs:33-38`) with the packet that was received. -/
inductive SendOrRecv
  | timeout
  | sent
  | received (t : Transport) (p : Bytes)

/-- `send_keepalive_up_needed` (`mod.rs:253-327`) for a connection that answers its one packet in this way (`none`: an error). -/
def keepalive (ch : Channel) : Option SendOrRecv → Keep
  | none => .ioError
  | some .timeout => .ok
  | some .sent => .ok
  | some (.received t p) =>
    let own : Transport × Bytes := match ch with | .main c => (.main, c) | .vendor c => (.vendor, c)
    if t ≠ own.1 then .ok
    else
      let r := Hid.processSinglePacket p
      if r.1 ≠ own.2 then .ok
      else
        match r.2 with
        | .init cmd _ _ => if cmd = Hid.Cmd.cancel.toNat then .canceled else .ok
        | .cont _ _ => .ok

end Verif.Usb
