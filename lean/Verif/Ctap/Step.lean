import Verif.Ctap.CredMgmt
import Verif.Ctap.Config
import Verif.Ctap.U2f

/-!
# The device as a state machine: `process_command` (`mod.rs:585-701`), power-up, inputs, reachable states
-/
namespace Verif.Ctap
open Verif.Cbor (beNat)
variable [Dev]

/-- `clear_other_channels` (`mod.rs:574-583`). -/
def clearOtherChannels (ch : Channel) : M Unit :=
  modV fun v => { v with u2f := U2fUp.new, sp := v.sp.clearOldChannels ch }

/-- The pairs of command and stateful command in the match at `mod.rs:628-647`. -/
def keepsStateful : Command → Option Stateful → Bool
  | .getNextAssertion, some (.getAssertion _ _) => true
  | .reset, some .reset => true
  | .getInfo, some .reset => true
  | .selection, some .reset => true
  | .makeCredential _, some .reset => true
  | .credMgmt _, some (.enumerateRps _) => true
  | .credMgmt _, some (.enumerateCredentials _) => true
  | _, _ => false

/-- `process_fido_command` (`mod.rs:655-689`). -/
def fidoCommand (ch : Channel) : Command → M Response
  | .makeCredential a => makeCredential a
  | .getAssertion a => getAssertion a ch
  | .getNextAssertion => getNextAssertion
  | .getInfo => getInfo
  | .clientPin a => do
    let r ← clientPinCommand a
    M.pure (.clientPin r)
  | .reset => resetCommand
  | .credMgmt a => credentialManagement a ch
  | .selection => selection
  | .largeBlobs a => largeBlobsCommand a
  | .config a => configCommand a

/-- `process_vendor_command` of `CtapState` (`mod.rs:692-701`). -/
def vendorChannelCommand : Command → M Response
  | .getInfo => getInfo
  | _ => fail .invalidCommand

/-- The end of `process_parsed_command` (`mod.rs:648-652`). -/
def channelCommand (ch : Channel) (cmd : Command) : M Response :=
  match ch with
  | .main _ => fidoCommand ch cmd
  | .vendor _ => vendorChannelCommand cmd

/-- `process_parsed_command` (`mod.rs:618-653`). -/
def processParsed (cmd : Command) (ch : Channel) : M Response := do
  updateTimeouts
  clearOtherChannels ch
  let c ← getCommand
  whenM (!keepsStateful cmd c) (modSp fun _ => .cleared)
  channelCommand ch cmd

/-- The signature counter in authenticator data. -/
def authDataCounter (ad : Bytes) : Nat := beNat ((ad.drop 33).take 4)

/-- Record the signature counter of a response that leaves the device. -/
def logCounter : Response → M Unit
  | .makeCredential r => logE (.counter (authDataCounter r.authData) .registration)
  | .getAssertion r => logE (.counter (authDataCounter r.authData) .assertion)
  | .getNextAssertion r => logE (.counter (authDataCounter r.authData) .next)
  | _ => M.pure ()

/-- The encoding of a response (`mod.rs:599-609`). -/
def encodeResponse (r : Response) : M Bytes :=
  match r.toCbor with
  | none => panicM
  | some none => M.pure [Status.ok.toByte]
  | some (some v) =>
    match cborWrite v with
    | .ok b => M.pure (Status.ok.toByte :: b)
    | .error _ => M.pure [Status.internalError.toByte]

/-- Sending the response; power may be cut before. -/
def respond (r : Response) : M Bytes := do
  let b ← encodeResponse r
  effect fun _ => .ok ()
  logCounter r
  M.pure b

/-- An error becomes its status byte (`mod.rs:610`). -/
def errorByte (m : M Bytes) : M Bytes := fun s =>
  match m s with
  | (.err e, s') => (.ok [e.toByte], s')
  | r => r

/-- `process_command` (`mod.rs:585-612`). Simplified: the hook `env.process_vendor_command` (591-595) handles no
command (its implementation for Tock is not part of the library). -/
def processCommand (ch : Channel) (msg : Bytes) : M Bytes :=
  match Command.deserialize msg with
  | .error e => M.pure [e.toByte]
  | .ok cmd => errorByte do
    let r ← processParsed cmd ch
    respond r

/-- A CTAP1 message (`hid/main` dispatches it to `Ctap1Command::process_command`). -/
def processU2f (msg : Bytes) : M (Except Sw Bytes) := do
  let r ← u2fCommand msg
  effect fun _ => .ok ()
  match U2fCommand.parse msg, r with
  | .ok (.authenticate _ _ _ _), .ok b => do
    logE (.counter (beNat ((b.drop 1).take 4)) .assertion)
    M.pure r
  | _, _ => M.pure r

/-- `u2f_grant_user_presence` (`mod.rs:1393-1395`). -/
def touchButton : M Unit := do
  let t ← clock
  modV fun v => { v with u2f := v.u2f.grant t }
  logE (.u2fTouch t)

/-- What reaches the device. -/
inductive Input
  /-- a CTAP2 message on a channel -/
  | ctap2 (ch : Channel) (msg : Bytes)
  /-- a U2F message -/
  | ctap1 (msg : Bytes)
  /-- the button is touched while no command is running -/
  | touch
  /-- time passes -/
  | wait (ms : Nat)
deriving DecidableEq, Repr

/-- What the device answers. -/
inductive Reply
  | ctap2 (b : Bytes)
  | ctap1 (r : Except Sw Bytes)
  | nothing

/-- Processing of one input. -/
def stepM : Input → M Reply
  | .ctap2 ch msg => do
    let b ← processCommand ch msg
    M.pure (.ctap2 b)
  | .ctap1 msg => do
    let r ← processU2f msg
    M.pure (.ctap1 r)
  | .touch => do
    touchButton
    M.pure .nothing
  | .wait ms => fun s => (.ok .nothing, { s with env := { s.env with now := s.env.now + ms } })

/-- Power-up: `CtapState::new` (`mod.rs:543-553`). `StatefulPermission::new_reset` (`mod.rs:418-424`). -/
def bootM : M Unit := do
  let c ← ClientPin.fresh
  let t ← clock
  modV fun _ =>
    { pin := c, u2f := U2fUp.new
      sp := { timer := makeTimer t 10000, cmd := some .reset, channel := none }
      lb := LargeBlobs.new }
  logE (.boot t)

/-- A new oracle for the next input. -/
def St.withOracle (s : St) (o : Oracle) : St := { s with env := { s.env with o := o, k := 0 } }

/-- Did the device survive? -/
def Res.alive : Res α → Bool
  | .ok _ => true
  | .err _ => true
  | .panic => false
  | .crash => false

/-- The volatile data before the first power-up; `bootM` overwrites all of it. -/
def Vol.off : Vol :=
  { pin := { p1 := ⟨[], []⟩, p2 := ⟨[], []⟩, mismatches := 0, tok := TokenState.new }
    u2f := U2fUp.new, sp := .cleared, lb := LargeBlobs.new }

/-- The states reachable from a device that holds no user data, for any environment that satisfies `P` at each
step; the flag says whether the device is running. Power can be cut within a step (oracle) or between two steps
(`boot` from a running device). -/
inductive Reach (P : Oracle → Prop) : Bool → St → Prop
  | factory (env : Env) (att : Option Attestation) :
      Reach P false { env := env, p := { attestation := att }, v := Vol.off, log := [] }
  | boot {b : Bool} {s : St} (o : Oracle) (ho : P o) (h : Reach P b s) :
      Reach P (bootM (s.withOracle o)).1.alive (bootM (s.withOracle o)).2
  | step {s : St} (o : Oracle) (ho : P o) (i : Input) (h : Reach P true s) :
      Reach P (stepM i (s.withOracle o)).1.alive (stepM i (s.withOracle o)).2

end Verif.Ctap
