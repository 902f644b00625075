import Verif.Usb.UsbApp
import Verif.Main.Model

/-!
# Waiting for a touch on top of the USB drivers
-/
namespace Verif.Main
open Verif.Hid (Bytes Transport)
open Verif.Usb.Kernel (Sys Call Race Status)

/-- `UsbEndpoint` (`libraries/opensk/src/api/connection.rs:17-21`). -/
def endpointNumber : Transport → Nat
  | .main => 1
  | .vendor => 2

/-- `TockHidConnection::send_and_maybe_recv` (`src/env/tock/mod.rs:119-132`): what it makes of the status of the driver. An error is `some none`,
and `none` says that the driver has not returned. -/
def connectionStatus : Status → Option (Option Usb.SendOrRecv)
  | .timeout => some (some .timeout)
  | .sent => some (some .sent)
  | .received t p => some (some (.received t p))
  | .fail => some none
  | .waiting => none

/-- The call of the driver in `send_keepalive_up_needed` (`libraries/opensk/src/ctap/mod.rs:258-266`). The message is one packet (`C84_keepalive`). -/
def keepaliveCall : Ctap.Channel → Call
  | .main cid => .sendOrRecv (endpointNumber .main) ((keepalive cid).rest.headD [])
  | .vendor cid => .sendOrRecv (endpointNumber .vendor) ((keepalive cid).rest.headD [])

/-- What the controller does in a round of the loop: while the device looks at the button, and while it sends the message. -/
structure Round where
  idle : List Usb.Kernel.Input
  race : Race

/-- The rounds of `check_user_presence` (`libraries/opensk/src/ctap/mod.rs:343-366`) without touch, and whether the last was canceled. How
many there are is left open (the time ends, or there is a touch); `none` if the kernel or the application panics, or the driver does not
return. -/
def waitTouch (ch : Ctap.Channel) (s : Sys) : List Round → Option (Bool × Sys)
  | [] => some (false, s)
  | x :: l =>
    (s.run x.idle).bind fun s1 =>
      (s1.call (keepaliveCall ch) x.race).bind fun (st, s2) =>
        match (connectionStatus st).map (Usb.keepalive ch) with
        | some .ok => waitTouch ch s2 l
        | some .canceled => some (true, s2)
        | _ => none

end Verif.Main
