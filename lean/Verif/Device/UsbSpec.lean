import Verif.Device.LoginSpec
import Verif.Usb.Spec

/-!
# One exchange over USB
-/
namespace Verif.Device
open Verif.Ctap hiding Transport
open Verif.Hid (Transport)
open Verif.Usb (Ready Spells Soon own feed)

/-- On the device `d`, whose interface is ready, a client sends the packets of a CTAP2 message `msg` on its channel, each less than
100 ms after the one before it, and receives the packets of the answer `ans`; then the device is `d'`. Other clients may send packets
in between. -/
def Exchanged [Dev] (t : Transport) (cid msg ans : Bytes) (d d' : Usb.Device) : Prop :=
  ∃ (ms : Nat) (p : Bytes) (rest : List (Nat × Bytes)) (outs : List (Res (List Bytes))) (out : List Bytes),
    Ready t cid d ∧ (∀ x ∈ rest, x.2.length = 64) ∧ Spells (p :: (rest.filter (own cid)).map (·.2)) cid 0x10 msg ∧
    (rest.filter (own cid)).length = (msg.length - 57 + 58) / 59 ∧ (∀ x, rest.getLast? = some x → own cid x = true) ∧
    msg.length ≤ Dev.maxMsgSize ∧ Soon cid 0 rest ∧
    feed t ((ms, p) :: rest) d = (outs ++ [.ok out], d') ∧ Spells out cid 0x10 ans

end Verif.Device
