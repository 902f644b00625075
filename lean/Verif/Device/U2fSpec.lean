import Verif.Device.Spec
import Verif.Usb.Spec
import Verif.Ctap.U2fLiveSpec

/-!
# A U2F message over USB
-/
namespace Verif.Device
open Verif.Ctap hiding Transport
open Verif.Usb (Ready Spells Soon own)

/-- On the device `d`, whose main interface is ready, a client sends the packets `p :: rest` of a U2F message `msg` on its channel, each
less than 100 ms after the one before it. Other clients may send packets in between. -/
structure U2fSent [Dev] (cid msg p : Bytes) (rest : List (Nat × Bytes)) (d : Usb.Device) : Prop where
  ready : Ready .main cid d
  packets : ∀ x ∈ rest, x.2.length = 64
  spells : Spells (p :: (rest.filter (own cid)).map (·.2)) cid 0x03 msg
  count : (rest.filter (own cid)).length = (msg.length - 57 + 58) / 59
  last : ∀ x, rest.getLast? = some x → own cid x = true
  fits : msg.length ≤ Dev.maxMsgSize
  soon : Soon cid 0 rest

end Verif.Device
