import Verif.Main.Model
import Verif.Usb.Spec

/-!
# C84: what a client may expect of the loop that moves the packets
-/
namespace Verif.Main
open Verif.Ctap hiding Transport Input
open Verif.Hid (Transport)
open Verif.Usb (Device)
variable [Dev]

/-- The histories of a running device: what happened since power-up, and the loop after it. Packets have 64 bytes. -/
inductive Run : List Event → Loop → Prop
  | boot (d : Device) (h : (Usb.boot d).1.alive = true) : Run [] (start (Usb.boot d).2)
  | turn {h : List Event} {l l' : Loop} {evs : List Event} (x : Turn) (hr : Run h l)
      (hx : ∀ e p, x.recv = .received e p → p.length = 64) (ht : turn x l = (.ok evs, l')) : Run (h ++ evs) l'

/-- The histories that keep to the rules, with the interface that is being answered and the packets that are still to be sent to
it: a packet is taken only when nothing is left to send, its answer is sent to the interface it came from, in order, one packet after
the other, and when the client does not take a packet in time, that packet and the rest of the answer are given up. -/
inductive Orderly : List Event → Transport → List Bytes → Prop
  | start (t : Transport) : Orderly [] t []
  | packet {h : List Event} {t : Transport} (t' : Transport) (p : Bytes) (answer : List Bytes) :
      Orderly h t [] → Orderly (h ++ [.packet t' p answer]) t' answer
  | sent {h : List Event} {t : Transport} {q : Bytes} {qs : List Bytes} : Orderly h t (q :: qs) → Orderly (h ++ [.sent t q]) t qs
  | lost {h : List Event} {t : Transport} {q : Bytes} {qs : List Bytes} : Orderly h t (q :: qs) → Orderly (h ++ [.lost t q]) t []
  | touch {h : List Event} {t : Transport} {qs : List Bytes} : Orderly h t qs → Orderly (h ++ [.touch]) t qs

/-- A packet came in. -/
def Event.isPacket : Event → Bool
  | .packet .. => true
  | _ => false

/-- A packet went out, or was given up. -/
def Event.isOutput : Event → Bool
  | .sent .. => true
  | .lost .. => true
  | _ => false

/-- What reached the commands: packets with their answers, and touches. -/
def asked : Event → Option (Usb.Input × List Bytes)
  | .packet t p answer => some (.packet t p, answer)
  | .touch => some (.touch, [])
  | _ => none

/-- The same in the history of the device behind its USB interface (C70), where time passes as well. -/
def asked' (e : Usb.Event) : Option (Usb.Input × List Bytes) :=
  match e.input, e.out with
  | .wait _, _ => none
  | i, .ok out => some (i, out)
  | i, _ => some (i, [])

end Verif.Main
