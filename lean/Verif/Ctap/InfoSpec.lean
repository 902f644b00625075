import Verif.Ctap.WireSpec
import Verif.Ctap.CredSpec

/-!
# Reading the answer to GetInfo

Section 6.4 of the CTAP2.1 specification: the answer is a map whose keys are small numbers. The functions here look the entries up
in the bytes of the answer, as a client does.
-/
namespace Verif.Ctap
open Verif.Cbor (Value readNested)

namespace Info

/-- The entries of the map after the status byte. -/
def entries (ans : Bytes) : List (Value × Value) :=
  match readNested 64 (ans.drop 1) (some 4) with
  | .ok (.map m) => m
  | _ => []

/-- The value of an entry whose key is this number. -/
def isAt (k : Nat) : Value × Value → Option Value
  | (.unsigned n, v) => if n = k then some v else none
  | _ => none

/-- The value of an entry whose key is this text. -/
def isNamed (name : Bytes) : Value × Value → Option Value
  | (.text t, v) => if t = name then some v else none
  | _ => none

/-- The entry with this number. -/
def field (ans : Bytes) (k : Nat) : Option Value := (entries ans).findSome? (isAt k)

def asNumber : Value → Option Nat
  | .unsigned n => some n
  | _ => none

def asText : Value → Option Bytes
  | .text t => some t
  | _ => none

def asBool : Value → Option Bool
  | .simple .true_ => some true
  | .simple .false_ => some false
  | _ => none

def number (ans : Bytes) (k : Nat) : Option Nat := (field ans k).bind asNumber

def flag (ans : Bytes) (k : Nat) : Option Bool := (field ans k).bind asBool

/-- The option of this name, in the entry 4. -/
def option (ans : Bytes) (name : Bytes) : Option Bool :=
  match field ans 4 with
  | some (.map m) => (m.findSome? (isNamed name)).bind asBool
  | _ => none

/-- The supported versions, in the entry 1. -/
def versions (ans : Bytes) : List Bytes :=
  match field ans 1 with
  | some (.array l) => l.filterMap asText
  | _ => []

/-- The supported PIN protocols, in the entry 6. -/
def protocols (ans : Bytes) : List Nat :=
  match field ans 6 with
  | some (.array l) => l.filterMap asNumber
  | _ => []

/-! The entries used in the properties. -/

def clientPin (ans : Bytes) : Option Bool := option ans (b! "clientPin")
def alwaysUv (ans : Bytes) : Option Bool := option ans (b! "alwaysUv")
def makeCredUvNotRqd (ans : Bytes) : Option Bool := option ans (b! "makeCredUvNotRqd")
def enterprise (ans : Bytes) : Option Bool := option ans (b! "ep")
def maxMsgSize (ans : Bytes) : Option Nat := number ans 5
def maxCredentialCountInList (ans : Bytes) : Option Nat := number ans 7
def maxLargeBlob (ans : Bytes) : Option Nat := number ans 11
def forcePinChange (ans : Bytes) : Option Bool := flag ans 12
def minPinLength (ans : Bytes) : Option Nat := number ans 13
def maxCredBlob (ans : Bytes) : Option Nat := number ans 15
def maxRpIds (ans : Bytes) : Option Nat := number ans 16
def remaining (ans : Bytes) : Option Nat := number ans 20

/-- U2F is among the versions. -/
def offersU2f (ans : Bytes) : Prop := b! "U2F_V2" ∈ versions ans

end Info

/-- The number of a PIN protocol. -/
def Proto.number : Proto → Nat
  | .v1 => 1
  | .v2 => 2

variable [Dev]

/-- The device in state `s` answered GetInfo with success; `ans` is the answer, and `t` the state afterwards. -/
def Told (P : Oracle → Prop) (s : St) (ans : Bytes) (t : St) : Prop :=
  ∃ ch o, P o ∧ stepM (.ctap2 ch [0x04]) (s.withOracle o) = (.ok (.ctap2 ans), t) ∧ ans.head? = some 0 ∧ ans.length < 2 ^ 64

/-- Between `s` and `t`, no setting and no stored credential has changed. -/
structure SameSettings (s t : St) : Prop where
  pin : t.p.pin = s.p.pin
  minPin : t.p.minPin = s.p.minPin
  force : t.p.forcePinChange = s.p.forcePinChange
  alwaysUv : t.p.alwaysUv = s.p.alwaysUv
  enterprise : t.p.enterprise = s.p.enterprise
  stored : t.stored = s.stored

end Verif.Ctap
