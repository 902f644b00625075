import Verif.Ctap.LiveSpec
import Verif.Cbor.Spec

/-!
# What a CTAP2 answer looks like

Section 8 of the CTAP2 specification: a status byte; after the status byte of success possibly a map in the canonical encoding,
nested at most four levels deep.
-/
namespace Verif.Ctap
open Verif.Cbor (Value)

inductive WellFormedAnswer : Bytes → Prop
  /-- an error is its status byte, which is not that of success, and nothing else -/
  | error (x : UInt8) (h : x ≠ 0) : WellFormedAnswer [x]
  /-- success without data -/
  | done : WellFormedAnswer [0]
  /-- success with data -/
  | data (m : List (Value × Value)) (h : (Value.map m).WF 64) (hd : (Value.map m).depth ≤ 4) :
      WellFormedAnswer (0 :: (Value.map m).enc)

end Verif.Ctap
