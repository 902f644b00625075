import Verif.Store.Spec
import Verif.Store.Concat

/-!
# Specification of concatenated entries: a map from indices to values
-/
namespace Verif.Store

/-- The values of a key by their index. -/
abbrev IMap := UInt8 → Option Bytes

/-- The map with the value of an index replaced. -/
def IMap.put (f : IMap) (i : UInt8) (o : Option Bytes) : IMap := fun j => if j = i then o else f j

/-- The documented format (`concat.rs:27-28`): for each value its index, its length and the value. -/
def pack : List (UInt8 × Bytes) → Bytes
  | [] => []
  | (i, v) :: l => i :: UInt8.ofNat v.length :: (v ++ pack l)

/-- The lengths fit in a byte. -/
def Fits (l : List (UInt8 × Bytes)) : Prop := ∀ p ∈ l, p.2.length ≤ 255

/-- The content of a key stands for a map of indices: no index is there twice. -/
def Packed (f : IMap) : Option Bytes → Prop
  | none => f = fun _ => none
  | some b => ∃ l, b = pack l ∧ Fits l ∧ (l.map Prod.fst).Nodup ∧ ∀ i v, f i = some v ↔ (i, v) ∈ l

/-- The operations on the values of a key. -/
inductive COp
  | write (index : UInt8) (value : Bytes)
  | delete (index : UInt8)

/-- What they mean. -/
def COp.apply : COp → IMap → IMap
  | .write i v, f => f.put i (some v)
  | .delete i, f => f.put i none

/-- Calling them. -/
def COp.run (F : Format) (key : Nat) : COp → M Unit
  | .write i v => concatWrite F key i v
  | .delete i => concatDelete F key i

/-- Calls one after the other, each on the key that is given, with their results. -/
inductive CTrace (F : Format) (key : Nat) : St → List (COp × Option Err) → St → Prop
  | nil {s} : CTrace F key s [] s
  | ok {s s' s'' op l} (h : op.run F key s = (.ok (), s')) (h' : CTrace F key s' l s'') : CTrace F key s ((op, none) :: l) s''
  | err {s s' s'' op e l} (h : op.run F key s = (.err e, s')) (h' : CTrace F key s' l s'') : CTrace F key s ((op, some e) :: l) s''

/-- What the calls mean: those that fail have no effect. -/
def IMap.replay (f : IMap) : List (COp × Option Err) → IMap
  | [] => f
  | (op, none) :: l => IMap.replay (op.apply f) l
  | (_, some _) :: l => IMap.replay f l

end Verif.Store
