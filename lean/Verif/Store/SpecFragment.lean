import Verif.Store.Spec
import Verif.Store.Fragment

/-!
# Specification of fragmented entries
-/
namespace Verif.Store

/-- The documented contract of `Keys` (`fragment.rs:26-41`): `pos` is the inverse of `key`. -/
def Keys.Lawful (keys : Keys) : Prop := ∀ k p, keys.pos k = some p ↔ p < keys.len ∧ keys.key p = k

/-- A value is held in fragments: the first keys have values, which are its fragments, and the others have none. There is no value
if no key has one. -/
def Held (keys : Keys) (m : KV) (o : Option Bytes) : Prop :=
  ∃ n, n ≤ keys.len ∧ (∀ p, p < keys.len → (m (keys.key p) ≠ none ↔ p < n)) ∧
    o = if n = 0 then none else some ((List.range n).map fun p => (m (keys.key p)).getD []).flatten

/-- The fragment of a value at a position: `size` bytes, or what is left of the value. -/
def fragmentAt (size : Nat) (v : Bytes) (p : Nat) : Option Bytes :=
  if p * size < v.length then some ((v.drop (p * size)).take size) else none

/-- The map with a value in fragments: nothing remains of the value before. -/
def Fragmented (F : Format) (keys : Keys) (m : KV) (v : Bytes) (m' : KV) : Prop :=
  (∀ p, p < keys.len → m' (keys.key p) = fragmentAt F.maxValueLen v p) ∧ ∀ k, (∀ p, p < keys.len → k ≠ keys.key p) → m' k = m k

/-- What a value reads as: the empty value has no fragments, and is the same as no value. -/
def readsAs (v : Bytes) : Option Bytes := if v = [] then none else some v

end Verif.Store
