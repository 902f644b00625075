import Verif.Store.Model

/-!
# Specification of the store: a map from keys to values

This file only uses the functions of the API of the store (`Verif/Store/Model.lean`) and says nothing about how the map is
stored.
-/
namespace Verif.Store

/-- The abstract content of a store: a partial map from keys to values. -/
abbrev KV := Nat → Option Bytes

/-- The map with the value of a key replaced. -/
def KV.put (m : KV) (k : Nat) (o : Option Bytes) : KV := fun k' => if k' = k then o else m k'

/-- What an update means. -/
def KV.update (m : KV) : Update → KV
  | .insert k v => m.put k (some v)
  | .remove k => m.put k none

/-- What a transaction means: all its updates. -/
def KV.transact (m : KV) (us : List Update) : KV := us.foldl KV.update m

/-- What clearing means: the entries from a key on are removed. -/
def KV.clear (m : KV) (minKey : Nat) : KV := fun k => if minKey ≤ k then none else m k

/-- The capacity used by a map: one word for each entry and the words of its value. -/
def KV.used (m : KV) : Nat :=
  ((List.range (maxKey + 1)).map fun k => match m k with | none => 0 | some v => 1 + (v.length + 3) / 4).sum

/-- The operations of the store that modify it. -/
inductive Op
  | insert (key : Nat) (value : Bytes)
  | remove (key : Nat)
  | transaction (updates : List Update)
  | clear (minKey : Nat)
  | prepare (length : Nat)

/-- What an operation means. -/
def Op.apply : Op → KV → KV
  | .insert k v, m => m.put k (some v)
  | .remove k, m => m.put k none
  | .transaction us, m => m.transact us
  | .clear minKey, m => m.clear minKey
  | .prepare _, m => m

/-- Calling an operation. -/
def Op.run (F : Format) : Op → M Unit
  | .insert k v => Store.insert F k v
  | .remove k => Store.remove F k
  | .transaction us => Store.transaction F us
  | .clear minKey => Store.clear F minKey
  | .prepare n => Store.prepare F n

/-- The arguments are in the documented ranges: keys, lengths of values, number of updates, and no key is updated twice. -/
def Op.valid (F : Format) : Op → Prop
  | .insert k v => k ≤ maxKey ∧ v.length ≤ F.maxValueLen
  | .remove k => k ≤ maxKey
  | .transaction us => us.length ≤ maxUpdates ∧ (∀ u ∈ us, u.key ≤ maxKey ∧ ∀ k v, u = .insert k v → v.length ≤ F.maxValueLen) ∧
      (us.map Update.key).Nodup
  | .clear minKey => minKey ≤ maxKey
  | .prepare _ => True

/-- The number of words that an operation adds to the log. -/
def Op.length : Op → Nat
  | .insert _ v => 1 + (v.length + 3) / 4
  | .remove _ => 0
  | .transaction us => transactionCapacity us
  | .clear _ => 1
  | .prepare n => n

/-- The capacity that an operation needs. -/
def Op.capacity : Op → Nat
  | .clear _ => 0
  | op => op.length

/-- Every read of the store gives what the map has, and does not modify the store. -/
def Contains (F : Format) (s : St) (m : KV) : Prop := ∀ key, find F key s = (.ok (m key), s)

/-- The entries of the store are exactly those of the map, each of them once, and a handle gives the value of its entry. -/
def Lists (F : Format) (s : St) (m : KV) : Prop :=
  ∃ hs, iter F s = (.ok hs, s) ∧ (hs.map Handle.key).Nodup ∧ (∀ k, k ∈ hs.map Handle.key ↔ m k ≠ none) ∧
    ∀ h ∈ hs, ∃ v, m h.key = some v ∧ getValue F h s = (.ok v, s)

/-- The documented reasons for which an operation fails: an argument is invalid, there is no capacity left, or less than two
times the size of the storage is left of the lifetime. -/
def Op.Refused (F : Format) (op : Op) (m : KV) (usedLifetime : Nat) : Err → Prop
  | .invalidArgument => ¬ op.valid F
  | .noCapacity => F.C < m.used + op.capacity
  | .noLifetime => F.totalLifetime < usedLifetime + 2 * (F.N * F.Q)
  | _ => False

/-- Calls of operations one after the other, with their results. -/
inductive Trace (F : Format) : St → List (Op × Option Err) → St → Prop
  | nil {s} : Trace F s [] s
  | ok {s s' s'' op l} (h : op.run F s = (.ok (), s')) (h' : Trace F s' l s'') : Trace F s ((op, none) :: l) s''
  | err {s s' s'' op e l} (h : op.run F s = (.err e, s')) (h' : Trace F s' l s'') : Trace F s ((op, some e) :: l) s''

/-- What the calls mean: those that fail have no effect. -/
def KV.replay (m : KV) : List (Op × Option Err) → KV
  | [] => m
  | (op, none) :: l => KV.replay (op.apply m) l
  | (_, some _) :: l => KV.replay m l

/-- The storage as it leaves the factory. -/
def blankFlash : Flash := fun _ _ => erasedWord

/-- Opening a storage, with power lost as the oracle says; the first interaction is number `k`. -/
def opened (F : Format) (fl : Flash) (k : Nat) (o : Nat → Option Flash) : Res Unit × St := openStore F ⟨fl, none, none, k, o⟩

/-- Opening a storage again and again, until it is not interrupted. -/
inductive Reopen (F : Format) : Flash → St → Prop
  | done {fl s k o} (h : opened F fl k o = (.ok (), s)) : Reopen F fl s
  | again {fl s s' k o} (h : opened F fl k o = (.crash, s)) (h' : Reopen F s.fl s') : Reopen F fl s'

/-- Opening a storage again and again, with power lost each time. -/
inductive Interrupts (F : Format) : Flash → Flash → Prop
  | none {fl} : Interrupts F fl fl
  | again {fl fl' s k o} (h : opened F fl k o = (.crash, s)) (h' : Interrupts F s.fl fl') : Interrupts F fl fl'

/-- The states of a store: from an empty storage, by any history of operations, each of which may succeed, fail or be
interrupted by loss of power (also while the storage is opened), and by power cycles between operations. -/
inductive Reach (F : Format) : St → Prop
  | new {s} (h : Reopen F blankFlash s) : Reach F s
  | ok {s s'} (op : Op) (h : Reach F s) (h' : op.run F s = (.ok (), s')) : Reach F s'
  | err {s s' e} (op : Op) (h : Reach F s) (h' : op.run F s = (.err e, s')) : Reach F s'
  | crash {s s' s''} (op : Op) (h : Reach F s) (h' : op.run F s = (.crash, s')) (h'' : Reopen F s'.fl s'') : Reach F s''
  | cycle {s s'} (h : Reach F s) (h' : Reopen F s.fl s') : Reach F s'

end Verif.Store
