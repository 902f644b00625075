import Verif.Store.Linear

/-!
# What linear access should do

A storage is one array of bytes. Writing replaces a part of it, erasing sets a part of it to `0xff`. Nothing else changes.
-/
namespace Verif.Store.Linear

/-- What a user does with the storage, reading aside. -/
inductive Op
  | write (offset : Nat) (value : List UInt8)
  | erase (start stop : Nat)

/-- The access is inside an array of `n` bytes. -/
def Op.Inside (n : Nat) : Op → Prop
  | .write offset value => offset + value.length ≤ n
  | .erase start stop => start ≤ stop ∧ stop ≤ n

/-- The access starts and ends at the start of a word. -/
def Op.Aligned (word : Nat) : Op → Prop
  | .write offset value => offset % word = 0 ∧ value.length % word = 0
  | .erase start stop => start % word = 0 ∧ stop % word = 0

/-- The array after the access. -/
def Op.after (a : Nat → UInt8) : Op → Nat → UInt8
  | .write offset value, i => if h : offset ≤ i ∧ i - offset < value.length then value[i - offset] else a i
  | .erase start stop, i => if start ≤ i ∧ i < stop then 0xff else a i

/-- The access to the storage. -/
def Buf.apply (b : Buf) : Op → Except Err Buf
  | .write offset value => b.write offset value
  | .erase start stop => b.erase start stop

/-- A history of accesses that all succeeded, from a storage to another. -/
inductive History : Buf → List Op → Buf → Prop
  | nil (b : Buf) : History b [] b
  | step {b b' b'' : Buf} {op : Op} {ops : List Op} : b.apply op = .ok b' → History b' ops b'' → History b (op :: ops) b''

/-- The array after several accesses. -/
def afterAll (a : Nat → UInt8) (ops : List Op) : Nat → UInt8 := ops.foldl Op.after a

/-- An erased storage with the given sizes, as `BufferStorage::new` accepts it (`buffer.rs:97-112`): its pages consist of whole
words. -/
structure Fresh (b : Buf) : Prop where
  word : 0 < b.word
  page : 0 < b.page
  whole : b.page % b.word = 0
  erased : ∀ i, b.bytes i = 0xff
  unwritten : ∀ w, b.writes w = 0

end Verif.Store.Linear
