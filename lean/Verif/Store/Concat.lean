import Verif.Store.Model

/-!
# Concatenated entries (`libraries/persistent_store/src/concat.rs`)

Several values, each with an index, are stored under the same key. Slices out of bounds and rotations by more than the length
panic in the code; they are errors here.
-/
namespace Verif.Store

/-- The loop of `find` (`concat.rs:102-115`). Each iteration advances by two bytes at least. -/
def concatFindAt (values : Bytes) (index : UInt8) : (fuel : Nat) → (pos : Nat) → Except Err (Option (Nat × Nat))
  | 0, _ => .error .panic
  | fuel + 1, pos =>
    if pos < values.length then
      if pos = values.length - 1 then .error .invalidStorage
      else
        match values[pos + 1]?, values[pos]? with
        | some len, some i =>
          if len.toNat > values.length - 2 ∨ pos > values.length - 2 - len.toNat then .error .invalidStorage
          else if index = i then .ok (some (pos + 2, pos + 2 + len.toNat))
          else concatFindAt values index fuel (pos + 2 + len.toNat)
        | _, _ => .error .panic
    else .ok none

/-- `find` (`concat.rs:100-117`): the range of the value. -/
def concatFind (values : Bytes) (index : UInt8) : Except Err (Option (Nat × Nat)) := concatFindAt values index (values.length + 1) 0

/-- `values[start..end]`. -/
def sliceOf (values : Bytes) (r : Nat × Nat) : Except Err Bytes :=
  if r.1 ≤ r.2 ∧ r.2 ≤ values.length then .ok ((values.drop r.1).take (r.2 - r.1)) else .error .panic

/-- `values[start..].rotate_left(n)`. -/
def rotateLeftFrom (values : Bytes) (start n : Nat) : Except Err Bytes :=
  if start ≤ values.length ∧ n ≤ values.length - start then
    .ok (values.take start ++ ((values.drop start).drop n ++ (values.drop start).take n))
  else .error .panic

/-- `values[start..].rotate_right(n)`. -/
def rotateRightFrom (values : Bytes) (start n : Nat) : Except Err Bytes :=
  if start ≤ values.length ∧ n ≤ values.length - start then
    .ok (values.take start ++ ((values.drop start).drop (values.length - start - n) ++ (values.drop start).take (values.length - start - n)))
  else .error .panic

/-- `values[start..end].copy_from_slice(v)`: the lengths must be equal. -/
def copySlice (values : Bytes) (r : Nat × Nat) (v : Bytes) : Except Err Bytes :=
  if r.1 ≤ r.2 ∧ r.2 ≤ values.length ∧ r.2 - r.1 = v.length then .ok (values.take r.1 ++ v ++ values.drop r.2) else .error .panic

/-- `values[i] = b`. -/
def setByte (values : Bytes) (i : Nat) (b : UInt8) : Except Err Bytes :=
  if i < values.length then .ok (values.set i b) else .error .panic

/-- Making the range as long as the value (`concat.rs:63-77`): the values and the end of the range. -/
def concatResize (values : Bytes) (r : Nat × Nat) (n : Nat) : Except Err (Bytes × Nat) :=
  if r.2 - r.1 < n then do
    let values ← rotateRightFrom (values ++ List.replicate (n - (r.2 - r.1)) 0) r.2 (n - (r.2 - r.1))
    .ok (values, r.2 + (n - (r.2 - r.1)))
  else if r.2 - r.1 = n then .ok (values, r.2)
  else do
    let values ← rotateLeftFrom values (r.2 - (r.2 - r.1 - n)) (r.2 - r.1 - n)
    .ok (values.take (values.length - (r.2 - r.1 - n)), r.2 - (r.2 - r.1 - n))

/-- Writing one of the values (`concat.rs:55-80`). -/
def concatPut (values : Bytes) (index : UInt8) (v : Bytes) : Option (Nat × Nat) → Except Err Bytes
  | none => .ok (values ++ [index, UInt8.ofNat v.length] ++ v)
  | some r => do
    let values ← setByte values (r.1 - 1) (UInt8.ofNat v.length)
    let p ← concatResize values r v.length
    copySlice p.1 (r.1, p.2) v

/-- Deleting one of the values (`concat.rs:94-96`). -/
def concatDrop (values : Bytes) (r : Nat × Nat) : Except Err Bytes := do
  let values ← rotateLeftFrom values (r.1 - 2) (r.2 - (r.1 - 2))
  .ok (values.take (values.length - (r.2 - (r.1 - 2))))

/-- `find(...)?.map(|range| values[range].to_vec())` (`concat.rs:41`). -/
def concatGet (values : Bytes) (index : UInt8) : Except Err (Option Bytes) := do
  let r ← concatFind values index
  match r with
  | none => .ok none
  | some r => do
    let v ← sliceOf values r
    .ok (some v)

/-- `read` (`concat.rs:36-42`). -/
def concatRead (F : Format) (key : Nat) (index : UInt8) : M (Option Bytes) := do
  let values ← find F key
  match values with
  | none => M.pure none
  | some values => liftE (concatGet values index)

/-- `write` (`concat.rs:45-82`). -/
def concatWrite (F : Format) (key : Nat) (index : UInt8) (v : Bytes) : M Unit :=
  if v.length > 255 then fail .invalidArgument
  else do
    let values ← find F key
    let r ← liftE (concatFind (values.getD []) index)
    let values ← liftE (concatPut (values.getD []) index v r)
    insert F key values

/-- `delete` (`concat.rs:85-98`). -/
def concatDelete (F : Format) (key : Nat) (index : UInt8) : M Unit := do
  let values ← find F key
  match values with
  | none => M.pure ()
  | some values => do
    let r ← liftE (concatFind values index)
    match r with
    | none => M.pure ()
    | some r => do
      let values ← liftE (concatDrop values r)
      insert F key values

end Verif.Store
