/-!
# Address ranges and partitions (`src/env/tock/storage_helper.rs`)

Numbers of type `usize` are natural numbers less than `usize.size`; where the code could exceed it, the model says what the
release build does (it wraps around).
-/
namespace Verif.Tock

/-- One more than `usize::MAX` on the 32-bit target. -/
def usizeSize : Nat := 2 ^ 32

/-- `StorageError` (`libraries/persistent_store/src/storage.rs:28-37`), and a panic. -/
inductive Fault
  | notAligned
  | outOfBounds
  | custom
  | panic
deriving DecidableEq, Repr

/-- `find_slice` (`storage_helper.rs:29-45`). The sum `start + length` wraps around in the release build, and then slicing
panics. -/
def findSlice : List (List UInt8) → Nat → Nat → Except Fault (List UInt8)
  | [], _, _ => .error .outOfBounds
  | slice :: slices, start, length =>
    if start ≥ slice.length then findSlice slices (start - slice.length) length
    else if (start + length) % usizeSize > slice.length then .error .outOfBounds
    else if slice.length < start + length then .error .panic
    else .ok ((slice.drop start).take length)

/-- `is_aligned` (`storage_helper.rs:50-53`). Its debug assertion is a precondition. -/
def isAligned (blockSize address : Nat) : Bool := address &&& (blockSize - 1) == 0

/-- `ModRange` (`storage_helper.rs:59-63`). -/
structure ModRange where
  start : Nat
  length : Nat
deriving DecidableEq, Repr

namespace ModRange

/-- `ModRange::new_empty` (`storage_helper.rs:72-74`). -/
def newEmpty : ModRange := ⟨0, 0⟩

/-- `ModRange::is_empty` (`storage_helper.rs:87-89`). -/
def isEmpty (r : ModRange) : Bool := r.length == 0

/-- `ModRange::append` (`storage_helper.rs:97-118`): the result and the new `self`. -/
def append (self other : ModRange) : Bool × ModRange :=
  if self.isEmpty then (true, ⟨other.start, other.length⟩)
  else if other.isEmpty then (false, self)
  else if self.start ≥ other.start then (false, self)
  else if self.length ≠ other.start - self.start then (false, self)
  else if self.length + other.length < usizeSize then (true, ⟨self.start, self.length + other.length⟩)
  else (false, self)

/-- `ModRange::starts_inside` (`storage_helper.rs:121-123`). -/
def startsInside (self range : ModRange) : Bool :=
  !range.isEmpty && decide (self.start ≥ range.start) && decide (self.start - range.start < range.length)

/-- `ModRange::intersects_range` (`storage_helper.rs:128-130`). -/
def intersectsRange (self range : ModRange) : Bool := self.startsInside range || range.startsInside self

/-- `ModRange::contains_range` (`storage_helper.rs:135-140`). -/
def containsRange (self range : ModRange) : Bool :=
  range.isEmpty ||
    (decide (self.start ≤ range.start) && decide (range.length ≤ self.length) &&
      decide (range.start - self.start ≤ self.length - range.length))

end ModRange

/-- `Iterator::step_by` of the core library: the first element, then every `step`-th one. -/
def stepBy (step : Nat) : List Nat → List Nat
  | [] => []
  | x :: xs => x :: stepBy step (xs.drop (step - 1))
termination_by l => l.length

/-- `ModRange::aligned_iter` (`storage_helper.rs:143-150`), for a modulus that is not zero. -/
def ModRange.alignedIter (r : ModRange) (modulus : Nat) : List Nat :=
  stepBy modulus
    (((List.range' r.start (usizeSize - r.start)).take r.length).drop ((modulus - r.start % modulus) % modulus))

/-- `Partition` (`storage_helper.rs:153-156`). -/
abbrev Partition := List ModRange

namespace Partition

/-- `Partition::length` (`storage_helper.rs:160-162`). The sum wraps around in the release build. -/
def length (p : Partition) : Nat := p.foldl (fun n r => (n + r.length) % usizeSize) 0

/-- `Partition::append` (`storage_helper.rs:167-181`): the result and the new `self`. -/
def append (p : Partition) (range : ModRange) : Bool × Partition :=
  match p.getLast? with
  | some last =>
    if range.start ≤ last.start ∨ range.start - last.start < last.length then (false, p)
    else if (last.append range).1 then (true, p.dropLast ++ [(last.append range).2])
    else (true, p.dropLast ++ [(last.append range).2, range])
  | none => (true, p ++ [range])

/-- `Partition::find_address` (`storage_helper.rs:187-199`). The sum wraps around in the release build. -/
def findAddress : Partition → Nat → Nat → Option Nat
  | [], _, _ => none
  | range :: rest, offset, length =>
    if offset < range.length then
      if range.length - offset ≥ length then some ((range.start + offset) % usizeSize) else none
    else findAddress rest (offset - range.length) length

/-- `Partition::ranges_from` (`storage_helper.rs:201-214`). -/
def rangesFrom : Partition → Nat → List ModRange
  | [], _ => []
  | range :: rest, startAddress =>
    if startAddress ≤ range.start then range :: rangesFrom rest startAddress
    else if range.length > startAddress - range.start then
      ⟨startAddress, range.length - (startAddress - range.start)⟩ :: rangesFrom rest startAddress
    else rangesFrom rest startAddress

end Partition
end Verif.Tock
