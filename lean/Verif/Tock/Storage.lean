import Verif.Tock.Upgrade

/-!
# The storage of the device (`src/env/tock/storage.rs:42-154`)

The storage locations are pairs of an address and a length in the memory of `Verif.Tock.Upgrade`.
-/
namespace Verif.Tock

/-- `find_slice` (`storage_helper.rs:29-45`) again, for the address of the slice that it returns. -/
def findPtr : List ModRange → Nat → Nat → Except Fault Nat
  | [], _, _ => .error .outOfBounds
  | slice :: slices, start, length =>
    if start ≥ slice.length then findPtr slices (start - slice.length) length
    else if (start + length) % usizeSize > slice.length then .error .outOfBounds
    else if slice.length < start + length then .error .panic
    else .ok (slice.start + start)

/-- `TockStorage` (`storage.rs:42-51`), without the limits of writes and erases, which are only reported. -/
structure TockStorage where
  wordSize : Nat
  pageSize : Nat
  numPages : Nat
  locations : List ModRange
deriving DecidableEq, Repr

/-- The loop over the storage locations in `TockStorage::new` (`storage.rs:85-99`). -/
def TockStorage.scan : TockStorage → List Location → Except Fault TockStorage
  | s, [] => .ok s
  | s, loc :: locs =>
    if loc.isPartition then s.scan locs
    else if !isAligned s.pageSize loc.address || !isAligned s.pageSize loc.size then .error .custom
    else TockStorage.scan
      { s with
        numPages := s.numPages + loc.size / s.pageSize
        locations := s.locations ++ [⟨loc.address, loc.size⟩] } locs

/-- `TockStorage::new` (`storage.rs:63-101`), from what the kernel reports. -/
def TockStorage.new (wordSize pageSize : Nat) (locs : List Location) : Except Fault TockStorage :=
  if !isPowerOfTwo wordSize || !isPowerOfTwo pageSize || !isAligned wordSize pageSize then .error .custom
  else TockStorage.scan ⟨wordSize, pageSize, 0, []⟩ locs

/-- `StorageIndex::range` (`libraries/persistent_store/src/storage.rs:95-114`), its start. -/
def TockStorage.rangeStart (s : TockStorage) (page byte length : Nat) : Except Fault Nat :=
  if page < s.numPages ∧ length ≤ s.pageSize ∧ byte ≤ s.pageSize - length then .ok (page * s.pageSize + byte)
  else .error .outOfBounds

/-- The address of the slice of `read_slice` (`storage.rs:135-138`). -/
def TockStorage.ptr (s : TockStorage) (page byte length : Nat) : Except Fault Nat :=
  match s.rangeStart page byte length with
  | .error e => .error e
  | .ok start => findPtr s.locations start length

/-- `read_slice` (`storage.rs:135-138`). -/
def TockStorage.readSlice (s : TockStorage) (m : Mem) (page byte length : Nat) : Except Fault (List UInt8) :=
  match s.rangeStart page byte length with
  | .error e => .error e
  | .ok start => findSlice (s.locations.map fun l => m.read l.start l.length) start length

/-- `write_slice` (`storage.rs:140-146`). -/
def TockStorage.writeSlice (s : TockStorage) (m : Mem) (fate : Fate) (page byte : Nat) (value : List UInt8) :
    Except Fault Unit × Mem :=
  if !isAligned s.wordSize byte || !isAligned s.wordSize value.length then (.error .notAligned, m)
  else
    match s.ptr page byte value.length with
    | .error e => (.error e, m)
    | .ok p => (if fate.isOk then .ok () else .error .custom, m.write p value fate)

/-- `erase_page` (`storage.rs:148-153`). -/
def TockStorage.erasePage (s : TockStorage) (m : Mem) (fate : Fate) (page : Nat) : Except Fault Unit × Mem :=
  match s.ptr page 0 s.pageSize with
  | .error e => (.error e, m)
  | .ok p => (if fate.isOk then .ok () else .error .custom, m.erase p s.pageSize fate)

end Verif.Tock
