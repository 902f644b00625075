import Verif.Store.Concat

/-!
# Fragmented entries (`libraries/persistent_store/src/fragment.rs`)

A value is stored in fragments under a sequence of keys.
-/
namespace Verif.Store

/-- `Keys` (`fragment.rs:26-41`): a sequence of keys. -/
structure Keys where
  len : Nat
  pos : Nat → Option Nat
  key : Nat → Nat

/-- The sequence of the keys of a range (`fragment.rs:43-60`), for `start ≤ stop`. -/
def Keys.range (start stop : Nat) : Keys where
  len := stop - start
  pos key := if start ≤ key ∧ key < stop then some (key - start) else none
  key pos := start + pos

/-- `get_length` (`store.rs:460-468`). -/
def lengthOf : Parsed → Except Err Nat
  | .user h => .ok h.length
  | .padding => .error .invalidArgument
  | _ => .error .invalidStorage

@[inherit_doc lengthOf]
def getLength (F : Format) (h : Handle) : M Nat := do
  let head ← getHead
  if h.pos < head then fail .invalidArgument
  else do
    let r ← parseM F h.pos
    liftE (lengthOf r.1)

/-- The first loop of `get_handles` (`fragment.rs:150-168`): the handles at the positions of their keys. Simplified: the handles
are given, and an error of the iterator comes before those of the loop. -/
def fillHandles (keys : Keys) : List Handle → List (Option Handle) → Except Err (List (Option Handle))
  | [], acc => .ok acc
  | h :: hs, acc =>
    match keys.pos h.key with
    | none => fillHandles keys hs acc
    | some pos =>
      if pos ≥ keys.len then .error .invalidArgument
      else
        match acc[pos]? with
        | some (some old) => if old.key ≠ h.key then .error .invalidArgument else .error .invalidStorage
        | some none => fillHandles keys hs (acc.set pos (some h))
        | none => .error .panic

/-- The second loop of `get_handles` (`fragment.rs:171-178`), from position `i`: the first `n` are there, and the others not. -/
def collectHandles (n : Nat) : (i : Nat) → List (Option Handle) → Except Err (List Handle)
  | _, [] => .ok []
  | i, o :: l =>
    if i < n then
      match o with
      | some h => do
        let hs ← collectHandles n (i + 1) l
        .ok (h :: hs)
      | none => .error .invalidStorage
    else
      match o with
      | some _ => .error .invalidStorage
      | none => collectHandles n (i + 1) l

/-- `get_handles` (`fragment.rs:147-180`). -/
def getHandles (F : Format) (keys : Keys) : M (List Handle) := do
  let hs ← iter F
  let acc ← liftE (fillHandles keys hs (List.replicate keys.len none))
  liftE (collectHandles (acc.countP Option.isSome) 0 acc)

/-- The loop of `read` (`fragment.rs:69-71`). -/
def readLoop (F : Format) : List Handle → M Bytes
  | [] => M.pure []
  | h :: hs => do
    let v ← getValue F h
    let r ← readLoop F hs
    M.pure (v ++ r)

/-- `read` (`fragment.rs:63-73`). -/
def fragRead (F : Format) (keys : Keys) : M (Option Bytes) := do
  let hs ← getHandles F keys
  if hs = [] then M.pure none
  else do
    let v ← readLoop F hs
    M.pure (some v)

/-- One iteration of the loop of `read_range` (`fragment.rs:100-102`). -/
def rangePart (F : Format) (h : Handle) (start stop : Nat) : M Bytes :=
  if start < stop then do
    let v ← getValue F h
    liftE (sliceOf v (start, stop))
  else M.pure []

/-- The loop of `read_range` (`fragment.rs:95-103`). -/
def rangeLoop (F : Format) (start stop : Nat) : (offset : Nat) → List Handle → M Bytes
  | _, [] => M.pure []
  | offset, h :: hs => do
    let length ← getLength F h
    let v ← rangePart F h (start - offset) (min (stop - offset) length)
    let r ← rangeLoop F start stop (offset + length) hs
    M.pure (v ++ r)

/-- `read_range` (`fragment.rs:80-105`). Not modelled: the allocation of the length of the range in advance. -/
def fragReadRange (F : Format) (keys : Keys) (start stop : Nat) : M (Option Bytes) :=
  if stop < start then fail .invalidArgument
  else do
    let hs ← getHandles F keys
    if hs = [] then M.pure none
    else do
      let v ← rangeLoop F start stop 0 hs
      M.pure (some v)

/-- `[u8]::chunks`; each iteration takes at least one byte. -/
def chunksLoop (n : Nat) : (fuel : Nat) → Bytes → List Bytes
  | 0, _ => []
  | fuel + 1, v => if v = [] then [] else v.take n :: chunksLoop n fuel (v.drop n)

@[inherit_doc chunksLoop]
def chunks (n : Nat) (v : Bytes) : List Bytes := chunksLoop n v.length v

/-- The loop of `write` (`fragment.rs:113-125`) for `n` positions from `pos` on, with the handles and the chunks of these positions:
the updates and the chunks that are left. -/
def planUpdates (F : Format) (keys : Keys) : (n pos : Nat) → List Handle → List Bytes → M (List Update × List Bytes)
  | 0, _, _, cs => M.pure ([], cs)
  | n + 1, pos, [], [] => planUpdates F keys n (pos + 1) [] []
  | n + 1, pos, _ :: hs, [] => do
    let r ← planUpdates F keys n (pos + 1) hs []
    M.pure (.remove (keys.key pos) :: r.1, r.2)
  | n + 1, pos, h :: hs, c :: cs => do
    let v ← getValue F h
    let r ← planUpdates F keys n (pos + 1) hs cs
    M.pure (if v = c then r else (.insert (keys.key pos) c :: r.1, r.2))
  | n + 1, pos, [], c :: cs => do
    let r ← planUpdates F keys n (pos + 1) [] cs
    M.pure (.insert (keys.key pos) c :: r.1, r.2)

/-- `write` (`fragment.rs:108-131`). `chunks` panics for chunks of length zero. -/
def fragWrite (F : Format) (keys : Keys) (v : Bytes) : M Unit := do
  let hs ← getHandles F keys
  if F.maxValueLen = 0 then fail .panic
  else do
    let r ← planUpdates F keys keys.len 0 hs (chunks F.maxValueLen v)
    if r.2 ≠ [] then fail .invalidArgument else transaction F r.1

/-- `delete` (`fragment.rs:134-142`). -/
def fragDelete (F : Format) (keys : Keys) : M Unit := do
  let hs ← getHandles F keys
  transaction F (hs.map fun h => .remove h.key)

end Verif.Store
