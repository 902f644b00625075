import Verif.Store.Word

/-!
# The store (`libraries/persistent_store/src/store.rs`)

The flash is a function from pages and word indices to words. Each physical write or erase is an interaction with the flash
that may be interrupted by loss of power; then a subset of the bits that it should modify is modified
(`lib.rs:112-118`). The subset is chosen by the oracle, so that the theorems hold for every subset.
-/
namespace Verif.Store

/-- The contents of the storage: page, word index in the page. -/
abbrev Flash := Nat → Nat → Word

/-- Programming words clears bits (`storage.rs:84`): a write of a slice within a page. -/
def Flash.write (fl : Flash) (page idx : Nat) (ws : List Word) : Flash := fun p i =>
  if p = page ∧ idx ≤ i ∧ i < idx + ws.length then fl p i &&& ws.getD (i - idx) erasedWord else fl p i

/-- An interrupted write: the bits in `keep` are not modified. -/
def Flash.writePartly (fl : Flash) (page idx : Nat) (ws : List Word) (keep : Flash) : Flash := fun p i =>
  if p = page ∧ idx ≤ i ∧ i < idx + ws.length then fl p i &&& (ws.getD (i - idx) erasedWord ||| keep p i) else fl p i

/-- Erasing a page sets all bits (`storage.rs:90`). -/
def Flash.erase (fl : Flash) (page : Nat) : Flash := fun p i => if p = page then erasedWord else fl p i

/-- An interrupted erase: only the bits in `set` are set. -/
def Flash.erasePartly (fl : Flash) (page : Nat) (set : Flash) : Flash := fun p i =>
  if p = page then fl p i ||| set p i else fl p i

/-- The storage and the fields of `Store` (`store.rs:196-210`), with the number of interactions so far and the oracle:
`some bits` at an interaction means that power is lost there. -/
structure St where
  fl : Flash
  head : Option Nat
  entries : Option (List Nat)
  k : Nat
  o : Nat → Option Flash

/-- The result of an operation. -/
inductive Res (α : Type)
  | ok (a : α)
  | err (e : Err)
  | crash
deriving DecidableEq, Repr

/-- Computations of the store. -/
def M (α : Type) : Type := St → Res α × St

/-- Sequencing. -/
def M.bind {α β : Type} (m : M α) (f : α → M β) : M β := fun s =>
  match m s with
  | (.ok a, s') => f a s'
  | (.err e, s') => (.err e, s')
  | (.crash, s') => (.crash, s')

/-- No effect. -/
def M.pure {α : Type} (a : α) : M α := fun s => (.ok a, s)

instance : Monad M where
  pure := M.pure
  bind := M.bind

/-- An error. -/
def fail {α : Type} (e : Err) : M α := fun s => (.err e, s)

/-- A result of the pure functions. -/
def liftE {α : Type} : Except Err α → M α
  | .ok a => M.pure a
  | .error e => fail e

/-- The current flash. -/
def getFl : M Flash := fun s => (.ok s.fl, s)

/-- `or_invalid(self.head)` (`store.rs:85-87`). -/
def getHead : M Nat := fun s =>
  match s.head with
  | none => (.err .invalidStorage, s)
  | some h => (.ok h, s)

/-- `or_invalid(self.entries)`. -/
def getEntries : M (List Nat) := fun s =>
  match s.entries with
  | none => (.err .invalidStorage, s)
  | some es => (.ok es, s)

/-- Assigning `self.head`. -/
def setHead (h : Nat) : M Unit := fun s => (.ok (), { s with head := some h })

/-- Assigning `self.entries`. -/
def setEntries (es : Option (List Nat)) : M Unit := fun s => (.ok (), { s with entries := es })

/-- A physical write. -/
def flashWrite (page idx : Nat) (ws : List Word) : M Unit := fun s =>
  match s.o s.k with
  | none => (.ok (), { s with fl := s.fl.write page idx ws, k := s.k + 1 })
  | some keep => (.crash, { s with fl := s.fl.writePartly page idx ws keep, k := s.k + 1 })

/-- A physical erase. -/
def flashErase (page : Nat) : M Unit := fun s =>
  match s.o s.k with
  | none => (.ok (), { s with fl := s.fl.erase page, k := s.k + 1 })
  | some set => (.crash, { s with fl := s.fl.erasePartly page set, k := s.k + 1 })

/-- `is_write_needed` (`store.rs:1285-1296`), on the bytes of a word. -/
def writeNeededBytes : Bytes → Bytes → Except Err Bool
  | x :: xs, y :: ys =>
    if x &&& y ≠ y then .error .invalidStorage
    else if x ≠ y then .ok true
    else writeNeededBytes xs ys
  | _, _ => .ok false

@[inherit_doc writeNeededBytes]
def writeNeeded (source target : Word) : Except Err Bool := writeNeededBytes (wordBytes source) (wordBytes target)

/-- `storage_write_slice` (`store.rs:1119-1141`): skips words that do not need to be written. -/
def storageWrite (page : Nat) : (idx : Nat) → (ws : List Word) → M Unit
  | _, [] => M.pure ()
  | idx, w :: ws => do
    let fl ← getFl
    let needed ← liftE (writeNeeded (fl page idx) w)
    if needed then flashWrite page idx (w :: ws) else storageWrite page (idx + 1) ws

/-- `storage_erase_page` (`store.rs:1144-1149`). -/
def storageErase (F : Format) (page : Nat) : M Unit := do
  let fl ← getFl
  if (List.range F.pageWords).all fun i => fl page i = erasedWord then M.pure () else flashErase page

/-- `read_word` (`store.rs:1081-1083`) with `Position::index` (`format.rs:780-788`). -/
def readWord (F : Format) (fl : Flash) (p : Nat) : Word := fl (F.page p) (2 + F.word p)

/-- `read_slice` (`store.rs:1067-1078`), as words. Simplified: word by word, which is the same for slices that span at most
two pages. -/
def readWords (F : Format) (fl : Flash) (p n : Nat) : List Word := (List.range n).map fun i => readWord F fl (p + i)

/-- The words that fit in the page of a position (`store.rs:1105`). -/
def roomInPage (F : Format) (p : Nat) : Nat := F.pageWords - (2 + F.word p)

/-- `write_slice` (`store.rs:1103-1113`): the slice may span two pages. -/
def writeSlice (F : Format) (p : Nat) (ws : List Word) : M Unit := do
  storageWrite (F.page p) (2 + F.word p) (ws.take (roomInPage F p))
  if ws.length > roomInPage F p then storageWrite (F.page (F.nextPage p)) (2 + F.word (F.nextPage p)) (ws.drop (roomInPage F p))
  else M.pure ()

/-- `ParsedEntry` (`store.rs:1247-1280`). -/
inductive Parsed
  | padding
  | user (h : Header)
  | internal (e : Internal)
  | partialUser
  | partly
  | tail
deriving DecidableEq, Repr

/-- The last word that is not erased among the first `n` words (`store.rs:1029-1034`). -/
def lastWritten (F : Format) (fl : Flash) (p : Nat) : Nat → Option Nat
  | 0 => none
  | n + 1 => if readWord F fl (p + n) ≠ erasedWord then some n else lastWritten F fl p n

/-- `parse_partial` (`store.rs:1028-1042`), with the next position. -/
def parsePartly (F : Format) (fl : Flash) (p : Nat) : Parsed × Nat :=
  match lastWritten F fl p F.M with
  | none => (.tail, p)
  | some n => (.partly, p + 1 + n)

/-- The checksum of the footer (`format.rs:886-888`, `store.rs:1001-1004`). -/
def footerZeros (F : Format) (fl : Flash) (p length : Nat) : Nat :=
  if length = 0 then 0 else zeros (readWord F fl (p + length))

/-- The user entry with a header (`store.rs:996-1019`). Simplified: keys have 12 bits, so that the check of `max_key` is
omitted. -/
def parseUser (F : Format) (fl : Flash) (p : Nat) (h : Header) : Parsed × Nat :=
  if h.length > F.maxValueLen then parsePartly F fl p
  else if footerZeros F fl p (bytesToWords h.length) = h.checksum then (.user h, p + 1 + bytesToWords h.length)
  else if bytesToWords h.length = 0 ∨ readWord F fl (p + bytesToWords h.length) = erasedWord then parsePartly F fl p
  else (.partialUser, p + 1 + bytesToWords h.length)

/-- `parse_entry` (`store.rs:985-1025`): the entry and the next position. -/
def parseEntry (F : Format) (fl : Flash) (p : Nat) : Except Err (Parsed × Nat) :=
  match parseWord F (readWord F fl p) with
  | .error e => .error e
  | .ok .erased => .ok (parsePartly F fl p)
  | .ok .partly => .ok (parsePartly F fl p)
  | .ok (.valid (.padding n)) => .ok (.padding, p + 1 + n)
  | .ok (.valid (.header h)) => .ok (parseUser F fl p h)
  | .ok (.valid (.internal e)) => .ok (.internal e, p + 1)

/-- `page_head` (`format.rs:310-312`). -/
def pageHead (F : Format) (i : InitInfo) (page : Nat) : Nat := F.pos i.cycle page i.pre

/-- The loop of `get_extremum_page_head` (`store.rs:918-930`) over the first `n` pages; `better` is the comparison. -/
def extremum (F : Format) (fl : Flash) (better : Nat → Nat → Bool) : Nat → Except Err (Option Nat)
  | 0 => .ok none
  | n + 1 => do
    let best ← extremum F fl better n
    let i ← parseInit F (fl n 0)
    match i with
    | .valid i =>
      match best with
      | none => .ok (some (pageHead F i n))
      | some x => .ok (some (if better (pageHead F i n) x then pageHead F i n else x))
    | _ => .ok best

/-- `get_extremum_page_head` (`store.rs:917-932`). -/
def extremumPageHead (F : Format) (fl : Flash) (better : Nat → Nat → Bool) : Except Err Nat := do
  let best ← extremum F fl better F.N
  match best with
  | none => .error .invalidStorage
  | some p => .ok p

/-- The most recent page. -/
def newestHead (F : Format) (fl : Flash) : Except Err Nat := extremumPageHead F fl fun p x => decide (x < p)
/-- The oldest page. -/
def oldestHead (F : Format) (fl : Flash) : Except Err Nat := extremumPageHead F fl fun p x => decide (p < x)

/-- The loop of `tail` (`store.rs:950-954`). Each entry has at least one word, so that `fuel = end - pos` iterations are
enough. -/
def tailLoop (F : Format) (fl : Flash) (stop : Nat) : (fuel : Nat) → (p : Nat) → Except Err Nat
  | 0, p => .ok p
  | fuel + 1, p =>
    if p < stop then
      match parseEntry F fl p with
      | .error e => .error e
      | .ok (.tail, _) => .ok p
      | .ok (_, q) => tailLoop F fl stop fuel q
    else .ok p

/-- `tail` (`store.rs:947-956`). -/
def tailOf (F : Format) (fl : Flash) : Except Err Nat := do
  let p ← newestHead F fl
  tailLoop F fl (F.nextPage p) (F.nextPage p - p) p

/-- `tail`, as a computation. -/
def getTail (F : Format) : M Nat := do
  let fl ← getFl
  liftE (tailOf F fl)

/-- `parse_entry`, as a computation. -/
def parseM (F : Format) (p : Nat) : M (Parsed × Nat) := do
  let fl ← getFl
  liftE (parseEntry F fl p)

/-- `immediate_capacity` (`store.rs:934-938`). -/
def immediateCapacity (F : Format) : M Nat := do
  let tail ← getTail F
  let head ← getHead
  M.pure (head + F.V - tail)

/-- The position of an init word (`store.rs:870-876`): the first entry of the page. -/
def newFirst (F : Format) (first last : Nat) : Option Nat :=
  if F.word first = 0 then some first
  else if F.page first = F.page last then none
  else some (last + 1)

/-- Writing the init info (`store.rs:877-888`). -/
def initPageAt (F : Format) (p : Nat) : M Unit := do
  let fl ← getFl
  let i ← liftE (parseInit F (fl (F.page p) 0))
  match i with
  | .valid _ => M.pure ()
  | _ => do
    let w ← liftE (buildInit ⟨F.cycle p, F.word p⟩)
    storageWrite (F.page p) 0 [w]

/-- `init_page` (`store.rs:868-889`). -/
def initPage (F : Format) (first last : Nat) : M Unit :=
  match newFirst F first last with
  | none => M.pure ()
  | some p => initPageAt F p

/-- `set_padding` (`store.rs:892-897`). -/
def setPadding (F : Format) (p : Nat) : M Unit := do
  let fl ← getFl
  let w ← liftE (setPaddingWord (readWord F fl p))
  writeSlice F p [w]

/-- `set_deleted` (`store.rs:900-905`). -/
def setDeleted (F : Format) (p : Nat) : M Unit := do
  let fl ← getFl
  writeSlice F p [bitSet headerDeleted (readWord F fl p)]

/-- `wipe_span` (`store.rs:908-911`). -/
def wipeSpan (F : Format) (p n : Nat) : M Unit := writeSlice F p (List.replicate n 0)

/-- `delete_pos` (`store.rs:856-860`). -/
def deletePos (F : Format) (p n : Nat) : M Unit := do
  setDeleted F p
  wipeSpan F (p + 1) n

/-- The offset of a position (`store.rs:964`, `store.rs:976`): it must fit in 16 bits. -/
def offsetOf (head p : Nat) : Except Err Nat :=
  if p < head ∨ p - head ≥ 65536 then .error .invalidStorage else .ok (p - head)

/-- Adding an entry to the list (`store.rs:963-967`). -/
def pushTo (p : Nat) : Option (List Nat) → M Unit
  | none => M.pure ()
  | some es => do
    let head ← getHead
    let off ← liftE (offsetOf head p)
    setEntries (some (es ++ [off]))

/-- `push_entry` (`store.rs:958-968`). -/
def pushEntry (p : Nat) : M Unit := fun s => pushTo p s.entries s

/-- `Vec::swap_remove`. -/
def swapRemove (l : List Nat) (i : Nat) : List Nat :=
  if i + 1 = l.length then l.dropLast else (l.set i (l.getLastD 0)).dropLast

/-- Removing an entry from the list (`store.rs:975-980`). -/
def removeFrom (p : Nat) : Option (List Nat) → M Unit
  | none => M.pure ()
  | some es => do
    let head ← getHead
    let off ← liftE (offsetOf head p)
    match es.findIdx? (· == off) with
    | none => fail .invalidStorage
    | some i => setEntries (some (swapRemove es i))

/-- `remove_entry` (`store.rs:970-981`). -/
def removeEntry (p : Nat) : M Unit := fun s => removeFrom p s.entries s

/-- The loop of `delete_if` (`store.rs:834-850`). The list is given back by the caller; each iteration removes an element or
advances, so that `fuel` is the number of elements that have not been visited. -/
def deleteLoop (F : Format) (head stop : Nat) (del : Nat → Bool) : (fuel : Nat) → (i : Nat) → (es : List Nat) → M (List Nat)
  | 0, _, es => M.pure es
  | fuel + 1, i, es =>
    match es[i]? with
    | none => M.pure es
    | some off =>
      if head + off ≥ stop then M.pure es
      else do
        let r ← parseM F (head + off)
        match r.1 with
        | .user h =>
          if del h.key then do
            deletePos F (head + off) (bytesToWords h.length)
            deleteLoop F head stop del fuel i (swapRemove es i)
          else deleteLoop F head stop del fuel (i + 1) es
        | _ => fail .invalidStorage

/-- `delete_if` (`store.rs:831-853`). -/
def deleteIf (F : Format) (stop : Nat) (del : Nat → Bool) : M Unit := do
  let head ← getHead
  let es ← getEntries
  setEntries none
  let es ← deleteLoop F head stop del es.length 0 es
  setEntries (some es)

/-- `delete_keys` (`store.rs:826-828`). -/
def deleteKeys (F : Format) (keys : List Nat) (stop : Nat) : M Unit := deleteIf F stop fun k => keys.contains k

/-- `insert_init` (`store.rs:700-704`). -/
def insertInit (F : Format) (p n key : Nat) : M Unit := do
  initPage F p (p + n)
  deleteKeys F [key] p

/-- The entries with the new head (`store.rs:777-782`). -/
def rebase (oldHead newHead : Nat) : List Nat → Except Err (List Nat)
  | [] => .ok []
  | e :: es => do
    let off ← offsetOf oldHead newHead
    if e < off then .error .invalidStorage
    else do
      let es ← rebase oldHead newHead es
      .ok ((e - off) :: es)

/-- Updating the list of entries, if there is one (`store.rs:777-782`). -/
def rebaseEntries (newHead : Nat) : Option (List Nat) → M Unit
  | none => M.pure ()
  | some es => do
    let head ← getHead
    let _ ← liftE (offsetOf head newHead)
    let es ← liftE (rebase head newHead es)
    setEntries (some es)

/-- The page to erase (`store.rs:765-768`). -/
def erasedPage : Parsed → Except Err Nat
  | .internal (.erase page) => .ok page
  | _ => .error .invalidStorage

/-- A valid init info (`store.rs:773-776`). -/
def validInit : WordState InitInfo → Except Err InitInfo
  | .valid i => .ok i
  | _ => .error .invalidStorage

/-- `compact_erase` (`store.rs:763-791`). -/
def compactErase (F : Format) (erase : Nat) : M Unit := do
  let r ← parseM F erase
  let page ← liftE (erasedPage r.1)
  storageErase F page
  let fl ← getFl
  let i ← liftE (parseInit F (fl ((page + 1) % F.N) 0))
  let i ← liftE (validInit i)
  fun s => rebaseEntries (pageHead F i ((page + 1) % F.N)) s.entries s
  setHead (pageHead F i ((page + 1) % F.N))
  wipeSpan F (F.pageBegin (pageHead F i ((page + 1) % F.N)))
    (pageHead F i ((page + 1) % F.N) - F.pageBegin (pageHead F i ((page + 1) % F.N)))
  setPadding F erase

/-- The loop of `compact_copy` (`store.rs:733-755`): gives the tail. Each iteration advances the source position. -/
def copyLoop (F : Format) (stop : Nat) : (fuel : Nat) → (p tail : Nat) → M Nat
  | 0, _, tail => M.pure tail
  | fuel + 1, p, tail =>
    if p < stop then do
      let r ← parseM F p
      match r.1 with
      | .tail => M.pure tail
      | .partly => if r.2 > stop then M.pure tail else fail .invalidStorage
      | .padding => copyLoop F stop fuel r.2 tail
      | .user _ => do
        let fl ← getFl
        removeEntry p
        writeSlice F tail (readWords F fl p (r.2 - p))
        pushEntry tail
        initPage F tail (tail + (r.2 - p - 1))
        copyLoop F stop fuel r.2 (tail + (r.2 - p))
      | _ => fail .invalidStorage
    else M.pure tail

/-- The tail in the compact info (`store.rs:726-729`). -/
def validCompact : WordState Nat → Except Err Nat
  | .valid t => .ok t
  | _ => .error .invalidStorage

/-- Refusing a tail in the page to compact (`store.rs:730-732`). -/
def checkTail (tail stop : Nat) : M Unit := if tail < stop then fail .invalidStorage else M.pure ()

/-- `compact_copy` (`store.rs:722-760`). -/
def compactCopy (F : Format) : M Unit := do
  let head ← getHead
  let fl ← getFl
  let c ← liftE (parseCompact F (fl (F.page head) 1))
  let t ← liftE (validCompact c)
  checkTail (head + t) (F.nextPage head)
  let tail ← copyLoop F (F.nextPage head) (F.nextPage head - head) head (head + t)
  let w ← liftE (buildInternal (.erase (F.page head)))
  writeSlice F tail [w]
  initPage F tail tail
  compactErase F tail

/-- Refusing when the lifetime is used (`store.rs:709-711`). -/
def checkLifetime (F : Format) (head : Nat) : M Unit := if F.cycle head ≥ F.E then fail .noLifetime else M.pure ()

/-- `compact` (`store.rs:707-719`). -/
def compact (F : Format) : M Unit := do
  let head ← getHead
  checkLifetime F head
  let tail ← getTail F
  let w ← liftE (buildCompact (max tail (F.nextPage head) - head))
  storageWrite (F.page head) 1 [w]
  compactCopy F

/-- `StoreHandle` (`store.rs:128-137`). -/
structure Handle where
  key : Nat
  pos : Nat
  len : Nat
deriving DecidableEq, Repr

/-- The handle of an entry (`store.rs:251-256`). -/
def handleAt (F : Format) (fl : Flash) (p : Nat) : Except Err Handle :=
  match parseEntry F fl p with
  | .error e => .error e
  | .ok (.user h, _) => .ok ⟨h.key, p, h.length⟩
  | .ok _ => .error .invalidStorage

/-- The sum of the sizes in `capacity` (`store.rs:267-270`). -/
def usedLoop (F : Format) (fl : Flash) (head : Nat) : List Nat → Except Err Nat
  | [] => .ok 0
  | e :: es => do
    let h ← handleAt F fl (head + e)
    let n ← usedLoop F fl head es
    .ok (1 + bytesToWords h.len + n)

/-- The used capacity (`store.rs:264-272`). -/
def usedCapacity (F : Format) : M Nat := do
  let head ← getHead
  let es ← getEntries
  let fl ← getFl
  liftE (usedLoop F fl head es)

/-- `capacity().remaining()` (`store.rs:118-120`, `store.rs:264-272`); `total - used` panics on underflow. -/
def remainingCapacity (F : Format) : M Nat := do
  let used ← usedCapacity F
  if F.C < used then fail .panic else M.pure (F.C - used)

/-- `total_lifetime` (`format.rs:302-307`): the position of cycle `E` and page `N - 1`. -/
def Format.totalLifetime (F : Format) : Nat := (F.E * F.N + F.N - 1) * F.Q

/-- `lifetime().used()` (`store.rs:279-283`). -/
def usedLifetime (F : Format) : M Nat := getTail F

/-- The loop of `iter` (`store.rs:248-257`). -/
def iterLoop (F : Format) (fl : Flash) (head : Nat) : List Nat → Except Err (List Handle)
  | [] => .ok []
  | e :: es => do
    let h ← handleAt F fl (head + e)
    let hs ← iterLoop F fl head es
    .ok (h :: hs)

/-- `iter` (`store.rs:246-259`), with all the handles at once: the iterator borrows the store, so that it cannot be modified in
between. -/
def iter (F : Format) : M (List Handle) := do
  let head ← getHead
  let es ← getEntries
  let fl ← getFl
  liftE (iterLoop F fl head es)

/-- The loop of `find_handle` (`store.rs:405-410`). -/
def findLoop (F : Format) (fl : Flash) (head key : Nat) : List Nat → Except Err (Option Handle)
  | [] => .ok none
  | e :: es => do
    let h ← handleAt F fl (head + e)
    if h.key = key then .ok (some h) else findLoop F fl head key es

/-- `find_handle` (`store.rs:403-412`). -/
def findHandle (F : Format) (key : Nat) : M (Option Handle) := do
  let head ← getHead
  let es ← getEntries
  let fl ← getFl
  liftE (findLoop F fl head key es)

/-- The value of a user entry (`store.rs:475-481`). `result[last_byte]` panics for the empty value. -/
def readValue (F : Format) (fl : Flash) (p : Nat) (h : Header) : Except Err Bytes :=
  let b := (fromWords (readWords F fl (p + 1) (bytesToWords h.length))).take h.length
  if !h.flipped then .ok b
  else if b.length = 0 then .error .panic
  else .ok (b.dropLast ++ [0xff])

/-- The entry of a handle (`store.rs:474-485`). -/
def valueOf (F : Format) (fl : Flash) (p : Nat) : Parsed → Except Err Bytes
  | .user h => readValue F fl p h
  | .padding => .error .invalidArgument
  | _ => .error .invalidStorage

/-- `get_value` (`store.rs:471-486`) with `check_handle` (`store.rs:677-683`). -/
def getValue (F : Format) (h : Handle) : M Bytes := do
  let head ← getHead
  if h.pos < head then fail .invalidArgument
  else do
    let r ← parseM F h.pos
    let fl ← getFl
    liftE (valueOf F fl h.pos r.1)

/-- `find` (`store.rs:395-400`). -/
def find (F : Format) (key : Nat) : M (Option Bytes) := do
  let h ← findHandle F key
  match h with
  | none => M.pure none
  | some h => do
    let v ← getValue F h
    M.pure (some v)

/-- `while self.immediate_capacity()? < length { self.compact()?; }` (`store.rs:363-365`, `store.rs:693-695`). The fuel is the
number of pages in the lifetime of the storage; running out of it is an error. -/
def makeRoom (F : Format) (length : Nat) : (fuel : Nat) → M Unit
  | 0 => fail .panic
  | fuel + 1 => do
    let c ← immediateCapacity F
    if c < length then do
      compact F
      makeRoom F length fuel
    else M.pure ()

/-- The number of iterations that `makeRoom` is given. -/
def roomFuel (F : Format) : Nat := (F.E + 1) * F.N + 1

/-- `reserve` (`store.rs:689-697`). -/
def reserve (F : Format) (length : Nat) : M Unit := do
  let r ← remainingCapacity F
  if r < length then fail .noCapacity else makeRoom F length (roomFuel F)

/-- Writing a user entry: the footer comes last (`store.rs:323-327`, `store.rs:430-431`). -/
def writeUser (F : Format) (p : Nat) (entry : List Word) : M Unit := do
  writeSlice F p entry.dropLast
  writeSlice F (p + (entry.length - 1)) [entry.getLastD erasedWord]

/-- `insert` (`store.rs:417-434`). -/
def insert (F : Format) (key : Nat) (v : Bytes) : M Unit :=
  if key > maxKey ∨ v.length > F.maxValueLen then fail .invalidArgument
  else do
    let entry ← liftE (buildUser key v)
    reserve F entry.length
    let tail ← getTail F
    writeUser F tail entry
    pushEntry tail
    insertInit F tail (entry.length - 1) key

/-- `remove` (`store.rs:439-445`). -/
def remove (F : Format) (key : Nat) : M Unit :=
  if key > maxKey then fail .invalidArgument
  else do
    let tail ← getTail F
    deleteKeys F [key] tail

/-- Writing one update of a transaction (`store.rs:318-337`): gives the number of words after the first one. -/
def writeUpdate (F : Format) (tail : Nat) : Update → M Nat
  | .insert key v => do
    let entry ← liftE (buildUser key v)
    writeUser F tail entry
    M.pure (entry.length - 1)
  | .remove key => do
    let w ← liftE (buildInternal (.remove key))
    writeSlice F tail [w]
    M.pure 0

/-- The loop over the updates (`store.rs:317-340`). -/
def writeUpdates (F : Format) : (tail : Nat) → List Update → M Unit
  | _, [] => M.pure ()
  | tail, u :: us => do
    let n ← writeUpdate F tail u
    initPage F tail (tail + n)
    writeUpdates F (tail + 1 + n) us

/-- The loop of `transaction_apply` (`store.rs:799-809`). Each iteration advances. -/
def applyLoop (F : Format) (stop : Nat) : (fuel : Nat) → (p : Nat) → M Unit
  | 0, _ => M.pure ()
  | fuel + 1, p =>
    if p < stop then do
      let r ← parseM F p
      match r.1 with
      | .tail => M.pure ()
      | .user _ => do
        pushEntry p
        applyLoop F stop fuel r.2
      | .internal (.remove _) => do
        setPadding F p
        applyLoop F stop fuel r.2
      | _ => fail .invalidStorage
    else M.pure ()

/-- `transaction_apply` (`store.rs:794-811`). -/
def transactionApply (F : Format) (keys : List Nat) (marker : Nat) : M Unit := do
  deleteKeys F keys marker
  setPadding F marker
  let head ← getHead
  applyLoop F (head + F.W) (head + F.W - (marker + 1)) (marker + 1)

/-- `transaction` with at least two updates (`store.rs:308-342`). -/
def transactionMany (F : Format) (us : List Update) : M Unit :=
  if transactionValid F us = false then fail .invalidArgument
  else do
    reserve F (transactionCapacity us)
    let marker ← getTail F
    let w ← liftE (buildInternal (.marker us.length))
    writeSlice F marker [w]
    initPage F marker marker
    writeUpdates F (marker + 1) us
    transactionApply F (us.map Update.key) marker

/-- `transaction` (`store.rs:294-343`). -/
def transaction (F : Format) : List Update → M Unit
  | [] => M.pure ()
  | [.insert key v] => insert F key v
  | [.remove key] => remove F key
  | us => transactionMany F us

/-- The threshold of a clear entry (`store.rs:816-819`). -/
def clearedFrom : Parsed → Except Err Nat
  | .internal (.clear minKey) => .ok minKey
  | _ => .error .invalidStorage

/-- `clear_delete` (`store.rs:814-823`). -/
def clearDelete (F : Format) (p : Nat) : M Unit := do
  initPage F p p
  let r ← parseM F p
  let minKey ← liftE (clearedFrom r.1)
  deleteIf F p fun k => decide (minKey ≤ k)
  setPadding F p

/-- `clear` (`store.rs:351-367`). -/
def clear (F : Format) (minKey : Nat) : M Unit :=
  if minKey > maxKey then fail .invalidArgument
  else do
    let w ← liftE (buildInternal (.clear minKey))
    makeRoom F 1 (roomFuel F)
    let tail ← getTail F
    writeSlice F tail [w]
    clearDelete F tail

/-- One step of compaction (`store.rs:377-379`). -/
def compactIf (F : Format) (b : Bool) : M Unit := if b then compact F else M.pure ()

/-- `prepare` (`store.rs:373-381`). -/
def prepare (F : Format) (length : Nat) : M Unit := do
  let r ← remainingCapacity F
  if r < length then fail .noCapacity
  else do
    let c ← immediateCapacity F
    compactIf F (c < length)

/-- Whether the storage is erased except possibly for the init info of the first page (`store.rs:491-497`). -/
def fresh (F : Format) (fl : Flash) : Bool :=
  (List.range F.N).all fun page =>
    (page = 0 || fl page 0 = erasedWord) && (List.range (F.pageWords - 1)).all fun i => fl page (i + 1) = erasedWord

/-- `recover_initialize` (`store.rs:489-504`). -/
def recoverInitialize (F : Format) : M Unit := do
  let fl ← getFl
  if fresh F fl then do
    let w ← liftE (buildInit ⟨0, 0⟩)
    storageWrite 0 0 [w]
  else M.pure ()

/-- The loop of `recover_erase` (`store.rs:510-519`): the position of the erase entry. -/
def eraseLoop (F : Format) (fl : Flash) (stop : Nat) : (fuel : Nat) → (p : Nat) → Except Err (Option Nat)
  | 0, _ => .ok none
  | fuel + 1, p =>
    if p < stop then
      match parseEntry F fl p with
      | .error e => .error e
      | .ok (.internal (.erase _), _) => .ok (some p)
      | .ok (.padding, q) => eraseLoop F fl stop fuel q
      | .ok (.user _, q) => eraseLoop F fl stop fuel q
      | .ok _ => .ok none
    else .ok none

/-- Completing the erase (`store.rs:513-515`). -/
def eraseFound (F : Format) : Option Nat → M Unit
  | none => M.pure ()
  | some p => compactErase F p

/-- `recover_erase` (`store.rs:507-521`). -/
def recoverErase (F : Format) : M Unit := do
  let fl ← getFl
  let p ← liftE (newestHead F fl)
  let e ← liftE (eraseLoop F fl (F.nextPage p) (F.nextPage p - p) p)
  eraseFound F e

/-- Continuing the compaction (`store.rs:528-532`). -/
def compactFound (F : Format) : WordState Nat → M Unit
  | .erased => M.pure ()
  | .partly => compact F
  | .valid _ => compactCopy F

/-- `recover_compaction` (`store.rs:524-533`). -/
def recoverCompaction (F : Format) : M Unit := do
  let fl ← getFl
  let head ← liftE (oldestHead F fl)
  setHead head
  let c ← liftE (parseCompact F (fl (F.page head) 1))
  compactFound F c

/-- `recover_wipe_partial` (`store.rs:661-666`). -/
def recoverWipePartly (F : Format) (p n : Nat) : M Unit := do
  wipeSpan F (p + 1) n
  initPage F p (p + n)
  setPadding F p

/-- `recover_delete_user` (`store.rs:669-672`). -/
def recoverDeleteUser (F : Format) (p n : Nat) : M Unit := do
  initPage F p (p + n)
  deletePos F p n

/-- The loop of `recover_transaction_keys` (`store.rs:632-648`): the keys, in order of their entries, and `prev_pos`. The code
keeps them sorted, which only matters for the search. -/
def keysLoop (F : Format) (fl : Flash) (stop : Nat) : (fuel : Nat) → (p prev : Nat) → (keys : List Nat) →
    Except Err (List Nat × Nat)
  | 0, _, prev, keys => .ok (keys, prev)
  | fuel + 1, p, prev, keys =>
    if p < stop then
      match parseEntry F fl p with
      | .error e => .error e
      | .ok (.user h, q) =>
        if keys.contains h.key then .error .invalidStorage else keysLoop F fl stop fuel q p (keys ++ [h.key])
      | .ok (.internal (.remove k), q) =>
        if keys.contains k then .error .invalidStorage else keysLoop F fl stop fuel q p (keys ++ [k])
      | .ok (.internal _, _) => .error .invalidStorage
      | .ok _ => .ok (keys, prev)
    else .ok (keys, prev)

/-- Initializing the page of the last update (`store.rs:650-656`). -/
def initLast (F : Format) (prev : Nat) : Parsed × Nat → M Unit
  | (.user _, q) => initPage F prev (prev + (q - prev - 1))
  | (.internal (.remove _), q) => initPage F prev (prev + (q - prev - 1))
  | _ => M.pure ()

/-- `recover_transaction_keys` (`store.rs:624-658`). -/
def transactionKeys (F : Format) (p stop : Nat) : M (List Nat) := do
  let fl ← getFl
  let r ← liftE (keysLoop F fl stop (stop - p) p p [])
  let e ← parseM F r.2
  initLast F r.2 e
  M.pure r.1

/-- The rollback loop of `recover_transaction` (`store.rs:590-614`). -/
def rollbackLoop (F : Format) (stop : Nat) : (fuel : Nat) → (p : Nat) → M Unit
  | 0, _ => M.pure ()
  | fuel + 1, p =>
    if p < stop then do
      let r ← parseM F p
      match r.1 with
      | .tail => M.pure ()
      | .padding => rollbackLoop F stop fuel r.2
      | .user _ => do
        deletePos F p (r.2 - p - 1)
        rollbackLoop F stop fuel r.2
      | .internal (.remove _) => do
        setPadding F p
        rollbackLoop F stop fuel r.2
      | .partly => recoverWipePartly F p (r.2 - p - 1)
      | .partialUser => recoverDeleteUser F p (r.2 - p - 1)
      | .internal _ => fail .invalidStorage
    else M.pure ()

/-- The number of updates in a marker (`store.rs:580-583`). -/
def markedCount : Parsed → Except Err Nat
  | .internal (.marker n) => .ok n
  | _ => .error .invalidStorage

/-- `recover_transaction` (`store.rs:578-618`). -/
def recoverTransaction (F : Format) (marker stop : Nat) : M Unit := do
  let r ← parseM F marker
  let count ← liftE (markedCount r.1)
  let keys ← transactionKeys F r.2 stop
  if keys.length = count then transactionApply F keys marker
  else if keys.length > count then fail .invalidStorage
  else do
    rollbackLoop F stop (stop - r.2) r.2
    initPage F marker marker
    setPadding F marker

/-- The end of `recover_operation` (`store.rs:569-574`): the last entry may be an interrupted insertion. -/
def finishInsert (F : Format) (prev : Nat) : M Unit := do
  let r ← parseM F prev
  match r.1 with
  | .user h => insertInit F prev (r.2 - prev - 1) h.key
  | _ => M.pure ()

/-- The loop of `recover_operation` (`store.rs:541-568`). -/
def operationLoop (F : Format) (stop : Nat) : (fuel : Nat) → (p prev : Nat) → M Unit
  | 0, _, prev => finishInsert F prev
  | fuel + 1, p, prev =>
    if p < stop then do
      let r ← parseM F p
      match r.1 with
      | .tail => finishInsert F prev
      | .user _ => do
        pushEntry p
        operationLoop F stop fuel r.2 p
      | .padding => do
        wipeSpan F (p + 1) (r.2 - p - 1)
        operationLoop F stop fuel r.2 p
      | .internal (.erase _) => fail .invalidStorage
      | .internal (.clear _) => clearDelete F p
      | .internal (.marker _) => recoverTransaction F p stop
      | .internal (.remove _) => do
        setPadding F p
        operationLoop F stop fuel r.2 p
      | .partly => recoverWipePartly F p (r.2 - p - 1)
      | .partialUser => recoverDeleteUser F p (r.2 - p - 1)
    else finishInsert F prev

/-- `recover_operation` (`store.rs:536-575`). -/
def recoverOperation (F : Format) : M Unit := do
  setEntries (some [])
  let head ← getHead
  operationLoop F (head + F.W) F.W head head

/-- `recover` (`store.rs:386-392`). -/
def recover (F : Format) : M Unit := do
  recoverInitialize F
  recoverErase F
  recoverCompaction F
  recoverOperation F

/-- `Store::new` (`store.rs:223-239`) for a supported format: what is in RAM is lost. -/
def openStore (F : Format) : M Unit := fun s => recover F { s with head := none, entries := none }

end Verif.Store
