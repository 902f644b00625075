/-!
# A storage as one array of bytes (`libraries/persistent_store/src/linear.rs`)

The storage below is `BufferStorage` (`buffer.rs`) in strict mode, which is the flash that the storage interface describes
(`storage.rs:49-91`): words are written as a whole, a write must not set a bit that is cleared, and a word must not be written
more than a number of times before its page is erased. What the code asserts is the error `panic` here. Not modelled: the count
of erasures of a page (`max_page_erases`), interruptions, and sizes that overflow a `usize`.
-/
namespace Verif.Store.Linear

/-- `StorageError` (`storage.rs:28-37`), and a panic. -/
inductive Err
  | notAligned | outOfBounds | panic
deriving DecidableEq, Repr

/-- `BufferStorage` (`buffer.rs:35-73`): the sizes, how many times a word may be written, the bytes of all pages one after the
other, and how many times each word was written since its page was erased. -/
structure Buf where
  word : Nat
  page : Nat
  pages : Nat
  limit : Nat
  bytes : Nat → UInt8
  writes : Nat → Nat

/-- `StorageIndex::is_valid` (`storage.rs:95-98`). -/
def Buf.valid (b : Buf) (page byte len : Nat) : Bool :=
  decide (page < b.pages) && decide (len ≤ b.page) && decide (byte ≤ b.page - len)

/-- `BufferStorage::read_slice` (`buffer.rs:304-306`, `storage.rs:103-115`). -/
def Buf.readSlice (b : Buf) (page byte len : Nat) : Except Err (List UInt8) :=
  if b.valid page byte len then .ok ((List.range len).map fun i => b.bytes (page * b.page + byte + i)) else .error .outOfBounds

/-- Bytes overwritten from a position on. -/
def put (f : Nat → UInt8) (start : Nat) (v : List UInt8) : Nat → UInt8 := fun i =>
  if start ≤ i ∧ i < start + v.length then v.getD (i - start) 0 else f i

/-- Whether a word differs (`buffer.rs:257`). -/
def differs (n : Nat) (f g : Nat → UInt8) (w : Nat) : Bool := (List.range n).any fun j => f (w * n + j) != g (w * n + j)

/-- `BufferStorage::write_slice` (`buffer.rs:245-268,308-327`). The words counted are those that change. -/
def Buf.writeSlice (b : Buf) (page byte : Nat) (v : List UInt8) : Except Err Buf :=
  if byte % b.word ≠ 0 ∨ v.length % b.word ≠ 0 then .error .notAligned
  else if !b.valid page byte v.length then .error .outOfBounds
  else
    let start := page * b.page + byte
    let new := put b.bytes start v
    let counted := fun w => decide (start / b.word ≤ w ∧ w < start / b.word + v.length / b.word) && differs b.word b.bytes new w
    if (List.range (v.length / b.word)).any fun i => counted (start / b.word + i) && decide (b.limit ≤ b.writes (start / b.word + i))
    then .error .panic
    else if (List.range v.length).any fun i => b.bytes (start + i) &&& v.getD i 0 != v.getD i 0 then .error .panic
    else .ok { b with bytes := new, writes := fun w => if counted w then b.writes w + 1 else b.writes w }

/-- `BufferStorage::erase_page` (`buffer.rs:219-228,329-341`). -/
def Buf.erasePage (b : Buf) (page : Nat) : Except Err Buf :=
  if b.valid page 0 b.page then
    let words := b.page / b.word
    .ok { b with
      bytes := fun i => if page * b.page ≤ i ∧ i < page * b.page + b.page then 0xff else b.bytes i
      writes := fun w => if page * words ≤ w ∧ w < page * words + words then 0 else b.writes w }
  else .error .outOfBounds

/-- `Linear::length` (`linear.rs:37-39`). -/
def Buf.length (b : Buf) : Nat := b.pages * b.page

/-- The loop of `Linear::read` (`linear.rs:64-70`). -/
def readLoop (b : Buf) : (fuel page byte len : Nat) → Except Err (List UInt8)
  | 0, _, _, len => if len = 0 then .ok [] else .error .panic
  | fuel + 1, page, byte, len =>
    if len = 0 then .ok [] else do
      let n := min len (b.page - byte)
      let part ← b.readSlice page byte n
      let rest ← readLoop b fuel (page + 1) 0 (len - n)
      pure (part ++ rest)

/-- `Linear::read` (`linear.rs:45-72`). The test `end < start` (`linear.rs:50-52`) is never met: such a range is empty. -/
def Buf.read (b : Buf) (start stop : Nat) : Except Err (List UInt8) :=
  if ¬ start < stop then .ok []
  else if stop < start then .error .outOfBounds
  else
    let page := start / b.page
    let byte := start % b.page
    let len := stop - start
    if stop ≤ (page + 1) * b.page then b.readSlice page byte len else readLoop b len page byte len

/-- The first word of `Linear::write_unaligned` (`linear.rs:131-139`): what is left to write, and where. -/
def writeHead (b : Buf) (page byte : Nat) (v : List UInt8) : Except Err (Buf × Nat × List UInt8) :=
  let unaligned := byte % b.word
  if unaligned = 0 then .ok (b, byte, v) else do
    let len := min v.length (b.word - unaligned)
    let byte := byte - unaligned
    let word ← b.readSlice page byte b.word
    let word := word.take unaligned ++ v.take len ++ word.drop (unaligned + len)
    let b ← b.writeSlice page byte word
    pure (b, byte + b.word, v.drop len)

/-- The last word of `Linear::write_unaligned` (`linear.rs:146-150`). -/
def writeTail (b : Buf) (page byte : Nat) (v : List UInt8) : Except Err Buf :=
  if v = [] then .ok b else do
    let word ← b.readSlice page byte b.word
    b.writeSlice page byte (v ++ word.drop v.length)

/-- `Linear::write_unaligned` (`linear.rs:128-152`). -/
def writeUnaligned (b : Buf) (page byte : Nat) (v : List UInt8) : Except Err Buf := do
  let (b, byte, v) ← writeHead b page byte v
  let len := v.length - v.length % b.word
  let b ← b.writeSlice page byte (v.take len)
  writeTail b page (byte + len) (v.drop len)

/-- `Linear::save_complement` (`linear.rs:170-192`). -/
def saveComplement (b : Buf) (page byte len : Nat) : Except Err (List UInt8 × List UInt8) := do
  let pre ← b.readSlice page 0 byte
  let post ← b.readSlice page (byte + len) (b.page - byte - len)
  pure (pre, post)

/-- `Linear::restore_complement` (`linear.rs:195-208`). -/
def restoreComplement (b : Buf) (page : Nat) (c : List UInt8 × List UInt8) : Except Err Buf := do
  let b ← writeUnaligned b page 0 c.1
  writeUnaligned b page (b.page - c.2.length) c.2

/-- `Linear::erase_within` (`linear.rs:158-168`). -/
def eraseWithin (b : Buf) (page byte len : Nat) : Except Err Buf := do
  let previous ← b.readSlice page byte len
  if previous.all (· == 0xff) then pure b
  else
    let c ← saveComplement b page byte len
    let b ← b.erasePage page
    restoreComplement b page c

/-- `Linear::write_within` (`linear.rs:122-125`). -/
def writeWithin (b : Buf) (page byte : Nat) (v : List UInt8) : Except Err Buf := do
  let b ← eraseWithin b page byte v.length
  writeUnaligned b page byte v

/-- The loop of `Linear::write` (`linear.rs:86-92`). -/
def writeLoop (b : Buf) : (fuel page byte : Nat) → (v : List UInt8) → Except Err Buf
  | 0, _, _, v => if v = [] then .ok b else .error .panic
  | fuel + 1, page, byte, v =>
    if v = [] then .ok b else do
      let n := min v.length (b.page - byte)
      let b ← writeWithin b page byte (v.take n)
      writeLoop b fuel (page + 1) 0 (v.drop n)

/-- `Linear::write` (`linear.rs:78-94`). -/
def Buf.write (b : Buf) (offset : Nat) (v : List UInt8) : Except Err Buf :=
  if b.length < v.length ∨ b.length - v.length < offset then .error .outOfBounds
  else writeLoop b v.length (offset / b.page) (offset % b.page) v

/-- The loop of `Linear::erase` (`linear.rs:110-116`). -/
def eraseLoop (b : Buf) : (fuel page byte len : Nat) → Except Err Buf
  | 0, _, _, len => if len = 0 then .ok b else .error .panic
  | fuel + 1, page, byte, len =>
    if len = 0 then .ok b else do
      let n := min len (b.page - byte)
      let b ← eraseWithin b page byte n
      eraseLoop b fuel (page + 1) 0 (len - n)

/-- `Linear::erase` (`linear.rs:101-118`). -/
def Buf.erase (b : Buf) (start stop : Nat) : Except Err Buf :=
  if stop < start ∨ b.length < stop then .error .outOfBounds
  else eraseLoop b (stop - start) (start / b.page) (start % b.page) (stop - start)

end Verif.Store.Linear
