/-!
# Words and the storage format (`libraries/persistent_store/src/format.rs`, `format/bitfield.rs`)

`Nat` of the code is `u32`; the model uses unbounded naturals. `PropsWord.lean` shows that positions fit in 32 bits.
-/
namespace Verif.Store

/-- Bytes of values. -/
abbrev Bytes := List UInt8

/-- `Word` (`format.rs:41`). -/
abbrev Word := BitVec 32

/-- `StoreError` (`store.rs:37-67`). `StorageError` is modelled by loss of power (`Res.crash`). `panic` is added for
panicking code and for loops that do not end. -/
inductive Err
  | invalidArgument
  | noCapacity
  | noLifetime
  | invalidStorage
  | panic
deriving DecidableEq, Repr

/-- `ERASED_WORD` (`format.rs:126`). -/
def erasedWord : Word := BitVec.allOnes 32

/-- The number of bits equal to zero, `u32::count_zeros`; also `count_zeros` of the four bytes of a word
(`format/bitfield.rs:276-278`). -/
def zeros (w : Word) : Nat := (List.range 32).countP fun i => !w.getLsbD i

/-- `u32::count_ones`. -/
def ones (n : Nat) : Nat := (List.range 32).countP fun i => n.testBit i

/-- `Field` (`format/bitfield.rs:29-35`). -/
structure Field where
  pos : Nat
  len : Nat

/-- `Field::mask` (`format/bitfield.rs:65-67`). -/
def Field.mask (f : Field) : Nat := 2 ^ f.len - 1

/-- `Field::get` (`format/bitfield.rs:39-41`). -/
def Field.get (f : Field) (w : Word) : Nat := (w.toNat >>> f.pos) &&& f.mask

/-- `Field::set` (`format/bitfield.rs:49-59`). -/
def Field.set (f : Field) (w : Word) (v : Nat) : Except Err Word :=
  if v &&& f.mask ≠ v then .error .invalidStorage
  else
    let w' := w &&& (~~~(BitVec.ofNat 32 (f.mask <<< f.pos)) ||| BitVec.ofNat 32 (v <<< f.pos))
    if f.get w' ≠ v then .error .invalidStorage else .ok w'

/-- `Bit::get` (`format/bitfield.rs:107-109`): whether the bit is zero. -/
def bitGet (pos : Nat) (w : Word) : Bool := !w.getLsbD pos

/-- `Bit::set` (`format/bitfield.rs:112-114`): sets the bit to zero. -/
def bitSet (pos : Nat) (w : Word) : Word := w &&& ~~~(BitVec.twoPow 32 pos)

/-- `Checksum::get` (`format/bitfield.rs:133-139`). -/
def Field.checksum (f : Field) (w : Word) : Except Err Nat :=
  let c := f.get w
  let z := zeros w - (f.len - ones c)
  if c < z then .error .invalidStorage else .ok (c - z)

/-- `Checksum::set` (`format/bitfield.rs:149-152`). -/
def Field.setChecksum (f : Field) (w : Word) (v : Nat) : Except Err Word := f.set w (zeros w + v)

/-! Constants (`format.rs:566-718`); the lengths and positions are those checked by the tests in `format.rs`. -/

/-- `WORD_CHECKSUM` (`format.rs:582-584`). -/
def wordChecksum : Field := ⟨27, 5⟩
/-- `INIT_CYCLE` (`format.rs:589`). -/
def initCycle : Field := ⟨0, 16⟩
/-- `INIT_PREFIX` (`format.rs:592`). -/
def initPrefix : Field := ⟨16, 9⟩
/-- `COMPACT_TAIL` (`format.rs:604`). -/
def compactTail : Field := ⟨0, 16⟩
/-- `ID_HEADER` (`format.rs:639`), value 1. -/
def idHeader : Field := ⟨0, 2⟩
/-- `HEADER_DELETED` (`format.rs:642`), `HEADER_FLIPPED` (`format.rs:645`). -/
def headerDeleted : Nat := 2
@[inherit_doc headerDeleted]
def headerFlipped : Nat := 3
/-- `HEADER_LENGTH` (`format.rs:650`). -/
def headerLength : Field := ⟨4, 10⟩
/-- `HEADER_KEY` (`format.rs:653`). -/
def headerKey : Field := ⟨14, 12⟩
/-- `HEADER_CHECKSUM` (`format.rs:662`). -/
def headerChecksum : Field := ⟨26, 6⟩
/-- The field of `ID_ERASE` (0b00011), `ID_CLEAR` (0b10011), `ID_MARKER` (0b01011) and `ID_REMOVE` (0b11011)
(`format.rs:671-711`). -/
def idInternal : Field := ⟨0, 5⟩
/-- `ERASE_PAGE` (`format.rs:674`). -/
def erasePage : Field := ⟨5, 6⟩
/-- `CLEAR_MIN_KEY` (`format.rs:688`). -/
def clearMinKey : Field := ⟨5, 12⟩
/-- `MARKER_COUNT` (`format.rs:702`). -/
def markerCount : Field := ⟨5, 5⟩
/-- `REMOVE_KEY` (`format.rs:714`). -/
def removeKey : Field := ⟨5, 12⟩

/-- `Format` (`format.rs:130-154`); `pageWords` is `page_size / WORD_SIZE`. -/
structure Format where
  pageWords : Nat
  numPages : Nat
  maxErases : Nat

/-- `Format::is_storage_supported` (`format.rs:181-193`), for storages with words of 4 bytes that divide a page evenly and
can be written twice. -/
def Format.supported (F : Format) : Prop :=
  8 ≤ F.pageWords ∧ F.pageWords ≤ 1024 ∧ 3 ≤ F.numPages ∧ F.numPages ≤ 64 ∧ F.maxErases ≤ 65535

/-- `bytes_to_words` (`format.rs:562-564`). -/
def bytesToWords (n : Nat) : Nat := (n + 3) / 4

namespace Format
variable (F : Format)

/-- `virt_page_size` (`format.rs:243-245`), Q. -/
def Q : Nat := F.pageWords - 2
/-- `num_pages`, N. -/
abbrev N : Nat := F.numPages
/-- `max_page_erases`, E. -/
abbrev E : Nat := F.maxErases
/-- `max_value_len` (`format.rs:250-255`). -/
def maxValueLen : Nat := min ((F.Q - 1) * 4) 1023
/-- `max_prefix_len` (`format.rs:263-265`), M. -/
def M : Nat := bytesToWords F.maxValueLen
/-- `window_size` (`format.rs:273-275`), W. -/
def W : Nat := (F.N - 1) * F.Q - F.M
/-- `virt_size` (`format.rs:284-286`), V. -/
def V : Nat := (F.N - 1) * (F.Q - 1) - F.M
/-- `total_capacity` (`format.rs:296-300`), C. -/
def C : Nat := F.V - F.N
/-- `Position::new` (`format.rs:770-772`). -/
def pos (cycle page word : Nat) : Nat := (cycle * F.N + page) * F.Q + word
/-- `Position::cycle` (`format.rs:803-805`). -/
def cycle (p : Nat) : Nat := p / F.Q / F.N
/-- `Position::page` (`format.rs:808-810`). -/
def page (p : Nat) : Nat := p / F.Q % F.N
/-- `Position::word` (`format.rs:813-815`). -/
def word (p : Nat) : Nat := p % F.Q
/-- `Position::page_begin` (`format.rs:791-794`). -/
def pageBegin (p : Nat) : Nat := p / F.Q * F.Q
/-- `Position::next_page` (`format.rs:797-800`). -/
def nextPage (p : Nat) : Nat := (p / F.Q + 1) * F.Q
/-- `total_lifetime` (`format.rs:305-307`), L. -/
def L : Nat := F.pos F.E (F.N - 1) 0

end Format

/-- `MAX_KEY_INDEX` (`format.rs:103`), also `max_key`. -/
def maxKey : Nat := 4095
/-- `MAX_UPDATES` (`format.rs:114`), also `max_updates`. -/
def maxUpdates : Nat := 31

/-- `WordState` (`format.rs:819-828`). -/
inductive WordState (α : Type)
  | erased
  | partly
  | valid (a : α)
deriving DecidableEq, Repr

/-- `InitInfo` (`format.rs:831-837`). -/
structure InitInfo where
  cycle : Nat
  pre : Nat
deriving DecidableEq, Repr

/-- `Header` (`format.rs:867-879`). -/
structure Header where
  flipped : Bool
  length : Nat
  key : Nat
  checksum : Nat
deriving DecidableEq, Repr

/-- `InternalEntry` (`format.rs:893-923`). -/
inductive Internal
  | erase (page : Nat)
  | clear (minKey : Nat)
  | marker (count : Nat)
  | remove (key : Nat)
deriving DecidableEq, Repr

/-- `ParsedWord` (`format.rs:847-856`). -/
inductive ParsedWord
  | padding (length : Nat)
  | header (h : Header)
  | internal (e : Internal)
deriving DecidableEq, Repr

/-- `parse_init` (`format.rs:324-337`). -/
def parseInit (F : Format) (w : Word) : Except Err (WordState InitInfo) :=
  if w = erasedWord then .ok .erased
  else do
    let c ← wordChecksum.checksum w
    if c ≠ 0 then .ok .partly
    else if initCycle.get w > F.maxErases ∨ initPrefix.get w > F.M then .error .invalidStorage
    else .ok (.valid ⟨initCycle.get w, initPrefix.get w⟩)

/-- `build_init` (`format.rs:340-346`). -/
def buildInit (i : InitInfo) : Except Err Word := do
  let w ← initCycle.set erasedWord i.cycle
  let w ← initPrefix.set w i.pre
  wordChecksum.setChecksum w 0

/-- `parse_compact` (`format.rs:358-370`). -/
def parseCompact (F : Format) (w : Word) : Except Err (WordState Nat) :=
  if w = erasedWord then .ok .erased
  else do
    let c ← wordChecksum.checksum w
    if c ≠ 0 then .ok .partly
    else if compactTail.get w > F.W then .error .invalidStorage
    else .ok (.valid (compactTail.get w))

/-- `build_compact` (`format.rs:373-378`). -/
def buildCompact (tail : Nat) : Except Err Word := do
  let w ← compactTail.set erasedWord tail
  wordChecksum.setChecksum w 0

/-- The identifier and parameter of an internal entry. -/
def Internal.fields : Internal → Nat × Field × Nat
  | .erase page => (0b00011, erasePage, page)
  | .clear minKey => (0b10011, clearMinKey, minKey)
  | .marker count => (0b01011, markerCount, count)
  | .remove key => (0b11011, removeKey, key)

/-- `build_internal` (`format.rs:381-403`). -/
def buildInternal (e : Internal) : Except Err Word := do
  let w ← idInternal.set erasedWord e.fields.1
  let w ← e.fields.2.1.set w e.fields.2.2
  wordChecksum.setChecksum w 0

/-- Whether the parameter of an internal entry is out of range (`format.rs:450-455`). -/
def Internal.invalid (F : Format) : Internal → Bool
  | .erase page => page > F.N - 1
  | .clear minKey => minKey > maxKey
  | .marker count => count > maxUpdates
  | .remove key => key > maxKey

/-- An internal entry with its checksum (`format.rs:446-459`). -/
def checkInternal (F : Format) (w : Word) (e : Internal) : Except Err (WordState ParsedWord) := do
  let c ← wordChecksum.checksum w
  if c ≠ 0 then .ok .partly
  else if e.invalid F then .error .invalidStorage
  else .ok (.valid (.internal e))

/-- `parse_word` (`format.rs:406-461`). -/
def parseWord (F : Format) (w : Word) : Except Err (WordState ParsedWord) :=
  if !w.getLsbD 0 then .ok (.valid (.padding 0))
  else if idHeader.get w = 1 then
    if bitGet headerDeleted w then
      if headerLength.get w > F.maxValueLen then .error .invalidStorage
      else .ok (.valid (.padding (bytesToWords (headerLength.get w))))
    else do
      let c ← headerChecksum.checksum w
      .ok (.valid (.header ⟨bitGet headerFlipped w, headerLength.get w, headerKey.get w, c⟩))
  else if idInternal.get w = 0b00011 then checkInternal F w (.erase (erasePage.get w))
  else if idInternal.get w = 0b10011 then checkInternal F w (.clear (clearMinKey.get w))
  else if idInternal.get w = 0b01011 then checkInternal F w (.marker (markerCount.get w))
  else if idInternal.get w = 0b11011 then checkInternal F w (.remove (removeKey.get w))
  else if w = erasedWord then .ok .erased
  else .ok .partly

/-- A word from its bytes, in little-endian order (`format.rs:54-56`). -/
def leWord (a b c d : UInt8) : Word := d.toBitVec ++ c.toBitVec ++ b.toBitVec ++ a.toBitVec

/-- The bytes of a word (`format.rs:59-61`). -/
def wordBytes (w : Word) : Bytes :=
  [⟨w.extractLsb' 0 8⟩, ⟨w.extractLsb' 8 8⟩, ⟨w.extractLsb' 16 8⟩, ⟨w.extractLsb' 24 8⟩]

/-- The words of a value; the last one is filled with 0xff (`format.rs:468-469`). -/
def toWords : Bytes → List Word
  | [] => []
  | [a] => [leWord a 0xff 0xff 0xff]
  | [a, b] => [leWord a b 0xff 0xff]
  | [a, b, c] => [leWord a b c 0xff]
  | a :: b :: c :: d :: rest => leWord a b c d :: toWords rest

/-- The bytes of words. -/
def fromWords (ws : List Word) : Bytes := ws.flatMap wordBytes

/-- Whether the last word is erased, which is then marked (`format.rs:472`). -/
def needsFlip (ws : List Word) : Bool := ws.getLast? == some erasedWord

/-- The value as stored (`format.rs:472-475`): if the last word is erased, its last byte is replaced by 0x7f. -/
def storedWords (v : Bytes) : List Word :=
  if needsFlip (toWords v) then (toWords v).dropLast ++ [0x7fffffff] else toWords v

/-- The header of a user entry (`format.rs:470-482`). -/
def buildHeader (key length : Nat) (flip : Bool) (footerZeros : Nat) : Except Err Word := do
  let w ← idHeader.set erasedWord 1
  let w := if flip then bitSet headerFlipped w else w
  let w ← headerLength.set w length
  let w ← headerKey.set w key
  headerChecksum.setChecksum w footerZeros

/-- `build_user` (`format.rs:464-484`), as words. -/
def buildUser (key : Nat) (v : Bytes) : Except Err (List Word) := do
  let h ← buildHeader key v.length (needsFlip (toWords v)) (zeros ((storedWords v).getLastD erasedWord))
  .ok (h :: storedWords v)

/-- `set_padding` (`format.rs:487-489`). -/
def setPaddingWord (w : Word) : Except Err Word := (Field.mk 0 1).set w 0

/-- `StoreUpdate` (`store.rs:166-172`). -/
inductive Update
  | insert (key : Nat) (value : Bytes)
  | remove (key : Nat)
deriving DecidableEq, Repr

/-- `StoreUpdate::key` (`store.rs:176-181`). -/
def Update.key : Update → Nat
  | .insert k _ => k
  | .remove k => k

/-- `entry_size` (`format.rs:524-526`). -/
def entrySize (v : Bytes) : Nat := 1 + bytesToWords v.length

/-- `update_capacity` (`format.rs:516-521`). -/
def Update.capacity : Update → Nat
  | .insert _ v => entrySize v
  | .remove _ => 1

/-- `transaction_capacity` (`format.rs:497-513`). The store calls it only for at least two updates; the other cases are
used by the model of the store. -/
def transactionCapacity : List Update → Nat
  | [] => 0
  | [.insert _ v] => entrySize v
  | [.remove _] => 0
  | us => 1 + (us.map Update.capacity).sum

/-- `transaction_valid` (`format.rs:531-555`) up to the sorted keys, for which the model uses the keys in the order of the
updates (they are only used for membership and count). -/
def updateValid (F : Format) : Update → Bool
  | .insert k v => k ≤ maxKey && v.length ≤ F.maxValueLen
  | .remove k => k ≤ maxKey

/-- `transaction_valid` (`format.rs:531-555`). -/
def transactionValid (F : Format) (us : List Update) : Bool :=
  us.length ≤ maxUpdates && us.all (updateValid F) && decide (us.map Update.key).Nodup

end Verif.Store
