import Verif.Utf8

/-!
# Model of `libraries/cbor` (the `sk-cbor` crate)

Bytes are `UInt8`; `u64` payloads are `Nat` (the well-formedness predicate `WF` in `Spec.lean` bounds
them; the reader is proved to return well-formed values only).  Text strings are represented by their
UTF-8 bytes (`String` in Rust guarantees validity, here part of `WF`).
-/
namespace Verif.Cbor

abbrev Bytes := List UInt8

/-- `SimpleValue` (`libraries/cbor/src/values.rs:48-54`). -/
inductive Simple
  | false_ | true_ | null | undefined
deriving DecidableEq, Repr

/-- Discriminants of `SimpleValue` (`values.rs:50-53`). -/
def Simple.toNat : Simple → Nat
  | .false_ => 20 | .true_ => 21 | .null => 22 | .undefined => 23

/-- `SimpleValue::from_integer` (`values.rs:311-319`). -/
def Simple.ofNat? : Nat → Option Simple
  | 20 => some .false_ | 21 => some .true_ | 22 => some .null | 23 => some .undefined | _ => none

/-- `ValueImpl` (`values.rs:28-45`).  `Negative` carries an `i64`, here an `Int`. -/
inductive Value
  | unsigned (n : Nat)
  | negative (i : Int)
  | bytes (b : Bytes)
  | text (b : Bytes)
  | array (l : List Value)
  | map (m : List (Value × Value))
  | tag (n : Nat) (v : Value)
  | simple (s : Simple)
deriving Repr

/-- `ValueImpl::type_label` (`values.rs:230-243`). -/
def Value.typeLabel : Value → Nat
  | .unsigned _ => 0 | .negative _ => 1 | .bytes _ => 2 | .text _ => 3
  | .array _ => 4 | .map _ => 5 | .tag _ _ => 6 | .simple _ => 7

/-- Lexicographic comparison of byte slices, `impl Ord for [u8]` / `String` of the standard library. -/
def cmpBytes : Bytes → Bytes → Ordering
  | [], [] => .eq
  | [], _ :: _ => .lt
  | _ :: _, [] => .gt
  | a :: s, b :: t => (compare a.toNat b.toNat).then (cmpBytes s t)

mutual
/-- `impl Ord for ValueImpl` (`values.rs:246-293`). -/
def Value.cmp (a b : Value) : Ordering :=
  if a.typeLabel ≠ b.typeLabel then compare a.typeLabel b.typeLabel else
  match a, b with
  | .unsigned x, .unsigned y => compare x y
  | .negative x, .negative y => (compare x y).swap
  | .bytes x, .bytes y => (compare x.length y.length).then (cmpBytes x y)
  | .text x, .text y => (compare x.length y.length).then (cmpBytes x y)
  | .array x, .array y =>
    if x.length ≠ y.length then compare x.length y.length else Value.cmpList x y
  | .map x, .map y =>
    if x.length ≠ y.length then compare x.length y.length else Value.cmpMap x y
  | .tag x v, .tag y w => (compare x y).then (Value.cmp v w)
  | .simple x, .simple y => compare x.toNat y.toNat
  | _, _ => .eq -- `unreachable!()` (`values.rs:287-290`): type labels are equal here
/-- The loop over array elements (`values.rs:262-272`); `zip` stops at the shorter list. -/
def Value.cmpList : List Value → List Value → Ordering
  | x :: xs, y :: ys => (Value.cmp x y).then (Value.cmpList xs ys)
  | _, _ => .eq
/-- The loop over map entries (`values.rs:274-284`). -/
def Value.cmpMap : List (Value × Value) → List (Value × Value) → Ordering
  | (k, v) :: xs, (k', v') :: ys =>
    ((Value.cmp k k').then (Value.cmp v v')).then (Value.cmpMap xs ys)
  | _, _ => .eq
end

/-- Stable insertion of an entry, keys compared with `cmp`. -/
def insertEntry (e : Value × Value) : List (Value × Value) → List (Value × Value)
  | [] => [e]
  | x :: xs => if x.1.cmp e.1 == .gt then e :: x :: xs else x :: insertEntry e xs

/-- `m.sort_by(|a, b| a.0.cmp(&b.0))` (`values.rs:116`); the standard library's stable sort, here insertion
sort. -/
def sortEntries (m : List (Value × Value)) : List (Value × Value) :=
  m.foldl (fun acc e => insertEntry e acc) []

/-- Whether `dedup_by(|a, b| a.0.eq(&b.0))` would remove something (`values.rs:118-121`); equality is
`cmp == Equal` (`values.rs:303-307`). -/
def hasDup : List (Value × Value) → Bool
  | a :: b :: t => a.1.cmp b.1 == .eq || hasDup (b :: t)
  | _ => false

/-- `Value::map` (`values.rs:115-123`): sort by key, panic (`none`) on duplicate keys. -/
def mkMap (m : List (Value × Value)) : Option Value :=
  if hasDup (sortEntries m) then none else some (.map (sortEntries m))

/-! ## Writer -/

/-- `EncoderError` (`writer.rs:22-25`); `DuplicateMapKey` is never produced. -/
inductive EncErr
  | tooMuchNesting
deriving DecidableEq, Repr

/-- `n` bytes of `x`, big endian: the loop `for i in (0..shift).rev() { push((size >> (i*8)) as u8) }`
(`writer.rs:108-110`). -/
def beBytes : Nat → Nat → Bytes
  | 0, _ => []
  | n + 1, x => UInt8.ofNat (x / 256 ^ n % 256) :: beBytes n x

/-- `Writer::start_item` (`writer.rs:97-111`). The `|=` of disjoint bits is written as a sum. -/
def startItem (typeLabel size : Nat) : Bytes :=
  if size ≤ 23 then [UInt8.ofNat (typeLabel * 32 + size)]
  else if size ≤ 0xFF then UInt8.ofNat (typeLabel * 32 + 24) :: beBytes 1 size
  else if size ≤ 0xFFFF then UInt8.ofNat (typeLabel * 32 + 25) :: beBytes 2 size
  else if size ≤ 0xFFFFFFFF then UInt8.ofNat (typeLabel * 32 + 26) :: beBytes 4 size
  else UInt8.ofNat (typeLabel * 32 + 27) :: beBytes 8 size

/-- `remaining_depth.map(|d| d - 1)` (`reader.rs:176`, `writer.rs:78`). -/
abbrev Depth := Option Int
def Depth.pred (d : Depth) : Depth := d.map (· - 1)
/-- `remaining_depth.map_or(false, |d| d < 0)` (`reader.rs:74`, `writer.rs:60`). -/
def Depth.exhausted : Depth → Bool
  | none => false
  | some d => d < 0

mutual
/-- `Writer::encode_cbor` (`writer.rs:55-95`), returning the bytes appended. Simplified: on an error the
bytes appended before the error are not returned (callers discard the buffer on error). -/
def Value.write (v : Value) (d : Depth) : Except EncErr Bytes :=
  if d.exhausted then .error .tooMuchNesting else
  match v with
  | .unsigned n => .ok (startItem 0 n)
  | .negative i => .ok (startItem 1 (-(i + 1)).toNat)
  | .bytes b => .ok (startItem 2 b.length ++ b)
  | .text b => .ok (startItem 3 b.length ++ b)
  | .array l => do
    let r ← Value.writeList l d.pred
    .ok (startItem 4 l.length ++ r)
  | .map m => do
    let r ← Value.writeMap m d.pred
    .ok (startItem 5 m.length ++ r)
  | .tag n v => do
    let r ← Value.write v d.pred
    .ok (startItem 6 n ++ r)
  | .simple s => .ok (startItem 7 s.toNat)
/-- The loop at `writer.rs:77-79`. -/
def Value.writeList : List Value → Depth → Except EncErr Bytes
  | [], _ => .ok []
  | x :: xs, d => do
    let a ← Value.write x d
    let b ← Value.writeList xs d
    .ok (a ++ b)
/-- The loop at `writer.rs:83-86`. -/
def Value.writeMap : List (Value × Value) → Depth → Except EncErr Bytes
  | [], _ => .ok []
  | (k, v) :: xs, d => do
    let a ← Value.write k d
    let b ← Value.write v d
    let c ← Value.writeMap xs d
    .ok (a ++ b ++ c)
end

/-! ## Reader -/

/-- `DecoderError` (`reader.rs:26-38`). `outOfFuel` is an artefact of the model: it is proved never to be
returned by `readNested`. -/
inductive DecErr
  | unknownAdditionalInfo | incompleteCborData | tooMuchNesting | invalidUtf8 | extraneousData
  | outOfOrderKey | nonMinimalCborEncoding | unsupportedSimpleValue | unsupportedFloatingPointValue
  | outOfRangeIntegerValue | outOfFuel
deriving DecidableEq, Repr

/-- `Reader::read_bytes` (`reader.rs:100-108`). -/
def readBytes (n : Nat) (bs : Bytes) : Option (Bytes × Bytes) :=
  if n > bs.length then none else some (bs.take n, bs.drop n)

/-- The big-endian accumulation loop (`reader.rs:121-125`); at most 8 bytes, so no overflow of `u64`. -/
def beNat (bs : Bytes) : Nat := bs.foldl (fun acc b => acc * 256 + b.toNat) 0

/-- `Reader::read_variadic_length_integer` (`reader.rs:110-136`). -/
def readVariadic (info : Nat) (bs : Bytes) : Except DecErr (Nat × Bytes) :=
  if info ≤ 23 then .ok (info, bs) else
  match (match info with | 24 => some 1 | 25 => some 2 | 26 => some 4 | 27 => some 8 | _ => none) with
  | none => .error .unknownAdditionalInfo
  | some k =>
    match readBytes k bs with
    | none => .error .incompleteCborData
    | some (l, r) =>
      let size := beNat l
      if (k = 1 ∧ size < 24) ∨ size < 2 ^ (8 * (k / 2)) then .error .nonMinimalCborEncoding
      else .ok (size, r)

/-- `for _ in 0..n { value_array.push(item()?) }` (`reader.rs:168-179`). -/
def readArrayLoop (item : Bytes → Except DecErr (Value × Bytes)) :
    Nat → Bytes → Except DecErr (List Value × Bytes)
  | 0, bs => .ok ([], bs)
  | n + 1, bs => do
    let (x, bs) ← item bs
    let (xs, bs) ← readArrayLoop item n bs
    .ok (x :: xs, bs)

/-- `last_item.0 >= key` (`reader.rs:189-190`). -/
def keyNotAfter : Option Value → Value → Bool
  | none, _ => false
  | some l, k => l.cmp k != .lt

/-- The loop of `Reader::read_map_content` (`reader.rs:186-199`); `last` is the last key pushed. -/
def readMapLoop (item : Bytes → Except DecErr (Value × Bytes)) :
    Nat → Option Value → Bytes → Except DecErr (List (Value × Value) × Bytes)
  | 0, _, bs => .ok ([], bs)
  | n + 1, last, bs => do
    let (k, bs) ← item bs
    if keyNotAfter last k then .error .outOfOrderKey
    else do
      let (v, bs) ← item bs
      let (xs, bs) ← readMapLoop item n (some k) bs
      .ok ((k, v) :: xs, bs)

/-- `Reader::decode_to_simple_value` (`reader.rs:211-227`). -/
def decodeSimple (size info : Nat) : Except DecErr Value :=
  if info > 23 ∧ info ≠ 24 then .error .unsupportedFloatingPointValue else
  match Simple.ofNat? size with
  | some s => .ok (.simple s)
  | none => .error .unsupportedSimpleValue

/-- `Reader::decode_complete_data_item` (`reader.rs:70-98`) with its callees (`138-227`).
`w` is the bit width of `usize` on the target, for the casts `size_value as usize` (`reader.rs:152,159`).
The recursion of the Rust code is bounded here by `fuel`; see `DecErr.outOfFuel`.
`cbor_map_collection!` (`reader.rs:199`) calls `Value::map`, which re-sorts an already strictly sorted list. -/
def decodeItem (w : Nat) : Nat → Depth → Bytes → Except DecErr (Value × Bytes)
  | 0, _, _ => .error .outOfFuel
  | fuel + 1, d, bs =>
    if d.exhausted then .error .tooMuchNesting else
    match bs with
    | [] => .error .incompleteCborData
    | first :: bs => do
      let major := first.toNat / 32
      let info := first.toNat % 32
      let (size, bs) ← readVariadic info bs
      match major with
      | 0 => .ok (.unsigned size, bs)
      | 1 => -- `size_value as i64 < 0`
        if size ≥ 2 ^ 63 then .error .outOfRangeIntegerValue else .ok (.negative (-(size : Int) - 1), bs)
      | 2 =>
        match readBytes (size % 2 ^ w) bs with
        | some (l, r) => .ok (.bytes l, r)
        | none => .error .incompleteCborData
      | 3 =>
        match readBytes (size % 2 ^ w) bs with
        | some (l, r) => if Utf8.valid l then .ok (.text l, r) else .error .invalidUtf8
        | none => .error .incompleteCborData
      | 4 => do
        let (l, r) ← readArrayLoop (decodeItem w fuel d.pred) size bs
        .ok (.array l, r)
      | 5 => do
        let (m, r) ← readMapLoop (decodeItem w fuel d.pred) size none bs
        .ok (.map m, r)
      | 6 => do
        let (v, r) ← decodeItem w fuel d.pred bs
        .ok (.tag size v, r)
      | _ => do
        let v ← decodeSimple size info
        .ok (v, bs)

/-- `read_nested` (`reader.rs:50-57`). The fuel is enough: each nested item consumes a byte. -/
def readNested (w : Nat) (bs : Bytes) (maxNest : Depth) : Except DecErr Value := do
  let (v, r) ← decodeItem w (bs.length + 1) maxNest bs
  if r.isEmpty then .ok v else .error .extraneousData

/-- `write_nested` (`writer.rs:37-44`) into an empty buffer. -/
def writeNested (v : Value) (maxNest : Depth) : Except EncErr Bytes := v.write maxNest

/-! ## Map destructuring -/

/-- `destructure_cbor_map_peek_value` (`libraries/cbor/src/macros.rs:91-113`): the value and the rest of the
iterator. -/
def peekValue (needle : Value) : List (Value × Value) → Option Value × List (Value × Value)
  | [] => (none, [])
  | (k, v) :: t =>
    match k.cmp needle with
    | .lt => peekValue needle t
    | .eq => (some v, t)
    | .gt => (none, (k, v) :: t)

/-- `destructure_cbor_map!` (`macros.rs:56-78`): one `peekValue` per wanted key, in order. -/
def destructure : List Value → List (Value × Value) → List (Option Value)
  | [], _ => []
  | n :: ns, it =>
    let r := peekValue n it
    r.1 :: destructure ns r.2

end Verif.Cbor
