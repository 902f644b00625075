import Verif.Crypto.CbcModel
/-!
# Model of `libraries/crypto/src/sha256.rs`, `hmac.rs` and `hkdf.rs`

Fixed-size arrays are lists. The `BUSY` flag (`sha256.rs:27`) is a `const` item, so each use is a fresh cell and the
assertion in `new` cannot fail; it is not modelled. Zeroizing on drop is not modelled.
-/
namespace Verif.Crypto.Sha
open Verif.Crypto

/-- `Sha256::H` (`sha256.rs:173-182`). -/
def H0 : List UInt32 :=
  [0x6a09e667, 0xbb67ae85, 0x3c6ef372, 0xa54ff53a, 0x510e527f, 0x9b05688c, 0x1f83d9ab, 0x5be0cd19]

/-- `Sha256::K` (`sha256.rs:185-196`). -/
def K : List UInt32 :=
  [0x428a2f98, 0x71374491, 0xb5c0fbcf, 0xe9b5dba5, 0x3956c25b, 0x59f111f1, 0x923f82a4, 0xab1c5ed5,
   0xd807aa98, 0x12835b01, 0x243185be, 0x550c7dc3, 0x72be5d74, 0x80deb1fe, 0x9bdc06a7, 0xc19bf174,
   0xe49b69c1, 0xefbe4786, 0x0fc19dc6, 0x240ca1cc, 0x2de92c6f, 0x4a7484aa, 0x5cb0a9dc, 0x76f988da,
   0x983e5152, 0xa831c66d, 0xb00327c8, 0xbf597fc7, 0xc6e00bf3, 0xd5a79147, 0x06ca6351, 0x14292967,
   0x27b70a85, 0x2e1b2138, 0x4d2c6dfc, 0x53380d13, 0x650a7354, 0x766a0abb, 0x81c2c92e, 0x92722c85,
   0xa2bfe8a1, 0xa81a664b, 0xc24b8b70, 0xc76c51a3, 0xd192e819, 0xd6990624, 0xf40e3585, 0x106aa070,
   0x19a4c116, 0x1e376c08, 0x2748774c, 0x34b0bcb5, 0x391c0cb3, 0x4ed8aa4a, 0x5b9cca4f, 0x682e6ff3,
   0x748f82ee, 0x78a5636f, 0x84c87814, 0x8cc70208, 0x90befffa, 0xa4506ceb, 0xbef9a3f7, 0xc67178f2]

/-- `u32::rotate_right`. -/
def rotr (x n : UInt32) : UInt32 := (x >>> n) ||| (x <<< (32 - n))

/-- `choice`, `majority`, `bsig0`, `bsig1`, `ssig0`, `ssig1` (`sha256.rs:200-227`). -/
def choice (e f g : UInt32) : UInt32 := (e &&& f) ^^^ (~~~e &&& g)
@[inherit_doc choice] def majority (a b c : UInt32) : UInt32 := (a &&& b) ^^^ (a &&& c) ^^^ (b &&& c)
@[inherit_doc choice] def bsig0 (x : UInt32) : UInt32 := rotr x 2 ^^^ rotr x 13 ^^^ rotr x 22
@[inherit_doc choice] def bsig1 (x : UInt32) : UInt32 := rotr x 6 ^^^ rotr x 11 ^^^ rotr x 25
@[inherit_doc choice] def ssig0 (x : UInt32) : UInt32 := rotr x 7 ^^^ rotr x 18 ^^^ (x >>> 3)
@[inherit_doc choice] def ssig1 (x : UInt32) : UInt32 := rotr x 17 ^^^ rotr x 19 ^^^ (x >>> 10)

/-- `BigEndian::read_u32`. -/
def readU32 (b : Bytes) : UInt32 :=
  ((b.getD 0 0).toUInt32 <<< 24) ||| ((b.getD 1 0).toUInt32 <<< 16) ||| ((b.getD 2 0).toUInt32 <<< 8) |||
    (b.getD 3 0).toUInt32

/-- `BigEndian::write_u32`. -/
def writeU32 (x : UInt32) : Bytes :=
  [(x >>> 24).toUInt8, (x >>> 16).toUInt8, (x >>> 8).toUInt8, x.toUInt8]

/-- `BigEndian::write_u64` of a value already reduced modulo `2^64`. -/
def writeU64 (n : Nat) : Bytes :=
  [7, 6, 5, 4, 3, 2, 1, 0].map fun i => UInt8.ofNat (n / 2 ^ (8 * i))

/-- The schedule loop (`sha256.rs:124-133`): the array `w` as the list of entries filled so far. -/
def schedule (block : Bytes) : List UInt32 :=
  let w := (List.range 16).map fun i => readU32 ((block.drop (4 * i)).take 4)
  (List.range' 16 48).foldl (fun w i =>
    w ++ [w.getD (i - 16) 0 + ssig0 (w.getD (i - 15) 0) + w.getD (i - 7) 0 + ssig1 (w.getD (i - 2) 0)]) w

/-- The eight working variables. -/
structure Vars where
  (a b c d e f g h : UInt32)
deriving DecidableEq, Repr

/-- One iteration of the round loop (`sha256.rs:144-157`). -/
def round (v : Vars) (k w : UInt32) : Vars :=
  let tmp1 := v.h + bsig1 v.e + choice v.e v.f v.g + k + w
  let tmp2 := bsig0 v.a + majority v.a v.b v.c
  { h := v.g, g := v.f, f := v.e, e := v.d + tmp1, d := v.c, c := v.b, b := v.a, a := tmp1 + tmp2 }

/-- `hash_block` (`sha256.rs:123-168`). -/
def hashBlock (state : Vars) (block : Bytes) : Vars :=
  let w := schedule block
  let v := (List.range 64).foldl (fun v i => round v (K.getD i 0) (w.getD i 0)) state
  { a := state.a + v.a, b := state.b + v.b, c := state.c + v.c, d := state.d + v.d,
    e := state.e + v.e, f := state.f + v.f, g := state.g + v.g, h := state.h + v.h }

def Vars.ofList (l : List UInt32) : Vars :=
  ⟨l.getD 0 0, l.getD 1 0, l.getD 2 0, l.getD 3 0, l.getD 4 0, l.getD 5 0, l.getD 6 0, l.getD 7 0⟩

/-- `struct Sha256` (`sha256.rs:29-33`). -/
structure Hasher where
  state : Vars
  block : Bytes
  totalLen : Nat
deriving DecidableEq, Repr

/-- `new` (`sha256.rs:48-55`). -/
def new : Hasher := { state := Vars.ofList H0, block := List.replicate 64 0, totalLen := 0 }

/-- The loop over full blocks in `update` (`sha256.rs:76-80`): new state and the rest. -/
def fullBlocks (state : Vars) (contents : Bytes) : Vars × Bytes :=
  if contents.length < 64 then (state, contents)
  else fullBlocks (hashBlock state (contents.take 64)) (contents.drop 64)
termination_by contents.length
decreasing_by simp [List.length_drop]; omega

/-- `block[i..i + src.len()].copy_from_slice(src)`. -/
def copyAt (block : Bytes) (i : Nat) (src : Bytes) : Bytes :=
  block.take i ++ src ++ block.drop (i + src.length)

/-- `update` (`sha256.rs:57-85`). `w` is the bit width of `usize`; `total_len` wraps. -/
def update (w : Nat) (s : Hasher) (contents : Bytes) : Hasher :=
  let cursor := s.totalLen % 64
  let left := 64 - cursor
  let totalLen := (s.totalLen + contents.length) % 2 ^ w
  if contents.length < left then
    { s with block := copyAt s.block cursor contents, totalLen }
  else
    let block := copyAt s.block cursor (contents.take left)
    let state := hashBlock s.state block
    let (state, rest) := fullBlocks state (contents.drop left)
    { state, block := copyAt block 0 rest, totalLen }

/-- `finalize` (`sha256.rs:87-116`). -/
def finalize (s : Hasher) : Bytes :=
  let cursor := s.totalLen % 64
  let block := s.block.set cursor 0x80
  let block := block.take (cursor + 1) ++ List.replicate (64 - (cursor + 1)) 0
  let (state, block) :=
    if cursor ≥ 56 then (hashBlock s.state block, List.replicate 64 0) else (s.state, block)
  let block := copyAt block 56 (writeU64 (s.totalLen * 8 % 2 ^ 64))
  let state := hashBlock state block
  [state.a, state.b, state.c, state.d, state.e, state.f, state.g, state.h].flatMap writeU32

/-- `Hash256::hash` (`libraries/crypto/src/lib.rs:39-49`). -/
def hash (w : Nat) (contents : Bytes) : Bytes := finalize (update w new contents)

/-- `xor_pads` (`hmac.rs:86-91`) for one of the two pads. -/
def xorPad (pad : Bytes) (key : Bytes) : Bytes :=
  List.zipWith (· ^^^ ·) (pad.take key.length) key ++ pad.drop key.length

/-- `software_hmac_256` (`hmac.rs:58-84`). -/
def hmac (w : Nat) (key contents : Bytes) : Bytes :=
  let k := if key.length ≤ 64 then key else hash w key
  let ipad := xorPad (List.replicate 64 0x36) k
  let opad := xorPad (List.replicate 64 0x5c) k
  let ihash := finalize (update w (update w new ipad) contents)
  finalize (update w (update w new opad) ihash)

/-- `verify_hmac_256` (`hmac.rs:23-30`). -/
def verifyHmac (w : Nat) (key contents mac : Bytes) : Bool := hmac w key contents == mac

/-- `verify_hmac_256_first_128bits` (`hmac.rs:34-45`). -/
def verifyHmac128 (w : Nat) (key contents pin : Bytes) : Bool := (hmac w key contents).take 16 == pin

/-- `hkdf_256` (`hkdf.rs:30-39`). -/
def hkdf (w : Nat) (ikm salt info : Bytes) : Bytes :=
  let prk := hmac w salt ikm
  hmac w prk (info ++ [1])

/-- `hkdf_empty_salt_256` (`hkdf.rs:50-56`). -/
def hkdfEmptySalt (w : Nat) (ikm info : Bytes) : Bytes := hkdf w ikm (List.replicate 32 0) info

end Verif.Crypto.Sha
