import Verif.Crypto.CbcModel
/-!
# Model of `libraries/crypto/src/aes256.rs`

Blocks and words are byte lists (16 and 4 bytes); the in-place updates of the code are `List.set`.
Indexing never leaves the block in the code (fixed-size arrays); `getD _ 0` is only used in range, which the
theorems check by relating every operation to FIPS 197.
-/
namespace Verif.Crypto.Aes
open Verif.Crypto

/-- `b[i]`. -/
abbrev at' (b : Bytes) (i : Nat) : UInt8 := b.getD i 0

/-- `SBOX` (`aes256.rs:264-281`). -/
def SBOX : List UInt8 :=
  [0x63, 0x7c, 0x77, 0x7b, 0xf2, 0x6b, 0x6f, 0xc5, 0x30, 0x01, 0x67, 0x2b, 0xfe, 0xd7, 0xab, 0x76,
   0xca, 0x82, 0xc9, 0x7d, 0xfa, 0x59, 0x47, 0xf0, 0xad, 0xd4, 0xa2, 0xaf, 0x9c, 0xa4, 0x72, 0xc0,
   0xb7, 0xfd, 0x93, 0x26, 0x36, 0x3f, 0xf7, 0xcc, 0x34, 0xa5, 0xe5, 0xf1, 0x71, 0xd8, 0x31, 0x15,
   0x04, 0xc7, 0x23, 0xc3, 0x18, 0x96, 0x05, 0x9a, 0x07, 0x12, 0x80, 0xe2, 0xeb, 0x27, 0xb2, 0x75,
   0x09, 0x83, 0x2c, 0x1a, 0x1b, 0x6e, 0x5a, 0xa0, 0x52, 0x3b, 0xd6, 0xb3, 0x29, 0xe3, 0x2f, 0x84,
   0x53, 0xd1, 0x00, 0xed, 0x20, 0xfc, 0xb1, 0x5b, 0x6a, 0xcb, 0xbe, 0x39, 0x4a, 0x4c, 0x58, 0xcf,
   0xd0, 0xef, 0xaa, 0xfb, 0x43, 0x4d, 0x33, 0x85, 0x45, 0xf9, 0x02, 0x7f, 0x50, 0x3c, 0x9f, 0xa8,
   0x51, 0xa3, 0x40, 0x8f, 0x92, 0x9d, 0x38, 0xf5, 0xbc, 0xb6, 0xda, 0x21, 0x10, 0xff, 0xf3, 0xd2,
   0xcd, 0x0c, 0x13, 0xec, 0x5f, 0x97, 0x44, 0x17, 0xc4, 0xa7, 0x7e, 0x3d, 0x64, 0x5d, 0x19, 0x73,
   0x60, 0x81, 0x4f, 0xdc, 0x22, 0x2a, 0x90, 0x88, 0x46, 0xee, 0xb8, 0x14, 0xde, 0x5e, 0x0b, 0xdb,
   0xe0, 0x32, 0x3a, 0x0a, 0x49, 0x06, 0x24, 0x5c, 0xc2, 0xd3, 0xac, 0x62, 0x91, 0x95, 0xe4, 0x79,
   0xe7, 0xc8, 0x37, 0x6d, 0x8d, 0xd5, 0x4e, 0xa9, 0x6c, 0x56, 0xf4, 0xea, 0x65, 0x7a, 0xae, 0x08,
   0xba, 0x78, 0x25, 0x2e, 0x1c, 0xa6, 0xb4, 0xc6, 0xe8, 0xdd, 0x74, 0x1f, 0x4b, 0xbd, 0x8b, 0x8a,
   0x70, 0x3e, 0xb5, 0x66, 0x48, 0x03, 0xf6, 0x0e, 0x61, 0x35, 0x57, 0xb9, 0x86, 0xc1, 0x1d, 0x9e,
   0xe1, 0xf8, 0x98, 0x11, 0x69, 0xd9, 0x8e, 0x94, 0x9b, 0x1e, 0x87, 0xe9, 0xce, 0x55, 0x28, 0xdf,
   0x8c, 0xa1, 0x89, 0x0d, 0xbf, 0xe6, 0x42, 0x68, 0x41, 0x99, 0x2d, 0x0f, 0xb0, 0x54, 0xbb, 0x16]

/-- `SBOX_INV` (`aes256.rs:283-300`). -/
def SBOX_INV : List UInt8 :=
  [0x52, 0x09, 0x6a, 0xd5, 0x30, 0x36, 0xa5, 0x38, 0xbf, 0x40, 0xa3, 0x9e, 0x81, 0xf3, 0xd7, 0xfb,
   0x7c, 0xe3, 0x39, 0x82, 0x9b, 0x2f, 0xff, 0x87, 0x34, 0x8e, 0x43, 0x44, 0xc4, 0xde, 0xe9, 0xcb,
   0x54, 0x7b, 0x94, 0x32, 0xa6, 0xc2, 0x23, 0x3d, 0xee, 0x4c, 0x95, 0x0b, 0x42, 0xfa, 0xc3, 0x4e,
   0x08, 0x2e, 0xa1, 0x66, 0x28, 0xd9, 0x24, 0xb2, 0x76, 0x5b, 0xa2, 0x49, 0x6d, 0x8b, 0xd1, 0x25,
   0x72, 0xf8, 0xf6, 0x64, 0x86, 0x68, 0x98, 0x16, 0xd4, 0xa4, 0x5c, 0xcc, 0x5d, 0x65, 0xb6, 0x92,
   0x6c, 0x70, 0x48, 0x50, 0xfd, 0xed, 0xb9, 0xda, 0x5e, 0x15, 0x46, 0x57, 0xa7, 0x8d, 0x9d, 0x84,
   0x90, 0xd8, 0xab, 0x00, 0x8c, 0xbc, 0xd3, 0x0a, 0xf7, 0xe4, 0x58, 0x05, 0xb8, 0xb3, 0x45, 0x06,
   0xd0, 0x2c, 0x1e, 0x8f, 0xca, 0x3f, 0x0f, 0x02, 0xc1, 0xaf, 0xbd, 0x03, 0x01, 0x13, 0x8a, 0x6b,
   0x3a, 0x91, 0x11, 0x41, 0x4f, 0x67, 0xdc, 0xea, 0x97, 0xf2, 0xcf, 0xce, 0xf0, 0xb4, 0xe6, 0x73,
   0x96, 0xac, 0x74, 0x22, 0xe7, 0xad, 0x35, 0x85, 0xe2, 0xf9, 0x37, 0xe8, 0x1c, 0x75, 0xdf, 0x6e,
   0x47, 0xf1, 0x1a, 0x71, 0x1d, 0x29, 0xc5, 0x89, 0x6f, 0xb7, 0x62, 0x0e, 0xaa, 0x18, 0xbe, 0x1b,
   0xfc, 0x56, 0x3e, 0x4b, 0xc6, 0xd2, 0x79, 0x20, 0x9a, 0xdb, 0xc0, 0xfe, 0x78, 0xcd, 0x5a, 0xf4,
   0x1f, 0xdd, 0xa8, 0x33, 0x88, 0x07, 0xc7, 0x31, 0xb1, 0x12, 0x10, 0x59, 0x27, 0x80, 0xec, 0x5f,
   0x60, 0x51, 0x7f, 0xa9, 0x19, 0xb5, 0x4a, 0x0d, 0x2d, 0xe5, 0x7a, 0x9f, 0x93, 0xc9, 0x9c, 0xef,
   0xa0, 0xe0, 0x3b, 0x4d, 0xae, 0x2a, 0xf5, 0xb0, 0xc8, 0xeb, 0xbb, 0x3c, 0x83, 0x53, 0x99, 0x61,
   0x17, 0x2b, 0x04, 0x7e, 0xba, 0x77, 0xd6, 0x26, 0xe1, 0x69, 0x14, 0x63, 0x55, 0x21, 0x0c, 0x7d]

/-- `RCON` (`aes256.rs:261`). -/
def RCON : List UInt8 := [0x01, 0x02, 0x04, 0x08, 0x10, 0x20, 0x40]

/-- Table lookups `SBOX[x as usize]`, `SBOX_INV[x as usize]`. -/
def sbox (x : UInt8) : UInt8 := SBOX.getD x.toNat 0
@[inherit_doc sbox] def sboxInv (x : UInt8) : UInt8 := SBOX_INV.getD x.toNat 0

/-- `rotword` (`aes256.rs:105-111`). -/
def rotword (w : Bytes) : Bytes :=
  let tmp := at' w 0
  let w := w.set 0 (at' w 1)
  let w := w.set 1 (at' w 2)
  let w := w.set 2 (at' w 3)
  w.set 3 tmp

/-- `subword` (`aes256.rs:113-117`). -/
def subword (w : Bytes) : Bytes := w.map sbox

/-- `xorword` (`aes256.rs:119-123`). -/
def xorword (w src : Bytes) : Bytes := List.zipWith (· ^^^ ·) w src

/-- `sub_bytes`, `inv_sub_bytes` (`aes256.rs:157-167`). -/
def subBytes (b : Bytes) : Bytes := b.map sbox
@[inherit_doc subBytes] def invSubBytes (b : Bytes) : Bytes := b.map sboxInv

/-- `block.swap(i, j)`. -/
def swap (b : Bytes) (i j : Nat) : Bytes := (b.set i (at' b j)).set j (at' b i)

/-- `shift_rows` (`aes256.rs:169-184`). -/
def shiftRows (b : Bytes) : Bytes :=
  let tmp := at' b 1
  let b := b.set 1 (at' b 5)
  let b := b.set 5 (at' b 9)
  let b := b.set 9 (at' b 13)
  let b := b.set 13 tmp
  let b := swap b 2 10
  let b := swap b 6 14
  let tmp := at' b 3
  let b := b.set 3 (at' b 15)
  let b := b.set 15 (at' b 11)
  let b := b.set 11 (at' b 7)
  b.set 7 tmp

/-- `inv_shift_rows` (`aes256.rs:186-201`). -/
def invShiftRows (b : Bytes) : Bytes :=
  let tmp := at' b 7
  let b := b.set 7 (at' b 11)
  let b := b.set 11 (at' b 15)
  let b := b.set 15 (at' b 3)
  let b := b.set 3 tmp
  let b := swap b 2 10
  let b := swap b 6 14
  let tmp := at' b 13
  let b := b.set 13 (at' b 9)
  let b := b.set 9 (at' b 5)
  let b := b.set 5 (at' b 1)
  b.set 1 tmp

/-- `mul2`, `mul3` (`aes256.rs:204-211`). -/
def mul2 (x : UInt8) : UInt8 := (x <<< 1) ^^^ (((x >>> 7) &&& 1) * 0x1b)
@[inherit_doc mul2] def mul3 (x : UInt8) : UInt8 := mul2 x ^^^ x

/-- Body of the loop of `mix_columns` (`aes256.rs:214-223`) for column `i`. -/
def mixColumn (b : Bytes) (i : Nat) : Bytes :=
  let x0 := at' b (4 * i)
  let x1 := at' b (4 * i + 1)
  let x2 := at' b (4 * i + 2)
  let x3 := at' b (4 * i + 3)
  let b := b.set (4 * i) (mul2 x0 ^^^ mul3 x1 ^^^ x2 ^^^ x3)
  let b := b.set (4 * i + 1) (x0 ^^^ mul2 x1 ^^^ mul3 x2 ^^^ x3)
  let b := b.set (4 * i + 2) (x0 ^^^ x1 ^^^ mul2 x2 ^^^ mul3 x3)
  b.set (4 * i + 3) (mul3 x0 ^^^ x1 ^^^ x2 ^^^ mul2 x3)

/-- `mix_columns` (`aes256.rs:213-224`). -/
def mixColumns (b : Bytes) : Bytes := [0, 1, 2, 3].foldl mixColumn b

/-- `mul9`, `mul11`, `mul13`, `mul14` (`aes256.rs:227-244`). -/
def mul9 (x : UInt8) : UInt8 := mul2 (mul2 (mul2 x)) ^^^ x
@[inherit_doc mul9] def mul11 (x : UInt8) : UInt8 := mul2 (mul2 (mul2 x) ^^^ x) ^^^ x
@[inherit_doc mul9] def mul13 (x : UInt8) : UInt8 := mul2 (mul2 (mul2 x ^^^ x)) ^^^ x
@[inherit_doc mul9] def mul14 (x : UInt8) : UInt8 := mul2 (mul2 (mul2 x ^^^ x) ^^^ x)

/-- Body of the loop of `inv_mix_columns` (`aes256.rs:247-256`). -/
def invMixColumn (b : Bytes) (i : Nat) : Bytes :=
  let x0 := at' b (4 * i)
  let x1 := at' b (4 * i + 1)
  let x2 := at' b (4 * i + 2)
  let x3 := at' b (4 * i + 3)
  let b := b.set (4 * i) (mul14 x0 ^^^ mul11 x1 ^^^ mul13 x2 ^^^ mul9 x3)
  let b := b.set (4 * i + 1) (mul9 x0 ^^^ mul14 x1 ^^^ mul11 x2 ^^^ mul13 x3)
  let b := b.set (4 * i + 2) (mul13 x0 ^^^ mul9 x1 ^^^ mul14 x2 ^^^ mul11 x3)
  b.set (4 * i + 3) (mul11 x0 ^^^ mul13 x1 ^^^ mul9 x2 ^^^ mul14 x3)

/-- `inv_mix_columns` (`aes256.rs:246-257`). -/
def invMixColumns (b : Bytes) : Bytes := [0, 1, 2, 3].foldl invMixColumn b

/-- `aes_enc`, `aes_dec`, `aes_enc_last`, `aes_dec_last`, `add_round_key` (`aes256.rs:126-155`). -/
def aesEnc (b rk : Bytes) : Bytes := xorBlock (mixColumns (shiftRows (subBytes b))) rk
@[inherit_doc aesEnc] def aesDec (b rk : Bytes) : Bytes :=
  xorBlock (invMixColumns (invSubBytes (invShiftRows b))) rk
@[inherit_doc aesEnc] def aesEncLast (b rk : Bytes) : Bytes := xorBlock (shiftRows (subBytes b)) rk
@[inherit_doc aesEnc] def aesDecLast (b rk : Bytes) : Bytes := xorBlock (invSubBytes (invShiftRows b)) rk

/-- The word transformation at the head of the key schedule loop (`aes256.rs:50-57`). -/
def ksHead (i : Nat) (word : Bytes) : Bytes :=
  if i % 2 = 0 then
    let word := subword (rotword word)
    word.set 0 (at' word 0 ^^^ RCON.getD (i / 2 - 1) 0)
  else subword word

/-- The inner loop (`aes256.rs:59-62`): the new round key so far and the running word. -/
def ksInner (src : Bytes) (st : Bytes × Bytes) (j : Nat) : Bytes × Bytes :=
  let word := xorword st.2 ((src.drop (4 * j)).take 4)
  (st.1 ++ word, word)

/-- One iteration `i` of the key schedule (`aes256.rs:49-63`): round keys so far and running word. -/
def ksStep (st : List Bytes × Bytes) (i : Nat) : List Bytes × Bytes :=
  let r := [0, 1, 2, 3].foldl (ksInner (st.1.getD (i - 2) [])) ([], ksHead i st.2)
  (st.1 ++ [r.1], r.2)

/-- `EncryptionKey::new` (`aes256.rs:43-66`): the 15 round keys. -/
def encKey (key : Bytes) : List Bytes :=
  let rk0 := key.take 16
  let rk1 := (key.drop 16).take 16
  ((List.range' 2 13).foldl ksStep ([rk0, rk1], rk1.drop 12)).1

/-- `EncryptionKey::encrypt_block` (`aes256.rs:69-75`). -/
def encryptBlock (rks : List Bytes) (b : Bytes) : Bytes :=
  let b := xorBlock b (rks.getD 0 [])
  let b := (List.range 13).foldl (fun b i => aesEnc b (rks.getD (i + 1) [])) b
  aesEncLast b (rks.getD 14 [])

/-- `DecryptionKey::new` (`aes256.rs:80-92`). -/
def decKey (rks : List Bytes) : List Bytes :=
  [rks.getD 14 []] ++ (List.range 13).map (fun i => invMixColumns (rks.getD (14 - (i + 1)) [])) ++ [rks.getD 0 []]

/-- `DecryptionKey::decrypt_block` (`aes256.rs:95-101`). -/
def decryptBlock (drks : List Bytes) (b : Bytes) : Bytes :=
  let b := xorBlock b (drks.getD 0 [])
  let b := (List.range 13).foldl (fun b i => aesDec b (drks.getD (i + 1) [])) b
  aesDecLast b (drks.getD 14 [])

end Verif.Crypto.Aes
