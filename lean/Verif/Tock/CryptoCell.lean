import Verif.Tock.Upgrade
import Verif.Crypto.ShaLemmas

/-!
# The hash of the bootloader (`bootloader/src/crypto_cell.rs`)

The driver of the CryptoCell 310, and the engine that it drives. The engine is hardware: what its registers do is assumed, as
`registers.rs` and `bitfields.rs` describe it. It applies the compression function of FIPS 180-4 to the blocks that it reads, and
counts bytes. What it does with parts of a block is left open (`none`).
-/
namespace Verif.Tock
open Verif.Crypto (Bytes)
open Verif.Crypto.Sha (KSpec)
open Verif.Crypto.Sha.Spec (V W blocks compress be)

/-- FIPS 180-4, 5.1.1: what follows a message of this many bytes. -/
def padding (n : Nat) : Bytes := [0x80] ++ List.replicate ((119 - n % 64) % 64) 0 ++ be 8 (8 * n)

/-- The registers of the hash engine (`registers.rs:50-73`). The clocks, the power, the mode and the interrupts are not modelled;
waiting loops end. -/
structure Engine where
  hash : V
  lenLsb : Nat
  lenMsb : Nat
  autoPadding : Bool

/-- The length that the two registers hold. -/
def Engine.length (e : Engine) : Nat := e.lenMsb * 2 ^ 32 + e.lenLsb

/-- Hardware: the blocks are hashed, and `n` bytes are counted. -/
def Engine.absorb (e : Engine) (bytes : Bytes) (n : Nat) : Engine :=
  { e with
    hash := (blocks bytes).foldl (compress KSpec) e.hash
    lenLsb := (e.length + n) % 2 ^ 32
    lenMsb := (e.length + n) / 2 ^ 32 % 2 ^ 32 }

/-- Hardware: writing `src_lli_word1` (`crypto_cell.rs:201-205`) starts reading this many bytes from the memory. With automatic
padding the engine adds the padding. -/
def Engine.dma (e : Engine) (data : Bytes) : Option Engine :=
  if e.length % 64 ≠ 0 then none
  else if e.autoPadding then some (e.absorb (data ++ padding (e.length + data.length)) data.length)
  else if data.length % 64 ≠ 0 then none
  else some (e.absorb data data.length)

/-- Hardware: writing `pad_config` (`crypto_cell.rs:219-222`) adds the padding. -/
def Engine.doPad (e : Engine) : Option Engine :=
  if e.length % 64 ≠ 0 then none else some (e.absorb (padding e.length) 0)

/-- `CryptoCell310` (`crypto_cell.rs:45-52`). -/
structure CryptoCell where
  ctx : V
  total : Nat

/-- `SHA256_INIT_VALUE` (`crypto_cell.rs:31-33`). -/
def initValue : V := fun i => match i with
  | 0 => 0x6A09E667#32
  | 1 => 0xBB67AE85#32
  | 2 => 0x3C6EF372#32
  | 3 => 0xA54FF53A#32
  | 4 => 0x510E527F#32
  | 5 => 0x9B05688C#32
  | 6 => 0x1F83D9AB#32
  | 7 => 0x5BE0CD19#32

/-- `CryptoCell310::new` (`crypto_cell.rs:67-77`). -/
def CryptoCell.new : CryptoCell := ⟨initValue, 0⟩

/-- `clear_data` (`crypto_cell.rs:136-141`). -/
def CryptoCell.clearData (_ : CryptoCell) : CryptoCell := ⟨fun _ => 0, 0⟩

/-- `update` (`crypto_cell.rs:147-268`). The number of bytes has 30 bits in its register. -/
def CryptoCell.update (c : CryptoCell) (data : Bytes) (isLastBlock : Bool) : Option CryptoCell :=
  let e : Engine := ⟨c.ctx, c.total % 2 ^ 32, c.total / 2 ^ 32 % 2 ^ 32, false⟩
  let done :=
    if data.isEmpty then e.doPad
    else Engine.dma { e with autoPadding := isLastBlock } (data.take (data.length % 2 ^ 30))
  done.map fun e => ⟨e.hash, e.length⟩

/-- `finalize_and_clear` (`crypto_cell.rs:271-280`). -/
def CryptoCell.finalizeAndClear (c : CryptoCell) : Bytes × CryptoCell :=
  (be 4 (c.ctx 0).toNat ++ be 4 (c.ctx 1).toNat ++ be 4 (c.ctx 2).toNat ++ be 4 (c.ctx 3).toNat ++
    be 4 (c.ctx 4).toNat ++ be 4 (c.ctx 5).toNat ++ be 4 (c.ctx 6).toNat ++ be 4 (c.ctx 7).toNat, c.clearData)

/-- Several updates. -/
def CryptoCell.updates (c : CryptoCell) : List (Bytes × Bool) → Option CryptoCell
  | [] => some c
  | (data, last) :: l => (c.update data last).bind fun c => c.updates l

/-- `compute_upgrade_hash` (`bootloader/src/main.rs:105-118`) with the driver. -/
def BootPartition.hardwareHash (p : BootPartition) (m : Mem) (metadataPage : Bytes) : Option Bytes :=
  (CryptoCell.new.updates ((metadataPage.drop signOffset, false) ::
    (List.range (firmwareLength / metadataLen)).map fun i =>
      (m.read (p.firmwareAddress + i * metadataLen) metadataLen, i * metadataLen + metadataLen == firmwareLength))).map
    fun c => c.finalizeAndClear.1

end Verif.Tock
