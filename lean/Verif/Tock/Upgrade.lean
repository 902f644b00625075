import Verif.Tock.Ranges

/-!
# Firmware upgrades (`src/env/tock/storage.rs`, `src/env/tock/upgrade_helper.rs`) and booting (`bootloader/src/main.rs`)

The memory is a function from addresses to bytes. Each erase or write of the flash may fail or be interrupted, and then leaves
arbitrary bytes in the addresses that it should modify.
-/
namespace Verif.Tock

/-- The memory of the device. -/
abbrev Mem := Nat → UInt8

/-- The bytes from an address on: `read_slice` (`storage.rs:38-40`). -/
def Mem.read (m : Mem) (address length : Nat) : List UInt8 := (List.range' address length).map m

/-- What happens to an operation of the flash: it succeeds, or it fails or is cut off and leaves arbitrary bytes. -/
inductive Fate
  | ok
  | failed (junk : Mem)

/-- The operation succeeds. -/
def Fate.isOk : Fate → Bool
  | .ok => true
  | .failed _ => false

/-- Erasing a page (`third_party/libtock-drivers/src/storage.rs:121-128`) sets all its bits. -/
def Mem.erase (m : Mem) (address length : Nat) : Fate → Mem
  | .ok => fun a => if address ≤ a ∧ a < address + length then 0xff else m a
  | .failed junk => fun a => if address ≤ a ∧ a < address + length then junk a else m a

/-- Writing a slice (`third_party/libtock-drivers/src/storage.rs:109-119`) clears bits. -/
def Mem.write (m : Mem) (address : Nat) (data : List UInt8) : Fate → Mem
  | .ok => fun a => if address ≤ a ∧ a < address + data.length then m a &&& data.getD (a - address) 0xff else m a
  | .failed junk => fun a => if address ≤ a ∧ a < address + data.length then junk a else m a

/-- `LittleEndian::read_u32` and `read_u64` of the byteorder crate. -/
def readLe : List UInt8 → Nat
  | [] => 0
  | b :: bs => b.toNat + 256 * readLe bs

/-- `METADATA_SIGN_OFFSET` (`upgrade_helper.rs:30`, `bootloader/src/main.rs:37`). -/
def signOffset : Nat := 0x800

/-- `METADATA_LEN` (`upgrade_helper.rs:54`) and `PAGE_SIZE` of the bootloader (`bootloader/src/main.rs:36`). -/
def metadataLen : Nat := 0x1000

/-- `parse_metadata_hash` (`upgrade_helper.rs:78-80`). It panics for short slices, see `checkPartitionHash`. -/
def parseMetadataHash (data : List UInt8) : List UInt8 := data.take 32

/-- `parse_metadata_version` (`upgrade_helper.rs:83-85`). It panics for short slices, see `checkMetadata`. -/
def parseMetadataVersion (data : List UInt8) : Nat := readLe ((data.drop signOffset).take 8)

/-- The partition address in metadata (`upgrade_helper.rs:64`, `bootloader/src/main.rs:64`). -/
def parseMetadataAddress (data : List UInt8) : Nat := readLe ((data.drop (signOffset + 8)).take 4)

/-- The cryptography: SHA-256 and ECDSA of the environment (`upgrade_helper.rs:90-107`, `storage.rs:275-282`), and the hardware
SHA-256 of the bootloader (`bootloader/src/main.rs:105-118`), which is assumed to compute the same. -/
structure Crypto where
  Signature : Type
  PublicKey : Type
  hash : List UInt8 → List UInt8
  signatureFromSlice : List UInt8 → Option Signature
  publicKeyFromCoordinates : List UInt8 → List UInt8 → Option PublicKey
  verifyPrehash : PublicKey → List UInt8 → Signature → Bool

/-- `verify_signature` (`upgrade_helper.rs:90-107`). -/
def verifySignature (c : Crypto) (signatureBytes publicKeyBytes signedHash : List UInt8) : Except Fault Unit :=
  match c.signatureFromSlice signatureBytes with
  | none => .error .custom
  | some signature =>
    if publicKeyBytes.length ≠ 65 ∨ publicKeyBytes[0]? ≠ some 0x04 then .error .custom
    else
      match c.publicKeyFromCoordinates ((publicKeyBytes.drop 1).take 32) ((publicKeyBytes.drop 33).take 32) with
      | none => .error .custom
      | some publicKey => if c.verifyPrehash publicKey signedHash signature then .ok () else .error .custom

/-- A storage location of the kernel (`boards/nordic/nrf52840dk_opensk_a/build.rs:14-42`). -/
structure Location where
  isPartition : Bool
  address : Nat
  size : Nat
deriving DecidableEq, Repr

/-- `TockUpgradeStorage` (`storage.rs:156-167`). -/
structure Upgrade where
  pageSize : Nat
  partition : Partition
  metadata : ModRange
  runningMetadata : ModRange
  identifier : Nat
deriving DecidableEq, Repr

/-- `METADATA_ADDRESS` (`storage.rs:176`). -/
def metadataAddress : Nat := 0x4000
/-- `PARTITION_ADDRESS_A` (`storage.rs:177`). -/
def partitionAddressA : Nat := 0x20000
/-- `PARTITION_ADDRESS_B` (`storage.rs:178`). -/
def partitionAddressB : Nat := 0x60000

/-- The loop over the storage locations in `TockUpgradeStorage::new` (`storage.rs:208-232`): the fields `metadata` and
`running_metadata`, and the firmware range. -/
def Upgrade.scan (pageSize : Nat) :
    List Location → ModRange × ModRange × ModRange → Except Fault (ModRange × ModRange × ModRange)
  | [], acc => .ok acc
  | loc :: locs, (metadata, running, firmware) =>
    if !loc.isPartition then Upgrade.scan pageSize locs (metadata, running, firmware)
    else if !isAligned pageSize loc.address || !isAligned pageSize loc.size then .error .custom
    else if loc.address = metadataAddress then
      Upgrade.scan pageSize locs (⟨loc.address, pageSize⟩, ⟨loc.address + pageSize, pageSize⟩, firmware)
    else if (firmware.append ⟨loc.address, loc.size⟩).1 then
      Upgrade.scan pageSize locs (metadata, running, (firmware.append ⟨loc.address, loc.size⟩).2)
    else .error .notAligned

/-- `usize::is_power_of_two` of the core library. -/
def isPowerOfTwo (n : Nat) : Bool := n ≠ 0 && n == 2 ^ n.log2

/-- The end of `TockUpgradeStorage::new` (`storage.rs:233-249`). -/
def Upgrade.finish (pageSize : Nat) (metadata running firmware : ModRange) (identifier : Nat) : Except Fault Upgrade :=
  if !(Partition.append [] metadata).1 then .error .notAligned
  else if !(Partition.append (Partition.append [] metadata).2 firmware).1 then .error .notAligned
  else .ok ⟨pageSize, (Partition.append (Partition.append [] metadata).2 firmware).2, metadata, running, identifier⟩

/-- `TockUpgradeStorage::new` (`storage.rs:194-250`), from the page size and the storage locations that the kernel reports. That
the system calls fail is not modelled: then there is no upgrade storage. -/
def Upgrade.new (pageSize : Nat) (locs : List Location) : Except Fault Upgrade :=
  if !isPowerOfTwo pageSize then .error .custom
  else
    match Upgrade.scan pageSize locs (.newEmpty, .newEmpty, .newEmpty) with
    | .error e => .error e
    | .ok (metadata, running, firmware) =>
      if firmware.isEmpty || metadata.isEmpty || running.isEmpty then .error .custom
      else if firmware.start = partitionAddressB then Upgrade.finish pageSize running metadata firmware partitionAddressB
      else Upgrade.finish pageSize metadata running firmware partitionAddressA

/-- `TockUpgradeStorage::contains_metadata` (`storage.rs:260-270`). -/
def Upgrade.containsMetadata (u : Upgrade) (checked : ModRange) : Except Fault Bool :=
  if checked.intersectsRange u.metadata then
    if checked.containsRange u.metadata then .ok true else .error .notAligned
  else .ok false

/-- `TockUpgradeStorage::running_firmware_version` (`storage.rs:325-333`). -/
def Upgrade.runningVersion (u : Upgrade) (m : Mem) : Nat :=
  parseMetadataVersion (m.read u.runningMetadata.start u.runningMetadata.length)

/-- `check_metadata` (`upgrade_helper.rs:44-75`). After the check of the length no access of this slice is out of bounds; the
running metadata has the same length, as both are one page. -/
def checkMetadata (c : Crypto) (u : Upgrade) (m : Mem) (key metadata : List UInt8) : Except Fault Unit :=
  if metadata.length ≠ metadataLen then .error .custom
  else if parseMetadataVersion metadata < u.runningVersion m then .error .custom
  else if parseMetadataAddress metadata ≠ u.identifier then .error .custom
  else verifySignature c ((metadata.drop 32).take 64) key (parseMetadataHash metadata)

/-- `TockUpgradeStorage::check_partition_hash` (`storage.rs:273-287`). -/
def Upgrade.checkPartitionHash (c : Crypto) (u : Upgrade) (m : Mem) (metadata : List UInt8) : Except Fault Unit :=
  if metadata.length < 32 then .error .panic
  else if c.hash ((Partition.rangesFrom u.partition (u.metadata.start + signOffset)).flatMap
      fun r => m.read r.start r.length) ≠ parseMetadataHash metadata then .error .custom
  else .ok ()

/-- The loop that erases pages in `write_bundle` (`storage.rs:305-307`): whether it succeeds, the memory, and what will happen to
the operations that follow. -/
def erasePages (pageSize : Nat) : List Nat → Mem → List Fate → Bool × Mem × List Fate
  | [], m, fates => (true, m, fates)
  | address :: rest, m, fates =>
    if (fates.headD .ok).isOk then erasePages pageSize rest (m.erase address pageSize .ok) fates.tail
    else (false, m.erase address pageSize (fates.headD .ok), fates.tail)

/-- `write_bundle` after its checks (`storage.rs:305-318`): erasing, writing, and reading back. -/
def Upgrade.program (c : Crypto) (u : Upgrade) (m : Mem) (fates : List Fate) (offset address : Nat) (data : List UInt8) :
    Except Fault Unit × Mem :=
  match erasePages u.pageSize (ModRange.alignedIter ⟨address, data.length⟩ u.pageSize) m fates with
  | (false, m, _) => (.error .custom, m)
  | (true, m, fates) =>
    if !(fates.headD .ok).isOk then (.error .custom, m.write address data (fates.headD .ok))
    else if (m.write address data .ok).read address data.length ≠ data then (.error .custom, m.write address data .ok)
    else if data.length = Partition.length u.partition - offset then
      (u.checkPartitionHash c (m.write address data .ok)
        ((m.write address data .ok).read u.metadata.start u.metadata.length), m.write address data .ok)
    else (.ok (), m.write address data .ok)

/-- `TockUpgradeStorage::write_bundle` (`storage.rs:289-319`): the result and the memory. -/
def Upgrade.writeBundle (c : Crypto) (key : List UInt8) (u : Upgrade) (m : Mem) (fates : List Fate) (offset : Nat)
    (data : List UInt8) : Except Fault Unit × Mem :=
  if data.isEmpty then (.error .outOfBounds, m)
  else
    match Partition.findAddress u.partition offset data.length with
    | none => (.error .outOfBounds, m)
    | some address =>
      match u.containsMetadata ⟨address, data.length⟩ with
      | .error e => (.error e, m)
      | .ok false => u.program c m fates offset address data
      | .ok true =>
        match checkMetadata c u m key ((data.drop (u.metadata.start - address)).take u.metadata.length) with
        | .error e => (.error e, m)
        | .ok () => u.program c m fates offset address data

/-- The status of the vendor upgrade command (`src/env/tock/commands.rs:151-167`). -/
inductive UpgradeStatus
  | success
  | integrityFailure
  | invalidCommand
  | invalidParameter
  | panic
deriving DecidableEq, Repr

/-- `process_vendor_upgrade` (`commands.rs:151-167`): the status and the memory. -/
def processVendorUpgrade (c : Crypto) (key : List UInt8) (storage : Option Upgrade) (m : Mem) (fates : List Fate)
    (offset : Nat) (data hash : List UInt8) : UpgradeStatus × Mem :=
  if hash ≠ c.hash data then (.integrityFailure, m)
  else
    match storage with
    | none => (.invalidCommand, m)
    | some u =>
      match u.writeBundle c key m fates offset data with
      | (.ok (), m) => (.success, m)
      | (.error .panic, m) => (.panic, m)
      | (.error _, m) => (.invalidParameter, m)

/-! ### The bootloader -/

/-- `BootPartition` (`bootloader/src/main.rs:70-73`). -/
structure BootPartition where
  firmwareAddress : Nat
  metadataAddress : Nat
deriving DecidableEq, Repr

/-- `FIRMWARE_LENGTH` (`bootloader/src/main.rs:76`). -/
def firmwareLength : Nat := 0x40000

/-- `compute_upgrade_hash` (`bootloader/src/main.rs:105-118`): the pages of the firmware one by one, after the signed part of
the metadata. -/
def BootPartition.computeUpgradeHash (c : Crypto) (p : BootPartition) (m : Mem) (metadataPage : List UInt8) : List UInt8 :=
  c.hash (metadataPage.drop signOffset ++
    (List.range (firmwareLength / metadataLen)).flatMap fun i => m.read (p.firmwareAddress + i * metadataLen) metadataLen)

/-- `read_version` (`bootloader/src/main.rs:79-98`). -/
def BootPartition.readVersion (c : Crypto) (p : BootPartition) (m : Mem) : Option Nat :=
  if p.firmwareAddress ≠ parseMetadataAddress (m.read p.metadataAddress metadataLen) then none
  else if p.computeUpgradeHash c m (m.read p.metadataAddress metadataLen)
      ≠ parseMetadataHash (m.read p.metadataAddress metadataLen) then none
  else some (parseMetadataVersion (m.read p.metadataAddress metadataLen))

/-- The two partitions of the device. -/
inductive Side
  | a
  | b
deriving DecidableEq, Repr

/-- The partitions of the bootloader (`bootloader/src/main.rs:151-158`). -/
def bootPartition : Side → BootPartition
  | .a => ⟨0x20000, 0x4000⟩
  | .b => ⟨0x60000, 0x5000⟩

/-- `main` of the bootloader (`bootloader/src/main.rs:146-178`): the partition that is started, or a panic. -/
def boot (c : Crypto) (m : Mem) : Option Side :=
  match (bootPartition .a).readVersion c m, (bootPartition .b).readVersion c m with
  | some t1, some t2 => if t1 ≥ t2 then some .a else some .b
  | some _, none => some .a
  | none, some _ => some .b
  | none, none => none

/-- The storage locations that the kernel of a partition reports (`boards/nordic/nrf52840dk_opensk_a/build.rs:14-42`,
`nrf52840dk_opensk_b/build.rs:14-42`). -/
def locations : Side → List Location
  | .a => [⟨false, 0xC0000, 0x10000⟩, ⟨false, 0xD0000, 0x4000⟩, ⟨true, 0x4000, 0x2000⟩, ⟨true, 0x60000, 0x20000⟩,
      ⟨true, 0x80000, 0x20000⟩]
  | .b => [⟨false, 0xC0000, 0x10000⟩, ⟨false, 0xD0000, 0x4000⟩, ⟨true, 0x4000, 0x2000⟩, ⟨true, 0x20000, 0x20000⟩,
      ⟨true, 0x40000, 0x20000⟩]

end Verif.Tock
