import Verif.Tock.Upgrade
import Verif.Tock.SpecRanges

/-!
# What upgrades and booting should guarantee
-/
namespace Verif.Tock

/-- The signature is valid for the hash under the public key, in the uncompressed encoding of a point. -/
def ValidSignature (c : Crypto) (key hash signature : List UInt8) : Prop :=
  ∃ x y pk s, key = 0x04 :: x ++ y ∧ x.length = 32 ∧ y.length = 32 ∧ c.publicKeyFromCoordinates x y = some pk ∧
    c.signatureFromSlice signature = some s ∧ c.verifyPrehash pk hash s = true

/-- The fields of a page with metadata: hash, signature, then at offset 0x800 the version and the partition address in little
endian encoding. The rest is arbitrary. -/
structure Metadata (page : List UInt8) (hash signature : List UInt8) (version address : Nat) : Prop where
  length : page.length = 0x1000
  fields : ∃ pad v a rest, page = hash ++ signature ++ pad ++ v ++ a ++ rest ∧ hash.length = 32 ∧ signature.length = 64 ∧
    pad.length = 0x800 - 96 ∧ v.length = 8 ∧ a.length = 4 ∧ readLe v = version ∧ readLe a = address

/-- A page that the upgrade may write: signed, for the partition, and not older than the running firmware. -/
def Acceptable (c : Crypto) (key : List UInt8) (partitionAddress running : Nat) (page : List UInt8) : Prop :=
  ∃ hash signature version, Metadata page hash signature version partitionAddress ∧
    ValidSignature c key hash signature ∧ running ≤ version

/-- A request to write a piece of the upgrade, with what happens to the operations of the flash. -/
structure Request where
  offset : Nat
  data : List UInt8
  fates : List Fate

/-- No operation of the flash fails. -/
def Request.Clean (r : Request) : Prop := ∀ f ∈ r.fates, f.isOk = true

/-- The memory after a request. -/
def after (c : Crypto) (key : List UInt8) (u : Upgrade) (m : Mem) (r : Request) : Mem :=
  (u.writeBundle c key m r.fates r.offset r.data).2

/-- The metadata page of the partition that is written. -/
def otherMetadata (u : Upgrade) (m : Mem) : List UInt8 := m.read u.metadata.start u.metadata.length

/-- The contents of a partition that are covered by its hash: the metadata from offset 0x800 on, and the firmware. -/
def contents (m : Mem) (p : BootPartition) : List UInt8 :=
  m.read (p.metadataAddress + 0x800) 0x800 ++ m.read p.firmwareAddress 0x40000

/-- The partition has valid metadata with this version. -/
def ValidImage (c : Crypto) (m : Mem) (p : BootPartition) (version : Nat) : Prop :=
  ∃ signature, Metadata (m.read p.metadataAddress 0x1000) (c.hash (contents m p)) signature version p.firmwareAddress

/-- The addresses of an image: metadata page and firmware. -/
def inImage (p : BootPartition) (x : Nat) : Prop :=
  (p.metadataAddress ≤ x ∧ x < p.metadataAddress + 0x1000) ∨ (p.firmwareAddress ≤ x ∧ x < p.firmwareAddress + 0x40000)

/-- The upgrade storage that runs on a partition. -/
def storageOf (s : Side) : Option Upgrade := (Upgrade.new 0x1000 (locations s)).toOption

/-- The life of a device: the memory and the running partition. The requests satisfy `P`. -/
inductive Life (c : Crypto) (key : List UInt8) (P : Request → Prop) : Mem × Side → Mem × Side → Prop
  | refl (d) : Life c key P d d
  /-- A request to write a piece of an upgrade, completed or cut off at any point. -/
  | request {d m s u} (r : Request) : Life c key P d (m, s) → P r → storageOf s = some u →
      Life c key P d (after c key u m r, s)
  /-- Other changes of the memory leave the images alone. -/
  | other {d m s} (m' : Mem) : Life c key P d (m, s) → (∀ t x, inImage (bootPartition t) x → m' x = m x) →
      Life c key P d (m', s)
  /-- The device is restarted. -/
  | restart {d m s t} : Life c key P d (m, s) → boot c m = some t → Life c key P d (m, t)

end Verif.Tock
