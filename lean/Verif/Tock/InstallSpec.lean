import Verif.Tock.SpecUpgrade

/-!
# Installing an upgrade, as the vendor's tool does it (C90)
-/
namespace Verif.Tock

/-- An upgrade for a partition: a metadata page with the hash of what follows the first half of the page and of the
firmware, a valid signature of this hash, the version and the address of the partition. -/
structure Release (c : Crypto) (key : List UInt8) (target : Side) (page firmware : List UInt8) (version : Nat) : Prop where
  metadata : ∃ signature, Metadata page (c.hash (page.drop 0x800 ++ firmware)) signature version
      (bootPartition target).firmwareAddress ∧ ValidSignature c key (c.hash (page.drop 0x800 ++ firmware)) signature
  length : firmware.length = 0x40000

/-- Pieces one after the other, from an offset on. -/
def offsets : Nat → List (List UInt8) → List (Nat × List UInt8)
  | _, [] => []
  | o, p :: ps => (o, p) :: offsets (o + p.length) ps

/-- The commands of the tool: the metadata page first, then the firmware in pieces of any sizes. -/
def commands (page : List UInt8) (pieces : List (List UInt8)) : List (Nat × List UInt8) := (0, page) :: offsets 0x1000 pieces

/-- The device executes the commands, each with the hash of its data, and no operation of the flash fails: the answers
and the memory. -/
def execute (c : Crypto) (key : List UInt8) (u : Upgrade) : List (Nat × List UInt8) → Mem → List UpgradeStatus × Mem
  | [], m => ([], m)
  | (o, data) :: l, m =>
    let r := processVendorUpgrade c key (some u) m [] o data (c.hash data)
    let rest := execute c key u l r.2
    (r.1 :: rest.1, rest.2)

end Verif.Tock
