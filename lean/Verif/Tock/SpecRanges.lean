import Verif.Tock.Ranges

/-!
# What address ranges and partitions mean

A range is the set of addresses from its start on; a partition is the list of its addresses, in the order in which they are
counted by offsets.
-/
namespace Verif.Tock

/-- The addresses of a range. -/
instance : Membership Nat ModRange := ⟨fun r a => r.start ≤ a ∧ a < r.start + r.length⟩

/-- The addresses of a range in ascending order. -/
def ModRange.addresses (r : ModRange) : List Nat := List.range' r.start r.length

/-- The range ends in the address space. -/
def ModRange.Inside (r : ModRange) : Prop := r.start + r.length < usizeSize

/-- The addresses of a partition, in the order of their offsets. -/
def addressesOf (p : List ModRange) : List Nat := p.flatMap ModRange.addresses

/-- Appends ranges one by one to the empty partition; nothing if one of them is refused. -/
def build (rs : List ModRange) : Option Partition :=
  rs.foldl (fun p r => p.bind fun p => if (Partition.append p r).1 then some (Partition.append p r).2 else none) (some [])

end Verif.Tock
