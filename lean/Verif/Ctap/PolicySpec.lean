import Verif.Ctap.Base
import Verif.Utf8

/-!
# Specification of PINs
-/
namespace Verif.Ctap
variable [Dev]

/-- A stored PIN (16 bytes of hash, number of code points) that belongs to a string of at least `min` characters whose
UTF-8 encoding has at most 63 bytes. -/
def GoodPin (min : Nat) (pin : Bytes × Nat) : Prop :=
  ∃ (b : Bytes) (chars : List Nat), (∀ c ∈ chars, Verif.Utf8.IsScalar c) ∧ b = chars.flatMap Verif.Utf8.encodeChar ∧
    min ≤ chars.length ∧ b.length ≤ 63 ∧ pin = ((Dev.sha256 b).take 16, chars.length)

end Verif.Ctap
