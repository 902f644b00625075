import Verif.Crypto.CbcModel
/-!
# Specification for C36

NIST SP 800-38A, section 6.2, block by block.
-/
namespace Verif.Crypto

/-- A plaintext or ciphertext given as a list of 16-byte blocks. -/
def Blocks (bs : List Bytes) : Prop := ∀ b ∈ bs, b.length = 16

/-- `C_1 = E(P_1 ⊕ IV)`, `C_j = E(P_j ⊕ C_{j-1})`. -/
def SpecCbc (enc : Bytes → Bytes) : Bytes → List Bytes → List Bytes
  | _, [] => []
  | prev, p :: ps =>
    let c := enc (List.zipWith (· ^^^ ·) p prev)
    c :: SpecCbc enc c ps

end Verif.Crypto
