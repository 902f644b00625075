import Verif.Ctap.Base

/-!
# Specification of the PIN/UV auth protocols (CTAP 2.1, section 6.5.6 and 6.5.7)

`z` is the x coordinate of the ECDH shared point.  Protocol one derives one key with SHA-256, uses a zero IV and tags
cut to 16 bytes; protocol two derives two keys with HKDF, sends the IV in front of the ciphertext and uses tags of 32
bytes.
-/
namespace Verif.Ctap.PinSpec
variable [Dev]

def aesKey : Proto → (z : Bytes) → Bytes
  | .v1, z => Dev.sha256 z
  | .v2, z => Dev.hkdfEmptySalt z (b! "CTAP2 AES key")

def macKey : Proto → (z : Bytes) → Bytes
  | .v1, z => Dev.sha256 z
  | .v2, z => Dev.hkdfEmptySalt z (b! "CTAP2 HMAC key")

/-- The authentication tag of a message. -/
def tag : Proto → (key msg : Bytes) → Bytes
  | .v1, key, msg => (Dev.hmac key msg).take 16
  | .v2, key, msg => Dev.hmac key msg

/-- The plaintext of a ciphertext, if it is well-formed. -/
def decrypt (pr : Proto) (z ct : Bytes) : Option Bytes :=
  match Verif.Crypto.aesCbcDecrypt (Dev.aesDec (aesKey pr z)) ct (match pr with | .v1 => false | .v2 => true) with
  | .ok b => some b
  | _ => none

/-- The bytes that the random number generator delivers at interaction `k`. -/
def random (e : Env) (k n : Nat) : Bytes := (List.range n).map (e.o.rnd k)

end Verif.Ctap.PinSpec
