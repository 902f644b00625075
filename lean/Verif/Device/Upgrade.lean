import Verif.Tock.SpecUpgrade
import Verif.P256.PropsKeys
import Verif.P256.PropsRfc

/-!
# Upgrades with the cryptography of the firmware

The model of upgrades (`Verif/Tock/Upgrade.lean`) is about any cryptography. Here it is the one of `libraries/crypto`, and the
specification of what a signed release is refers to the standards only.
-/
namespace Verif.Device
open Verif.P256.Spec (coords number Valid)
open Verif.P256 (E)
open Verif.Crypto.Sha (SHA256)

/-- SHA-256 and ECDSA of the firmware (`libraries/opensk/src/api/crypto/software_crypto.rs:144-146`, `153-156`, `168-170`,
`181-209`), as upgrades use them (`src/env/tock/upgrade_helper.rs:90-107`, `src/env/tock/storage.rs:275-282`). The arguments are
arrays of 64 and of 32 bytes in the code. `w` is the width of `usize`. -/
def firmwareCrypto (w : Nat) : Tock.Crypto where
  Signature := P256.Ecdsa.Signature
  PublicKey := P256.Ecdsa.PubKey
  hash := Crypto.Sha.hash w
  signatureFromSlice := fun b => if b.length = 64 then P256.Ecdsa.Signature.from_bytes b else none
  publicKeyFromCoordinates := fun x y => if x.length = 32 ∧ y.length = 32 then P256.Ecdsa.PubKey.from_coordinates x y else none
  verifyPrehash := fun pk hash sig => decide (hash.length = 32) && pk.verify_hash_vartime hash sig

/-- The holder of the private key for the point with these coordinates signed these contents: an ECDSA signature over P-256 with
SHA-256 (FIPS 186-4, FIPS 180-4), both numbers in 32 bytes each. -/
def SignedBy (x y contents signature : List UInt8) : Prop :=
  signature.length = 64 ∧ ∃ Q : E.Point, coords Q = some (number x, number y) ∧
    Valid Q (number (SHA256 contents)) (number (signature.take 32)) (number (signature.drop 32))

end Verif.Device
