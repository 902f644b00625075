import Verif.Device.Model
import Verif.Ctap.PropsKept

/-!
# What a relying party checks

Independent of the model: where the public key is in an answer, and when a signature is accepted.
-/
namespace Verif.Device
open Verif.Ctap (Bytes credentialIdIn)
open Verif.P256 (G E)
open Verif.P256.Spec (coords number Valid DerSignature)
open Verif.Crypto.Sha (SHA256)

/-- The public key with the coordinates `x` and `y` accepts `sig` as a signature of `msg`: ECDSA over P-256 with SHA-256
(FIPS 186-4, FIPS 180-4), in ASN.1 DER (RFC 3279). This is the algorithm -7 of COSE in WebAuthn. -/
def Verifies (x y msg sig : Bytes) : Prop :=
  ∃ (Q : E.Point) (r s : Nat), coords Q = some (number x, number y) ∧ DerSignature r s sig ∧
    Valid Q (number (SHA256 msg)) r s

/-- Two coordinates, as a COSE key for ES256 (RFC 8152, 13.1.1) in CTAP2 canonical CBOR:
`{1: 2, 3: -7, -1: 1, -2: x, -3: y}`. -/
def coseKey (x y : Bytes) : Bytes :=
  [0xa5, 0x01, 0x02, 0x03, 0x26, 0x20, 0x01, 0x21, 0x58, 0x20] ++ x ++ [0x22, 0x58, 0x20] ++ y

/-- The public key in the authenticator data of a registration (WebAuthn, section 6.5.1): it follows the hash of the
relying party (32 bytes), the flags (1), the counter (4), the AAGUID (16), the length of the id (2) and the id. -/
def KeyIn (authData x y : Bytes) : Prop :=
  x.length = 32 ∧ y.length = 32 ∧ coseKey x y <+: authData.drop (55 + (credentialIdIn authData).length)

/-- These bytes are a private key, and this is its public key. -/
def KeyPair (sk x y : Bytes) : Prop :=
  sk.length = 32 ∧ (0 < number sk ∧ number sk < Verif.P256.N) ∧ x.length = 32 ∧ y.length = 32 ∧
    coords (number sk • G) = some (number x, number y)

/-- The authenticator data determine the key. -/
theorem KeyIn.unique {ad x y x' y' : Bytes} (h : KeyIn ad x y) (h' : KeyIn ad x' y') : x = x' ∧ y = y' := by
  obtain ⟨lx, ly, t, ht⟩ := h
  obtain ⟨lx', ly', t', ht'⟩ := h'
  rw [← ht'] at ht
  simp only [coseKey, List.append_assoc] at ht
  have h1 := (List.append_inj ht rfl).2
  obtain ⟨e1, h2⟩ := List.append_inj h1 (by rw [lx, lx'])
  have h3 := (List.append_inj h2 rfl).2
  exact ⟨e1, (List.append_inj h3 (by rw [ly, ly'])).1⟩

end Verif.Device
