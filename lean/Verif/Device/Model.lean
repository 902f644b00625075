import Verif.Ctap.Step
import Verif.Crypto.AesProps
import Verif.P256.PropsRfc

/-!
# The authenticator with the cryptography of the firmware

The model of the commands (`Verif/Ctap`) is about any cryptography (`Dev`). Here it is the one that
`libraries/opensk/src/api/crypto/software_crypto.rs` takes from `libraries/crypto`: the models of AES-256, SHA-256, HMAC,
HKDF (`Verif/Crypto`) and P-256 (`Verif/P256`). The laws of `Dev` are proved for it.
-/
namespace Verif.Device
open Verif.Ctap (Bytes Dev Policy EpMode)

/-- What the firmware is configured with: the customization (`api/customization.rs:26-255`, with the checks of
`is_valid`, lines 380-450; the numbers fit in the types `usize` and `u64`), the width of `usize`, and the number of turns after which the loop of the deterministic signature
(`crypto/src/ecdsa.rs:98-110`) is taken to run forever (the theorems hold for every number). -/
class Board where
  wordBits : Nat
  wordBits_eq : wordBits = 32 ∨ wordBits = 64
  turns : Nat
  aaguid : Bytes
  aaguid_len : aaguid.length = 16
  allowsPinV1 : Bool
  defaultCredProtect : Option Policy
  defaultMinPinLength : Nat
  defaultMinPinLength_ge : 4 ≤ defaultMinPinLength
  defaultMinPinLength_le : defaultMinPinLength ≤ 63
  defaultMinPinRpIds : List Bytes
  enforceAlwaysUv : Bool
  epMode : Option EpMode
  epRpIds : List Bytes
  maxMsgSize : Nat
  maxMsgSize_ge : 1024 ≤ maxMsgSize
  maxMsgSize_le : maxMsgSize ≤ 7609
  maxPinRetries : Nat
  maxPinRetries_le : maxPinRetries ≤ 8
  useBatchAttestation : Bool
  useSignatureCounter : Bool
  maxCredBlobLength : Nat
  maxCredBlobLength_ge : 32 ≤ maxCredBlobLength
  maxCredBlobLength_le : maxCredBlobLength ≤ 64
  maxCredCountInList : Option Nat
  maxCredCountInList_lt : ∀ n, maxCredCountInList = some n → n < 2 ^ 64
  maxLargeBlob : Nat
  maxLargeBlob_ge : 1024 ≤ maxLargeBlob
  maxLargeBlob_lt : maxLargeBlob < 2 ^ 64
  maxRpIds : Nat
  maxRpIds_lt : maxRpIds < 2 ^ 64
  maxResidentKeys : Nat
  maxResidentKeys_le : maxResidentKeys ≤ 300
  firmwareVersion : Option Nat
  firmwareVersion_lt : ∀ n, firmwareVersion = some n → n < 2 ^ 64

/-- AES keys are arrays of 32 bytes (`software_crypto.rs:235-238`); the model of the commands also has other lists of bytes,
which do not occur. -/
def aesKey (k : Bytes) : Bytes := if k.length = 32 then k else List.replicate 32 0

theorem aesKey_len (k : Bytes) : (aesKey k).length = 32 := by
  unfold aesKey; split
  · assumption
  · rfl

/-- `SoftwareAes256::encrypt_block` (`software_crypto.rs:240-242`). -/
def aesEnc (k b : Bytes) : Bytes := Crypto.Aes.encryptBlock (Crypto.Aes.encKey (aesKey k)) b

/-- `SoftwareAes256::decrypt_block` (`software_crypto.rs:244-247`). -/
def aesDec (k b : Bytes) : Bytes := Crypto.Aes.decryptBlock (Crypto.Aes.decKey (Crypto.Aes.encKey (aesKey k))) b

/-- Coordinates and secret keys are arrays of 32 bytes (`software_crypto.rs:79`, `118`); the model of the commands also has
other lists of bytes, for which the operations do nothing. -/
def array32 (f : Bytes → Option α) (b : Bytes) : Option α := if b.length = 32 then f b else none

/-- `SoftwareEcdhPublicKey::from_coordinates` (`software_crypto.rs:79-81`), `SoftwareEcdhSecretKey::diffie_hellman` (lines
68-71) and `raw_secret_bytes` (lines 94-96). The secret key is kept as its bytes. -/
def ecdh (sk x y : Bytes) : Option Bytes :=
  if x.length = 32 ∧ y.length = 32 then
    (array32 P256.Ecdh.SecKey.from_bytes sk).bind fun k => (P256.Ecdh.PubKey.from_coordinates x y).map fun pk => k.exchange_x pk
  else none

/-- `SoftwareEcdhSecretKey::public_key` (`software_crypto.rs:63-66`) and `to_coordinates` (lines 83-85). Bytes that are not
those of a secret key do not occur: `gensk` does not make them. -/
def ecdhPub (sk : Bytes) : Bytes × Bytes :=
  ((array32 P256.Ecdh.SecKey.from_bytes sk).map fun k => k.genpk.to_coordinates).getD ([], [])

/-- `SoftwareEcdsaSecretKey::from_slice` (`software_crypto.rs:118-120`), `public_key` (lines 122-125) and `to_coordinates`
(lines 158-160). -/
def ecdsaPub (sk : Bytes) : Option (Bytes × Bytes) :=
  (array32 P256.Ecdsa.SecKey.from_bytes sk).map fun k => k.genpk.to_coordinates

/-- `SoftwareEcdsaSecretKey::sign` (`software_crypto.rs:127-130`) and `to_der` (lines 176-178). -/
def ecdsaSign (w turns : Nat) (sk msg : Bytes) : Option Bytes :=
  (array32 P256.Ecdsa.SecKey.from_bytes sk).bind fun k =>
    (k.sign_rfc6979 (P256.sha256 w) turns msg).map P256.Ecdsa.Signature.to_asn1_der

theorem hmac_len (w : Nat) (k m : Bytes) : (Crypto.Sha.hmac w k m).length = 32 := P256.sha256_hmac_len w k m

theorem hkdf_len (w : Nat) (k s i : Bytes) : (Crypto.Sha.hkdf w k s i).length = 32 := by
  simp only [Crypto.Sha.hkdf, hmac_len]

theorem aesEnc_len (k b : Bytes) (h : b.length = 16) : (aesEnc k b).length = 16 :=
  Crypto.Aes.aes_encrypt_length _ _ (aesKey_len k) h

theorem decryptBlock_len {rks : List Bytes} (hr : ∀ i < 15, (rks.getD i []).length = 16) {b : Bytes}
    (hb : b.length = 16) : (Crypto.Aes.decryptBlock (Crypto.Aes.decKey rks) b).length = 16 := by
  have hi : ∀ c : Bytes, (Crypto.Aes.invShiftRows c).length = c.length := fun c => by
    simp [Crypto.Aes.invShiftRows, Crypto.Aes.swap]
  have hs : ∀ c : Bytes, (Crypto.Aes.invSubBytes c).length = c.length := fun c => by
    simp [Crypto.Aes.invSubBytes]
  have hl : ∀ n, n ≤ 13 → ∀ c : Bytes, c.length = 16 →
      (Crypto.Aes.decLoop (Crypto.Aes.decKey rks) c n).length = 16 := by
    intro n
    induction n with
    | zero => intro _ c hc; exact hc
    | succ n ih =>
      intro hn c hc
      rw [Crypto.Aes.decLoop_succ]
      refine Crypto.Aes.len_xor (by rw [Crypto.Aes.len_invMix, hs, hi]; exact ih (by omega) c hc) ?_
      rw [Crypto.Aes.decKey_getD rks (n + 1) (by omega) hn, Crypto.Aes.len_invMix]
      exact hr _ (by omega)
  exact Crypto.Aes.len_xor (by rw [hs, hi]; exact hl 13 (Nat.le_refl _) _ (Crypto.Aes.len_xor hb (hr 14 (by omega))))
    (hr 0 (by omega))

theorem aesDec_len (k b : Bytes) (h : b.length = 16) : (aesDec k b).length = 16 := by
  have hr : ∀ i < 15, ((Crypto.Aes.encKey (aesKey k)).getD i []).length = 16 := fun i hi => by
    rw [Crypto.Aes.encKey_getD _ (aesKey_len k) i hi]; exact Crypto.Aes.blockBytes_len _ i
  exact decryptBlock_len hr h

theorem aes_inv (k b : Bytes) (h : b.length = 16) : aesDec k (aesEnc k b) = b :=
  Crypto.Aes.aes_decrypt_encrypt _ _ (aesKey_len k) h

/-- The cryptography of the firmware (`software_crypto.rs:35-42`): SHA-256 (lines 185-200), HMAC (lines 204-220) and HKDF
(lines 224-228, `api/crypto/hkdf256.rs`) are those of `libraries/crypto`. -/
instance (priority := 2000) software [B : Board] : Dev where
  wordBits := B.wordBits
  wordBits_eq := B.wordBits_eq
  sha256 := Crypto.Sha.hash B.wordBits
  sha256_len := P256.sha256_ok B.wordBits
  hmac := Crypto.Sha.hmac B.wordBits
  hmac_len := hmac_len B.wordBits
  hkdf := Crypto.Sha.hkdf B.wordBits
  hkdf_len := hkdf_len B.wordBits
  hkdfEmptySalt := Crypto.Sha.hkdfEmptySalt B.wordBits
  hkdfEmptySalt_len _ _ := hkdf_len B.wordBits _ _ _
  aesEnc := aesEnc
  aesDec := aesDec
  aesEnc_len := aesEnc_len
  aesDec_len := aesDec_len
  aes_inv := aes_inv
  ecdh := ecdh
  ecdhPub := ecdhPub
  ecdsaPub := ecdsaPub
  ecdsaSign := ecdsaSign B.wordBits B.turns
  aaguid := B.aaguid
  aaguid_len := B.aaguid_len
  allowsPinV1 := B.allowsPinV1
  defaultCredProtect := B.defaultCredProtect
  defaultMinPinLength := B.defaultMinPinLength
  defaultMinPinLength_ge := B.defaultMinPinLength_ge
  defaultMinPinLength_le := B.defaultMinPinLength_le
  defaultMinPinRpIds := B.defaultMinPinRpIds
  enforceAlwaysUv := B.enforceAlwaysUv
  epMode := B.epMode
  epRpIds := B.epRpIds
  maxMsgSize := B.maxMsgSize
  maxMsgSize_ge := B.maxMsgSize_ge
  maxMsgSize_le := B.maxMsgSize_le
  maxPinRetries := B.maxPinRetries
  maxPinRetries_le := B.maxPinRetries_le
  useBatchAttestation := B.useBatchAttestation
  useSignatureCounter := B.useSignatureCounter
  maxCredBlobLength := B.maxCredBlobLength
  maxCredBlobLength_ge := B.maxCredBlobLength_ge
  maxCredBlobLength_le := B.maxCredBlobLength_le
  maxCredCountInList := B.maxCredCountInList
  maxLargeBlob := B.maxLargeBlob
  maxLargeBlob_ge := B.maxLargeBlob_ge
  maxRpIds := B.maxRpIds
  maxResidentKeys := B.maxResidentKeys
  maxResidentKeys_le := B.maxResidentKeys_le
  firmwareVersion := B.firmwareVersion

end Verif.Device
