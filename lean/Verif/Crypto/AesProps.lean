import Verif.Crypto.AesLemmas2
import Verif.Crypto.CbcProps
/-!
# C39: AES-256 is FIPS 197 and decryption inverts encryption
-/
namespace Verif.Crypto.Aes
open Verif.Crypto

/-- C39. For every 256-bit key and every block, the software decryption (with the decryption key derived from the
encryption key) of the software encryption is the block. -/
theorem aes_decrypt_encrypt (key block : Bytes) (hk : key.length = 32) (hb : block.length = 16) :
    decryptBlock (decKey (encKey key)) (encryptBlock (encKey key) block) = block :=
  decrypt_encrypt_rks (fun i hi => by rw [encKey_getD key hk i hi]; exact blockBytes_len key i) hb

/-- C39. The table `SBOX` is the S-box of FIPS 197 at every byte: the affine transformation of the multiplicative
inverse in GF(2^8). -/
theorem sbox_is_fips (x : UInt8) : Spec.IsSbox x (sbox x) := sbox_isSbox x

/-- C39. For every 256-bit key and block the encryption is the FIPS 197 cipher (state matrix, field arithmetic,
word-oriented key expansion), with the S-box of the previous theorem. -/
theorem aes_is_fips197 (key block : Bytes) (hk : key.length = 32) (hb : block.length = 16) :
    encryptBlock (encKey key) block = Spec.cipher sbox key block := cipher_spec key hk block hb

/-- C39. Encryption returns a 16-byte block and different blocks have different encryptions. -/
theorem aes_encrypt_injective (key b1 b2 : Bytes) (hk : key.length = 32) (h1 : b1.length = 16) (h2 : b2.length = 16)
    (h : encryptBlock (encKey key) b1 = encryptBlock (encKey key) b2) : b1 = b2 := by
  rw [← aes_decrypt_encrypt key b1 hk h1, h, aes_decrypt_encrypt key b2 hk h2]

theorem aes_encrypt_length (key b : Bytes) (hk : key.length = 32) (hb : b.length = 16) :
    (encryptBlock (encKey key) b).length = 16 := by
  rw [aes_is_fips197 key b hk hb]; simp [Spec.cipher, Spec.toBytes]

/-- C36 for the AES code: the message-level encryption and decryption wrappers, instantiated with the modelled
AES-256, round-trip for every key, IV and plaintext of a multiple of the block size. -/
theorem aes256_cbc_roundtrip (key rngIv plaintext : Bytes) (hk : key.length = 32) (hiv : rngIv.length = 16)
    (hp : plaintext.length % 16 = 0) (embedsIv : Bool) :
    ∃ c, aesCbcEncrypt (encryptBlock (encKey key)) rngIv plaintext embedsIv = .ok c ∧
      aesCbcDecrypt (decryptBlock (decKey (encKey key))) c embedsIv = .ok plaintext := by
  obtain ⟨c, h1, h2, _⟩ := (aesCbc_wrapper_roundtrip (encryptBlock (encKey key)) (decryptBlock (decKey (encKey key)))
    (fun b hb => aes_encrypt_length key b hk hb) (fun b hb => aes_decrypt_encrypt key b hk hb)
    rngIv plaintext hiv embedsIv).2 hp
  exact ⟨c, h1, h2⟩

/-- Non-vacuity: the NIST AES-256 ECB vector. -/
example : encryptBlock (encKey [0x60, 0x3d, 0xeb, 0x10, 0x15, 0xca, 0x71, 0xbe, 0x2b, 0x73, 0xae, 0xf0, 0x85, 0x7d,
      0x77, 0x81, 0x1f, 0x35, 0x2c, 0x07, 0x3b, 0x61, 0x08, 0xd7, 0x2d, 0x98, 0x10, 0xa3, 0x09, 0x14, 0xdf, 0xf4])
    [0x6b, 0xc1, 0xbe, 0xe2, 0x2e, 0x40, 0x9f, 0x96, 0xe9, 0x3d, 0x7e, 0x11, 0x73, 0x93, 0x17, 0x2a] =
    [0xf3, 0xee, 0xd1, 0xbd, 0xb5, 0xd2, 0xa0, 0x3c, 0x06, 0x4b, 0x5a, 0x7e, 0x3d, 0xb1, 0x81, 0xf8] := by
  decide +kernel

/-- Non-vacuity: field arithmetic of the specification, FIPS 197 example {57}·{13} = {fe}. -/
example : Spec.gmul 0x57 0x13 = 0xfe := by decide +kernel

end Verif.Crypto.Aes
