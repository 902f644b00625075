import Verif.Crypto.ShaLemmas
/-!
# C37 (SHA-256) and C38 (HMAC, HKDF)
-/
namespace Verif.Crypto.Sha
open Verif.Crypto

/-- The FIPS 180-4 digest with the constant tables of the code, which `sha_constants` below identifies. -/
abbrev SHA256 (m : Bytes) : Bytes := Spec.sha256 KSpec HSpec m

theorem fed_chunks {w : Nat} : ∀ (cs : List Bytes) {s : Hasher} {m : Bytes}, Fed s m →
    (m ++ cs.flatten).length < 2 ^ w → Fed (cs.foldl (update w) s) (m ++ cs.flatten)
  | [], s, m, h, _ => by simpa using h
  | c :: cs, s, m, h, hw => by
    have hw' : ((m ++ c) ++ cs.flatten).length < 2 ^ w := by simpa [Nat.add_assoc] using hw
    have h1 := fed_update h c (w := w) (by simp only [List.length_append] at hw' ⊢; omega)
    have h2 := fed_chunks cs h1 hw'
    simpa using h2

/-- C37. Feeding a message in any number of chunks of any lengths (also empty ones) gives the FIPS 180-4 digest of the
whole message. `w` is the width of `usize`; the message must be shorter than `2^w` bytes and than `2^61` bytes, the
limit of the standard. -/
theorem sha256_streaming (w : Nat) (chunks : List Bytes) (h1 : chunks.flatten.length < 2 ^ w)
    (h2 : chunks.flatten.length < 2 ^ 61) :
    finalize (chunks.foldl (update w) new) = SHA256 chunks.flatten := by
  have h := fed_chunks (w := w) chunks fed_new (by simpa using h1)
  simp only [List.nil_append] at h
  exact finalize_spec h h2

/-- C37. One-shot hashing. -/
theorem sha256_hash (w : Nat) (m : Bytes) (h1 : m.length < 2 ^ w) (h2 : m.length < 2 ^ 61) :
    hash w m = SHA256 m := by
  have h := sha256_streaming w [m] (by simpa using h1) (by simpa using h2)
  simpa [hash] using h

/-- C37. The constant tables are those of FIPS 180-4: fractional parts of the cube roots of the first sixty-four primes
and of the square roots of the first eight. -/
theorem sha_constants :
    Spec.primes.length = 64 ∧
    (∀ t < 64, Spec.IsFracCbrt (Spec.primes.getD t 0) (KSpec t).toNat) ∧
    (∀ i : Fin 8, Spec.IsFracSqrt (Spec.primes.getD i.val 0) (HSpec i).toNat) := by
  -- the witnesses are integer roots by bisection
  refine ⟨by decide +kernel, ?_, ?_⟩
  · have h : ∀ t : Fin 64, (fun n => n ^ 3 ≤ Spec.primes.getD t.val 0 * 2 ^ 96 ∧
        Spec.primes.getD t.val 0 * 2 ^ 96 < (n + 1) ^ 3 ∧ (KSpec t.val).toNat = n % 2 ^ 32)
        ((List.range 36).foldl (fun r i => let c := r + 2 ^ (35 - i);
          if c ^ 3 ≤ Spec.primes.getD t.val 0 * 2 ^ 96 then c else r) 0) := by decide +kernel
    exact fun t ht => ⟨_, h ⟨t, ht⟩⟩
  · have h : ∀ t : Fin 8, (fun n => n ^ 2 ≤ Spec.primes.getD t.val 0 * 2 ^ 64 ∧
        Spec.primes.getD t.val 0 * 2 ^ 64 < (n + 1) ^ 2 ∧ (HSpec t).toNat = n % 2 ^ 32)
        ((List.range 36).foldl (fun r i => let c := r + 2 ^ (35 - i);
          if c ^ 2 ≤ Spec.primes.getD t.val 0 * 2 ^ 64 then c else r) 0) := by decide +kernel
    exact fun t => ⟨_, h t⟩

/-- The padding of the specification is well formed: a multiple of 64 bytes, fewer than 64 zero bytes. -/
theorem pad_wf (m : Bytes) : (Spec.pad m).length % 64 = 0 ∧ (Spec.pad m).length ≤ m.length + 72 := by
  simp [Spec.pad, be_len]; omega

theorem xorPad_eq (p : UInt8) (key : Bytes) (hk : key.length ≤ 64) :
    xorPad (List.replicate 64 p) key = (key ++ List.replicate (64 - key.length) 0).map (· ^^^ p) := by
  unfold xorPad
  rw [List.map_append, List.take_replicate, List.drop_replicate, Nat.min_eq_left hk]
  congr 1
  · induction key with
    | nil => rfl
    | cons a l ih =>
      have := ih (by simp at hk; omega)
      simp [List.replicate_succ, UInt8.xor_comm, this]
  · simp

/-- C38. HMAC of RFC 2104 for every 32-byte key and every message. -/
theorem hmac_is_rfc2104 (w : Nat) (key m : Bytes) (hk : key.length = 32) (hw : 7 ≤ w)
    (h1 : m.length + 64 < 2 ^ w) (h2 : m.length + 64 < 2 ^ 61) :
    hmac w key m = Spec.hmac SHA256 key m := by
  have h128 : 2 ^ 7 ≤ 2 ^ w := Nat.pow_le_pow_right (by omega) hw
  have hk' : key.length ≤ 64 := by omega
  have hk'' : ¬ key.length > 64 := by omega
  unfold hmac Spec.hmac
  simp only [hk', hk'', if_true, if_false, xorPad_eq _ key hk']
  generalize hip : (key ++ List.replicate (64 - key.length) 0).map (· ^^^ 0x36) = ip
  generalize hop : (key ++ List.replicate (64 - key.length) 0).map (· ^^^ 0x5c) = op
  have lip : ip.length = 64 := by rw [← hip]; simp [hk]
  have lop : op.length = 64 := by rw [← hop]; simp [hk]
  have e1 := sha256_streaming w [ip, m] (by simp [lip]; omega) (by simp [lip]; omega)
  simp only [List.foldl_cons, List.foldl_nil, List.flatten_cons, List.flatten_nil, List.append_nil] at e1
  rw [e1]
  have ls := sha256_len (ip ++ m)
  have e2 := sha256_streaming w [op, SHA256 (ip ++ m)] (by simp [lop, ls]; omega) (by simp [lop, ls])
  simp only [List.foldl_cons, List.foldl_nil, List.flatten_cons, List.flatten_nil, List.append_nil] at e2
  rw [e2]

/-- C38. Verification accepts exactly the RFC 2104 value, or exactly its first 16 bytes. -/
theorem hmac_verify (w : Nat) (key m mac : Bytes) (hk : key.length = 32) (hw : 7 ≤ w)
    (h1 : m.length + 64 < 2 ^ w) (h2 : m.length + 64 < 2 ^ 61) :
    (verifyHmac w key m mac = true ↔ mac = Spec.hmac SHA256 key m) ∧
    (verifyHmac128 w key m mac = true ↔ mac = (Spec.hmac SHA256 key m).take 16) := by
  unfold verifyHmac verifyHmac128
  rw [hmac_is_rfc2104 w key m hk hw h1 h2]
  generalize Spec.hmac SHA256 key m = x
  constructor
  · rw [beq_iff_eq]; exact eq_comm
  · rw [beq_iff_eq]; exact eq_comm

theorem spec_hmac_len (key m : Bytes) : (Spec.hmac SHA256 key m).length = 32 := sha256_len _

/-- C38. HKDF of RFC 5869 with 32 output bytes, for every salt of 32 bytes. -/
theorem hkdf_is_rfc5869 (w : Nat) (ikm salt info : Bytes) (hs : salt.length = 32) (hw : 7 ≤ w)
    (h1 : ikm.length + 64 < 2 ^ w) (h2 : ikm.length + 64 < 2 ^ 61)
    (h3 : info.length + 65 < 2 ^ w) (h4 : info.length + 65 < 2 ^ 61) :
    hkdf w ikm salt info = Spec.hkdf SHA256 (some salt) ikm info 32 := by
  unfold hkdf Spec.hkdf
  simp only [Option.getD_some]
  rw [hmac_is_rfc2104 w salt ikm hs hw h1 h2, hmac_is_rfc2104 w _ _ (spec_hmac_len _ _) hw (by simp; omega) (by simp; omega)]
  have : ((List.range ((32 + 31) / 32)).flatMap fun i => Spec.hkdfT SHA256 (Spec.hmac SHA256 salt ikm) info (i + 1)) =
    Spec.hmac SHA256 (Spec.hmac SHA256 salt ikm) (info ++ [1]) := by
    simp [List.range, List.range.loop, Spec.hkdfT]
  rw [this, List.take_of_length_le (by rw [spec_hmac_len]; omega)]

/-- C38. The empty-salt variant is RFC 5869 with the salt not provided. -/
theorem hkdf_empty_salt_is_rfc5869 (w : Nat) (ikm info : Bytes) (hw : 7 ≤ w)
    (h1 : ikm.length + 64 < 2 ^ w) (h2 : ikm.length + 64 < 2 ^ 61)
    (h3 : info.length + 65 < 2 ^ w) (h4 : info.length + 65 < 2 ^ 61) :
    hkdfEmptySalt w ikm info = Spec.hkdf SHA256 none ikm info 32 := by
  unfold hkdfEmptySalt
  rw [hkdf_is_rfc5869 w ikm _ info (by simp) hw h1 h2 h3 h4]
  rfl

/-- Non-vacuity: "abc" in three chunks, digest from FIPS 180-4. -/
example : finalize ([[0x61], [], [0x62, 0x63]].foldl (update 32) new) =
    [0xba, 0x78, 0x16, 0xbf, 0x8f, 0x01, 0xcf, 0xea, 0x41, 0x41, 0x40, 0xde, 0x5d, 0xae, 0x22, 0x23, 0xb0, 0x03, 0x61,
     0xa3, 0x96, 0x17, 0x7a, 0x9c, 0xb4, 0x10, 0xff, 0x61, 0xf2, 0x00, 0x15, 0xad] := by
  decide +kernel

/-- Non-vacuity: the HMAC of the empty message under the zero key (vector in `hmac.rs`). -/
example : hmac 32 (List.replicate 32 0) [] =
    [0xb6, 0x13, 0x67, 0x9a, 0x08, 0x14, 0xd9, 0xec, 0x77, 0x2f, 0x95, 0xd7, 0x78, 0xc3, 0x5f, 0xc5, 0xff, 0x16, 0x97,
     0xc4, 0x93, 0x71, 0x56, 0x53, 0xc6, 0xc7, 0x12, 0x14, 0x42, 0x92, 0xc5, 0xad] := by
  decide +kernel

end Verif.Crypto.Sha
