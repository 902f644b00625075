import Verif.P256.PropsEc

/-! C65 and C67: the encodings of secrets and signatures, and the generation of secrets. -/

set_option exponentiation.threshold 600

namespace Verif.P256

open Int256 Spec Ecdsa

/-! ### C65: encodings -/

theorem be_length : ∀ n v, (Crypto.Sha.Spec.be n v).length = n
  | 0, _ => rfl
  | n + 1, v => by simp [Crypto.Sha.Spec.be, be_length n]

theorem number_be : ∀ n v, number (Crypto.Sha.Spec.be n v) = v % 256 ^ n
  | 0, v => by simp [Crypto.Sha.Spec.be, number, Nat.mod_one]
  | n + 1, v => by
    rw [Crypto.Sha.Spec.be, number_append, number_be n]
    simp only [number, List.foldl_cons, List.foldl_nil, List.length_singleton, UInt8.toNat_ofNat']
    have h : v % 256 ^ (n + 1) = v % 256 + 256 * (v / 256 % 256 ^ n) := by
      rw [Nat.pow_succ, Nat.mul_comm (256 ^ n) 256, Nat.mod_mul]
    rw [h]
    omega

theorem secret_bytes {bytes : List UInt8} (hl : bytes.length = 32) (e : Exponent) :
    Exponent.nonZeroFromInt (from_bin bytes) = some e ↔ Secret e ∧ to_bin e = bytes := by
  obtain ⟨w, v⟩ := from_bin_spec hl
  constructor
  · intro h
    have hs := (Exponent.nonZeroFromInt_ok w h).secret
    rw [Exponent.nonZeroFromInt_spec w] at h
    split at h
    · cases h
      exact ⟨hs, to_bin_from_bin hl⟩
    · cases h
  · rintro ⟨hs, rfl⟩
    rw [from_bin_to_bin hs.1, Exponent.nonZeroFromInt_of hs.ok]

theorem secret_some {bytes : List UInt8} (hl : bytes.length = 32) :
    (Exponent.nonZeroFromInt (from_bin bytes)).isSome ↔ 0 < number bytes ∧ number bytes < N := by
  obtain ⟨w, v⟩ := from_bin_spec hl
  have v : val (from_bin bytes) = number bytes := v
  rw [Exponent.nonZeroFromInt_spec w, v]
  split <;> simp_all

/-- C65. Bytes are accepted as a secret exactly if their number is from 1 to `N - 1`, the secret has
    that number, and writing and reading are inverse. -/
theorem C65_secret {bytes : List UInt8} (hl : bytes.length = 32) :
    ((SecKey.from_bytes bytes).isSome ↔ 0 < number bytes ∧ number bytes < N) ∧
    ((Ecdh.SecKey.from_bytes bytes).isSome ↔ 0 < number bytes ∧ number bytes < N) ∧
    (∀ sk, SecKey.from_bytes bytes = some sk ↔ Secret sk.k ∧ sk.to_bytes = bytes) ∧
    (∀ sk, Ecdh.SecKey.from_bytes bytes = some sk ↔ Secret sk.a ∧ to_bin sk.a = bytes) ∧
    (∀ sk, SecKey.from_bytes bytes = some sk → val sk.k = number bytes) := by
  have h1 : ∀ sk, SecKey.from_bytes bytes = some sk ↔ Secret sk.k ∧ sk.to_bytes = bytes := by
    intro sk
    simp only [SecKey.from_bytes, Option.map_eq_some_iff, secret_bytes hl]
    constructor
    · rintro ⟨e, h, rfl⟩; exact h
    · intro h; exact ⟨sk.k, h, rfl⟩
  refine ⟨?_, ?_, h1, ?_, ?_⟩
  · rw [SecKey.from_bytes, Option.isSome_map, secret_some hl]
  · rw [Ecdh.SecKey.from_bytes, Option.isSome_map, secret_some hl]
  · intro sk
    simp only [Ecdh.SecKey.from_bytes, Option.map_eq_some_iff, secret_bytes hl]
    constructor
    · rintro ⟨e, h, rfl⟩; exact h
    · intro h; exact ⟨sk.a, h, rfl⟩
  · intro sk h
    rw [← ((h1 sk).1 h).2]
    exact number_to_bin.symm

/-- C65. The same for the two numbers of a raw signature. -/
theorem C65_signature {bytes : List UInt8} (hl : bytes.length = 64) :
    ((Signature.from_bytes bytes).isSome ↔
      (0 < number (bytes.take 32) ∧ number (bytes.take 32) < N) ∧
      (0 < number (bytes.drop 32) ∧ number (bytes.drop 32) < N)) ∧
    ∀ sig, Signature.from_bytes bytes = some sig ↔
      Secret sig.r ∧ Secret sig.s ∧ sig.to_bytes = bytes := by
  have l1 : (bytes.take 32).length = 32 := by simp [hl]
  have l2 : (bytes.drop 32).length = 32 := by simp [hl]
  have e : (bytes.drop 32).take 32 = bytes.drop 32 := List.take_of_length_le (by omega)
  have hb : ∀ r s, Signature.from_bytes bytes = some ⟨r, s⟩ ↔
      Exponent.nonZeroFromInt (from_bin (bytes.take 32)) = some r ∧
      Exponent.nonZeroFromInt (from_bin (bytes.drop 32)) = some s := by
    intro r s
    unfold Signature.from_bytes
    rw [e]
    cases Exponent.nonZeroFromInt (from_bin (bytes.take 32)) <;>
      cases Exponent.nonZeroFromInt (from_bin (bytes.drop 32)) <;> simp
  constructor
  · rw [← secret_some l1, ← secret_some l2]
    unfold Signature.from_bytes
    rw [e]
    cases Exponent.nonZeroFromInt (from_bin (bytes.take 32)) <;>
      cases Exponent.nonZeroFromInt (from_bin (bytes.drop 32)) <;> simp
  · rintro ⟨r, s⟩
    rw [hb, secret_bytes l1, secret_bytes l2]
    constructor
    · rintro ⟨⟨hr, er⟩, hs, es⟩
      refine ⟨hr, hs, ?_⟩
      show to_bin r ++ to_bin s = bytes
      rw [er, es, List.take_append_drop]
    · rintro ⟨hr, hs, h⟩
      have h : to_bin r ++ to_bin s = bytes := h
      have lr := to_bin_len hr.1
      refine ⟨⟨hr, ?_⟩, hs, ?_⟩
      · rw [← h, List.take_append_of_le_length (by simp only at *; omega),
          List.take_of_length_le (by simp only at *; omega)]
      · rw [← h, List.drop_append_of_le_length (by simp only at *; omega),
          List.drop_of_length_le (by simp only at *; omega), List.nil_append]

/-- C65. The ASN.1 encoding of a signature is its distinguished encoding, at most 72 bytes. -/
theorem C65_der {sig : Signature} (hr : Secret sig.r) (hs : Secret sig.s) :
    DerSignature (val sig.r) (val sig.s) sig.to_asn1_der ∧ sig.to_asn1_der.length ≤ 72 := by
  obtain ⟨a1, a2, a3⟩ := minimal_spec hr.1 (Nat.pos_iff_ne_zero.1 hr.2.1)
  obtain ⟨b1, b2, b3⟩ := minimal_spec hs.1 (Nat.pos_iff_ne_zero.1 hs.2.1)
  unfold Signature.to_asn1_der
  generalize to_minimal_encoding sig.r = cr at *
  generalize to_minimal_encoding sig.s = cs at *
  constructor
  · refine ⟨cr, cs, _, _, a1, a2, b1, b2, if_pos (by omega), if_pos (by omega), ?_⟩
    unfold tlv
    rw [if_pos (by simp only [List.length_append, List.length_cons]; omega)]
    have : (2 :: UInt8.ofNat cr.length :: cr ++ 2 :: UInt8.ofNat cs.length :: cs).length =
        cr.length + cs.length + 4 := by
      simp only [List.length_append, List.length_cons]; omega
    rw [this]
    simp
  · simp only [List.length_append, List.length_cons, List.length_nil]; omega

/-- C65. There is no other distinguished encoding of these numbers, and the encoding determines the
    signature. -/
theorem C65_der_unique {sig : Signature} (hr : Secret sig.r) (hs : Secret sig.s) :
    (∀ bytes, DerSignature (val sig.r) (val sig.s) bytes → bytes = sig.to_asn1_der) ∧
    ∀ sig' : Signature, Secret sig'.r → Secret sig'.s → sig'.to_asn1_der = sig.to_asn1_der →
      sig' = sig := by
  obtain ⟨h, _⟩ := C65_der hr hs
  refine ⟨fun b hb => der_unique hb h, ?_⟩
  intro sig' hr' hs' he
  obtain ⟨h', _⟩ := C65_der hr' hs'
  rw [he] at h'
  obtain ⟨e1, e2⟩ := der_injective h' h
  obtain ⟨r, s⟩ := sig
  obtain ⟨r', s'⟩ := sig'
  simp only [Signature.mk.injEq]
  exact ⟨val_inj (hr'.1.trans hr.1.symm) (by exact_mod_cast e1),
    val_inj (hs'.1.trans hs.1.symm) (by exact_mod_cast e2)⟩

/-- A signature with a number whose highest bit is set and a short one. -/
example : Signature.to_asn1_der ⟨[0, 0, 0, 0, 0, 0, 0, 0x80000000], Int256.ONE⟩ =
    [0x30, 0x26, 0x02, 0x21, 0x00, 0x80] ++ List.replicate 31 0 ++ [0x02, 0x01, 0x01] ∧
    Secret [0, 0, 0, 0, 0, 0, 0, 0x80000000] ∧ Secret Int256.ONE :=
  ⟨by decide +kernel, ⟨rfl, by decide +kernel, by decide +kernel⟩, one_secret⟩

/-- The largest secret is accepted, the group order and zero are not. -/
example : (SecKey.from_bytes (Crypto.Sha.Spec.be 32 (N - 1))).isSome ∧
    ¬ (SecKey.from_bytes (Crypto.Sha.Spec.be 32 N)).isSome ∧
    ¬ (SecKey.from_bytes (Crypto.Sha.Spec.be 32 0)).isSome := by
  refine ⟨(C65_secret (be_length 32 _)).1.2 ?_, fun h => ?_, fun h => ?_⟩
  · rw [number_be]; decide +kernel
  · have := (C65_secret (be_length 32 _)).1.1 h
    rw [number_be] at this
    revert this; decide +kernel
  · have := (C65_secret (be_length 32 _)).1.1 h
    rw [number_be] at this
    revert this; decide +kernel

/-! ### C67: generation of secrets -/

theorem gen_cons (w : List UInt32) (ws : List (List UInt32)) :
    Exponent.gen_uniform (w :: ws) = (Exponent.genTry w).or (Exponent.gen_uniform ws) := by
  show (match Exponent.genTry w with
    | some e => some e
    | none => Exponent.gen_uniform ws) = _
  cases Exponent.genTry w <;> rfl

theorem genTry_iff {w : List UInt32} (h : w.length = 8) (e : Exponent) :
    Exponent.genTry w = some e ↔ Secret e ∧ val e = val w + 1 := by
  constructor
  · intro he
    obtain ⟨h1, h2⟩ := Exponent.genTry_ok h he
    exact ⟨h1.secret, h2⟩
  · rintro ⟨hs, hv⟩
    have hle : val w ≤ N - 2 := by have := hs.2.2; omega
    have : Exponent.genTry w = some (add_digit w 1).1 := by
      rw [Exponent.genTry_spec h, if_pos hle]
    obtain ⟨h1, h2⟩ := Exponent.genTry_ok h this
    rw [this, val_inj (h1.wf.trans hs.1.symm) (by rw [h2, hv])]

/-- C67. Generating a secret takes the first draw of 256 bits below `N - 1`, adds one, and skips the
    draws before it: what it returns is a secret. -/
theorem C67_generate {draws : List (List UInt32)} (hw : ∀ w ∈ draws, w.length = 8) (e : Exponent) :
    SecKey.gensk draws = some ⟨e⟩ ↔ Secret e ∧ ∃ before w after, draws = before ++ w :: after ∧
      (∀ u ∈ before, N - 1 ≤ val u) ∧ val w + 1 = val e := by
  have h1 : SecKey.gensk draws = some ⟨e⟩ ↔ Exponent.gen_uniform draws = some e := by
    unfold SecKey.gensk
    cases Exponent.gen_uniform draws <;> simp
  rw [h1]
  clear h1
  induction draws with
  | nil =>
    constructor
    · intro h; cases h
    · rintro ⟨_, b, w, a, h, _⟩
      simp at h
  | cons w ws ih =>
    have hlw := hw w List.mem_cons_self
    have ih := ih fun u hu => hw u (List.mem_cons_of_mem _ hu)
    rw [gen_cons, Option.or_eq_some_iff, genTry_iff hlw]
    have hnone : Exponent.genTry w = none ↔ N - 1 ≤ val w := by
      have h2 : 2 ≤ N := by decide +kernel
      rw [Exponent.genTry_spec hlw]
      split
      · simp; omega
      · simp; omega
    rw [hnone]
    constructor
    · rintro (⟨hs, hv⟩ | ⟨hn, h⟩)
      · exact ⟨hs, [], w, ws, rfl, by simp, hv.symm⟩
      · obtain ⟨hs, b, u, a, rfl, hb, hu⟩ := ih.1 h
        refine ⟨hs, w :: b, u, a, rfl, ?_, hu⟩
        intro x hx
        rcases List.mem_cons.1 hx with rfl | hx
        · exact hn
        · exact hb x hx
    · rintro ⟨hs, b, u, a, h, hb, hu⟩
      cases b with
      | nil =>
        simp only [List.nil_append, List.cons.injEq] at h
        obtain ⟨rfl, rfl⟩ := h
        exact Or.inl ⟨hs, hu.symm⟩
      | cons x b =>
        simp only [List.cons_append, List.cons.injEq] at h
        obtain ⟨rfl, rfl⟩ := h
        exact Or.inr ⟨hb _ List.mem_cons_self, ih.2 ⟨hs, b, u, a, rfl,
          fun y hy => hb y (List.mem_cons_of_mem _ hy), hu⟩⟩

/-- C67. All secrets are equally likely: for each one there is exactly one draw that gives it. -/
theorem C67_uniform {e : Exponent} (he : Secret e) :
    ∃! w : List UInt32, w.length = 8 ∧ SecKey.gensk [w] = some ⟨e⟩ ∧
      Ecdh.SecKey.gensk [w] = some ⟨e⟩ := by
  have key : ∀ w : List UInt32, w.length = 8 → (val w + 1 = val e ↔ SecKey.gensk [w] = some ⟨e⟩) := by
    intro w hl
    rw [C67_generate (by simpa using hl)]
    constructor
    · intro h; exact ⟨he, [], w, [], rfl, by simp, h⟩
    · rintro ⟨_, b, u, a, h, _, hu⟩
      cases b with
      | nil =>
        simp only [List.nil_append, List.cons.injEq] at h
        rw [h.1]; exact hu
      | cons x b =>
        simp at h
  have hd : ∀ w, SecKey.gensk [w] = some ⟨e⟩ → Ecdh.SecKey.gensk [w] = some ⟨e⟩ := by
    intro w h
    unfold SecKey.gensk at h
    unfold Ecdh.SecKey.gensk
    obtain ⟨x, hx, h⟩ := Option.map_eq_some_iff.1 h
    cases h
    rw [hx]; rfl
  have hlt : val e - 1 < 256 ^ 32 := by
    have := he.2.2
    have := N_lt
    have e1 : (256 : Nat) ^ 32 = 2 ^ 256 := by decide +kernel
    omega
  obtain ⟨wf, v⟩ := from_bin_spec (be_length 32 (val e - 1))
  have v : val _ = number _ := v
  rw [number_be, Nat.mod_eq_of_lt hlt] at v
  refine ⟨from_bin (Crypto.Sha.Spec.be 32 (val e - 1)), ⟨wf, ?_, ?_⟩, ?_⟩
  · exact (key _ wf).1 (by rw [v]; have := he.2.1; omega)
  · exact hd _ ((key _ wf).1 (by rw [v]; have := he.2.1; omega))
  · rintro w ⟨hl, h, _⟩
    have := (key w hl).2 h
    exact val_inj (hl.trans wf.symm) (by rw [v]; omega)

/-- A draw of all ones is skipped and the draw of zeros after it gives the secret 1. -/
example : SecKey.gensk [List.replicate 8 0xffffffff, List.replicate 8 0] = some ⟨Int256.ONE⟩ := by
  decide +kernel

end Verif.P256
