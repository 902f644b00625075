import Verif.Crypto.CbcSpec
/-!
# C36: CBC round trip
-/
namespace Verif.Crypto

theorem xorBlock_length {a b : Bytes} (ha : a.length = 16) (hb : b.length = 16) :
    (xorBlock a b).length = 16 := by
  simp [xorBlock, ha, hb]

theorem xorBlock_cancel : ∀ {a b : Bytes}, a.length = b.length → xorBlock (xorBlock a b) b = a
  | [], [], _ => rfl
  | x :: a, y :: b, h => by
    have h' : a.length = b.length := by simpa using h
    have := xorBlock_cancel h'
    simp only [xorBlock, List.zipWith_cons_cons] at this ⊢
    rw [this, UInt8.xor_assoc]
    simp

theorem cbcEncrypt_isSome (enc : Bytes → Bytes) : ∀ (n : Nat) (iv data : Bytes),
    data.length = 16 * n → ∃ c, cbcEncrypt enc iv data = some c := by
  intro n
  induction n with
  | zero => intro iv data h; rw [cbcEncrypt]; simp_all
  | succ n ih =>
    intro iv data h
    rw [cbcEncrypt]
    have h1 : data ≠ [] := by rintro rfl; simp at h
    have h2 : ¬ data.length < 16 := by omega
    obtain ⟨c, hc⟩ := ih (enc (xorBlock (data.take 16) iv)) (data.drop 16) (by simp; omega)
    simp [h1, h2, hc]

theorem cbc_roundtrip_aux (enc dec : Bytes → Bytes)
    (hlen : ∀ b, b.length = 16 → (enc b).length = 16)
    (hinv : ∀ b, b.length = 16 → dec (enc b) = b) : ∀ (n : Nat) (iv data c : Bytes),
    iv.length = 16 → data.length = 16 * n → cbcEncrypt enc iv data = some c →
    c.length = data.length ∧ cbcDecrypt dec iv c = some data := by
  intro n
  induction n with
  | zero =>
    intro iv data c _ h hc
    have : data = [] := by simpa using h
    subst this
    rw [cbcEncrypt] at hc
    simp at hc; subst hc
    constructor
    · rfl
    · rw [cbcDecrypt]; simp
  | succ n ih =>
    intro iv data c hiv h hc
    rw [cbcEncrypt] at hc
    have h1 : data ≠ [] := by rintro rfl; simp at h
    have h2 : ¬ data.length < 16 := by omega
    simp only [h1, h2, if_false] at hc
    have ht : (data.take 16).length = 16 := by simp; omega
    have hx := xorBlock_length ht hiv
    have hb := hlen _ hx
    generalize hblk : enc (xorBlock (data.take 16) iv) = blk at *
    cases hr : cbcEncrypt enc blk (data.drop 16) with
    | none => simp [hr] at hc
    | some r =>
      simp [hr] at hc
      subst hc
      obtain ⟨hl, hd⟩ := ih blk (data.drop 16) r hb (by simp; omega) hr
      have hl' : r.length = data.length - 16 := by simpa using hl
      constructor
      · simp [hb, hl']; omega
      · rw [cbcDecrypt]
        have e1 : blk ++ r ≠ [] := by intro h; simp at h; simp [h.1] at hb
        have e2 : ¬ (blk ++ r).length < 16 := by simp; omega
        have e3 : (blk ++ r).take 16 = blk := by simp [← hb]
        have e4 : (blk ++ r).drop 16 = r := by simp [← hb]
        have e5 : dec blk = xorBlock (data.take 16) iv := by rw [← hblk, hinv _ hx]
        simp only [e1, e2, if_false, e3, e4, hd, Option.map_some, e5]
        rw [xorBlock_cancel (by rw [ht, hiv])]
        simp

/-- C36 (core). For every block cipher pair `enc`/`dec` (with `dec` inverting `enc` on 16-byte blocks, which is
C39 for the AES code), every IV and every plaintext of a multiple of 16 bytes, encryption does not panic,
preserves the length, and decryption gives the plaintext back. -/
theorem cbc_roundtrip (enc dec : Bytes → Bytes)
    (hlen : ∀ b, b.length = 16 → (enc b).length = 16)
    (hinv : ∀ b, b.length = 16 → dec (enc b) = b)
    (iv data : Bytes) (hiv : iv.length = 16) (hd : data.length % 16 = 0) :
    ∃ c, cbcEncrypt enc iv data = some c ∧ c.length = data.length ∧ cbcDecrypt dec iv c = some data := by
  obtain ⟨c, hc⟩ := cbcEncrypt_isSome enc (data.length / 16) iv data (by omega)
  exact ⟨c, hc, cbc_roundtrip_aux enc dec hlen hinv (data.length / 16) iv data c hiv (by omega) hc⟩

/-- C36. The encryption is CBC mode of NIST SP 800-38A, block by block. -/
theorem cbc_is_cbc_mode (enc : Bytes → Bytes) : ∀ (ps : List Bytes) (iv : Bytes), Blocks ps →
    cbcEncrypt enc iv ps.flatten = some (SpecCbc enc iv ps).flatten
  | [], iv, _ => by rw [cbcEncrypt]; simp [SpecCbc]
  | p :: ps, iv, h => by
    have hp : p.length = 16 := h p (by simp)
    have ih := cbc_is_cbc_mode enc ps (enc (xorBlock p iv)) (fun b hb => h b (by simp [hb]))
    rw [cbcEncrypt]
    have e1 : (p :: ps).flatten ≠ [] := by intro h; simp at h; simp [h.1] at hp
    have e2 : ¬ (p :: ps).flatten.length < 16 := by simp [hp]
    have e3 : (p :: ps).flatten.take 16 = p := by simp [← hp]
    have e4 : (p :: ps).flatten.drop 16 = ps.flatten := by simp [← hp]
    simp only [e1, e2, if_false, e3, e4, ih, Option.map_some]
    rfl

/-- C36. The message-level wrapper: for every plaintext, with or without embedded IV, a length that is not a
multiple of the block size is refused by both directions (never a panic), and otherwise decrypting what was
encrypted gives the plaintext; with an embedded IV the output starts with the IV. -/
theorem aesCbc_wrapper_roundtrip (enc dec : Bytes → Bytes)
    (hlen : ∀ b, b.length = 16 → (enc b).length = 16)
    (hinv : ∀ b, b.length = 16 → dec (enc b) = b)
    (rngIv plaintext : Bytes) (hiv : rngIv.length = 16) (embedsIv : Bool) :
    (plaintext.length % 16 ≠ 0 →
      aesCbcEncrypt enc rngIv plaintext embedsIv = .invalidParameter ∧
      aesCbcDecrypt dec plaintext embedsIv = .invalidParameter) ∧
    (plaintext.length % 16 = 0 →
      ∃ c, aesCbcEncrypt enc rngIv plaintext embedsIv = .ok c ∧
        aesCbcDecrypt dec c embedsIv = .ok plaintext ∧
        c.length = plaintext.length + (if embedsIv then 16 else 0) ∧
        (embedsIv = true → c.take 16 = rngIv)) := by
  constructor
  · intro h; simp [aesCbcEncrypt, aesCbcDecrypt, h]
  · intro h
    cases embedsIv with
    | false =>
      obtain ⟨c, h1, h2, h3⟩ := cbc_roundtrip enc dec hlen hinv (List.replicate 16 0) plaintext (by simp) h
      refine ⟨c, ?_, ?_, by simp [h2], by simp⟩
      · simp only [aesCbcEncrypt, h, h1]; simp [WrapRes.ofOption]
      · have h' : c.length % 16 = 0 := by omega
        simp only [aesCbcDecrypt, h', h3]; simp [WrapRes.ofOption]
    | true =>
      obtain ⟨c, h1, h2, h3⟩ := cbc_roundtrip enc dec hlen hinv rngIv plaintext hiv h
      refine ⟨rngIv ++ c, ?_, ?_, ?_, ?_⟩
      · simp [aesCbcEncrypt, h, h1, WrapRes.ofOption, WrapRes.map]
      · have e0 : rngIv ++ c ≠ [] := by intro h; simp at h; simp [h.1] at hiv
        have e1 : (rngIv ++ c).length % 16 = 0 := by simp; omega
        have e2 : (rngIv ++ c).take 16 = rngIv := by simp [← hiv]
        have e3 : (rngIv ++ c).drop 16 = c := by simp [← hiv]
        simp only [aesCbcDecrypt, e1, e0, e2, e3, h3]
        simp [WrapRes.ofOption]
      · simp [h2, hiv]; omega
      · intro _; simp [← hiv]

/-- C36. No ciphertext from the host, of any length, makes the decryption wrapper panic. -/
theorem aesCbcDecrypt_no_panic (dec : Bytes → Bytes) (ct : Bytes) (e : Bool) :
    aesCbcDecrypt dec ct e ≠ .panic := by
  have key : ∀ (n : Nat) (iv data : Bytes), data.length = 16 * n → ∃ c, cbcDecrypt dec iv data = some c := by
    intro n
    induction n with
    | zero => intro iv data h; rw [cbcDecrypt]; simp_all
    | succ n ih =>
      intro iv data h
      rw [cbcDecrypt]
      have h1 : data ≠ [] := by rintro rfl; simp at h
      have h2 : ¬ data.length < 16 := by omega
      obtain ⟨c, hc⟩ := ih (data.take 16) (data.drop 16) (by simp; omega)
      simp [h1, h2, hc]
  unfold aesCbcDecrypt
  split
  · simp
  · rename_i h
    have h0 : ct.length % 16 = 0 := by
      rcases Nat.eq_zero_or_pos (ct.length % 16) with h' | h'
      · exact h'
      · exact absurd (Or.inl (by omega)) h
    split
    · obtain ⟨c, hc⟩ := key (ct.length / 16 - 1) (ct.take 16) (ct.drop 16) (by simp; omega)
      simp [hc, WrapRes.ofOption]
    · obtain ⟨c, hc⟩ := key (ct.length / 16) (List.replicate 16 0) ct (by omega)
      simp only [hc]; simp [WrapRes.ofOption]

/-- Non-vacuity: complementing each byte is a block-cipher pair, and two blocks are actually chained: two equal
plaintext blocks give two different ciphertext blocks. -/
example : (∀ b : Bytes, b.length = 16 → (b.map (~~~ ·)).length = 16) ∧
    (∀ b : Bytes, b.length = 16 → (b.map (~~~ ·)).map (~~~ ·) = b) ∧
    (SpecCbc (·.map (~~~ ·)) (List.replicate 16 1) [List.replicate 16 7, List.replicate 16 7]) =
      [List.replicate 16 249, List.replicate 16 1] := by
  refine ⟨by simp, ?_, by decide⟩
  intro b _; rw [List.map_map]; conv => rhs; rw [← List.map_id b]
  congr 1; funext x; simp

end Verif.Crypto
