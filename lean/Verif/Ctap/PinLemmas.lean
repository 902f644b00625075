import Verif.Ctap.Inversion
import Verif.Ctap.PinSpec
import Verif.Crypto.CbcProps

/-!
# The PIN protocols of the model agree with their specification; inversion of the token subcommands
-/
namespace Verif.Ctap
set_option linter.unusedSectionVars false
variable [Dev]

theorem decrypt_spec {pr : Proto} {z ct pt : Bytes} (h : (SharedSecret.new pr z).decrypt ct = .ok pt) :
    PinSpec.decrypt pr z ct = some pt := by
  cases pr <;> simp only [SharedSecret.new, SharedSecret.decrypt, aesDecrypt, PinSpec.decrypt, PinSpec.aesKey,
      Proto.embedsIv] at h ⊢ <;> split at h <;> simp_all

theorem verify_spec {pr : Proto} {key msg sig : Bytes} (h : verifyMac pr key msg sig = .ok ()) :
    sig = PinSpec.tag pr key msg := by
  cases pr <;> simp only [verifyMac, PinSpec.tag] at h ⊢ <;> split at h <;> try simp at h
  all_goals first | exact h.symm | (split at h <;> simp_all)

theorem verify_spec' {pr : Proto} {z msg sig : Bytes} (h : (SharedSecret.new pr z).verify msg sig = .ok ()) :
    sig = PinSpec.tag pr (PinSpec.macKey pr z) msg := by
  have := verify_spec h
  cases pr <;> exact this

/-- What is encrypted can be decrypted. -/
theorem encrypt_decrypt {pr : Proto} {z iv pt ct : Bytes} (hiv : pr.embedsIv = true → iv.length = 16)
    (h : Verif.Crypto.aesCbcEncrypt (Dev.aesEnc (SharedSecret.new pr z).aesKey) iv pt pr.embedsIv = .ok ct) :
    PinSpec.decrypt pr z ct = some pt := by
  have key : ∀ iv : Bytes, iv.length = 16 →
      Verif.Crypto.aesCbcEncrypt (Dev.aesEnc (SharedSecret.new pr z).aesKey) iv pt pr.embedsIv = .ok ct →
      PinSpec.decrypt pr z ct = some pt := by
    intro iv hiv h
    obtain ⟨h1, h2⟩ := Verif.Crypto.aesCbc_wrapper_roundtrip (Dev.aesEnc (SharedSecret.new pr z).aesKey)
      (Dev.aesDec (SharedSecret.new pr z).aesKey) (Dev.aesEnc_len _) (Dev.aes_inv _) iv pt hiv pr.embedsIv
    by_cases hl : pt.length % 16 = 0
    · obtain ⟨c, h3, h4, _⟩ := h2 hl
      rw [h] at h3
      cases h3
      cases pr <;> simp only [SharedSecret.new, Proto.embedsIv] at h4 <;>
        simp only [PinSpec.decrypt, PinSpec.aesKey, h4]
    · rw [(h1 hl).1] at h; cases h
  cases pr with
  | v2 => exact key iv (hiv rfl) h
  | v1 =>
    refine key (List.replicate 16 0) (by simp) ?_
    simpa [Verif.Crypto.aesCbcEncrypt, Proto.embedsIv] using h

/-- What a response with a token tells about the request. -/
structure TokenGranted (a : PinParams) (s s' : St) (ct : Bytes) : Prop where
  out : ∃ ka phe z hash len e k t perms rp, a.keyAgreement = some ka ∧ a.pinHashEnc = some phe ∧
      Dev.ecdh (s.v.pin.proto a.proto).sk ka.x ka.y = some z ∧
      s.p.pin = some (hash, len) ∧ s.p.retries ≠ 0 ∧ s.v.pin.mismatches < 3 ∧
      PinSpec.decrypt a.proto z phe = some hash ∧ s.p.forcePinChange = false ∧ s.env.Le e ∧ s.env.k ≤ k ∧
      s.env.now ≤ t ∧ t ≤ e.now ∧ (a.sub = .getPinToken ∧ perms = 0x03 ∧ rp = none ∨
        a.sub = .getPinTokenWithPermissions ∧ a.permissions = some perms ∧ rp = a.permissionsRpId) ∧
      PinSpec.decrypt a.proto z ct = some (s'.v.pin.proto a.proto).token ∧
      s' = { env := e, p := { s.p with pinRetries := none },
             log := .tokenIssued e.now perms rp :: .pinCompare true :: s.log,
             v := { s.v with pin :=
              { p1 := { s.v.pin.p1 with token := PinSpec.random s.env k 32 },
                p2 := { s.v.pin.p2 with token := PinSpec.random s.env (k + 1) 32 },
                mismatches := 0,
                tok := { permissions := perms, rpId := rp, timer := makeTimer t 30000, userVerified := true,
                         inUse := true } } } }

theorem tokenGranted {a : PinParams} {s s' : St} {r : PinResponse} {ct : Bytes}
    (h : clientPinCommand a s = (.ok (some r), s')) (hr : r.token = some ct) : TokenGranted a s s' ct := by
  simp only [clientPinCommand, bind_ok, guardE_ok] at h
  obtain ⟨_, _, ⟨_, rfl⟩, h⟩ := h
  cases hs : a.sub <;> simp only [hs, bind_ok, pure_ok, fail_ok] at h
  · obtain ⟨r', s1, h1, h2, rfl⟩ := h
    cases h2
    simp only [processGetPinRetries, bind_ok, getV_ok, pure_ok] at h1
    obtain ⟨_, _, _, _, _, _, rfl, _⟩ := h1
    simp at hr
  · obtain ⟨r', s1, h1, h2, rfl⟩ := h
    cases h2
    simp only [processGetKeyAgreement, bind_ok, getV_ok, pure_ok] at h1
    obtain ⟨_, _, _, rfl, _⟩ := h1
    simp at hr
  · simp at h
  · simp at h
  · obtain ⟨r', s1, h1, _, s2, h2, h3, rfl⟩ := h
    cases h3
    obtain ⟨ka, phe, z, hash, len, e, k, ct', hka, hphe, hz, hp, hn, hm, hd, hf, hle, hk, ⟨t, ht, ht', rfl⟩, rfl, iv, hiv, henc⟩ :=
      getPinToken_ok h1
    cases hr
    simp only [logIssued, bind_ok, getV_ok, clock_ok, logE_ok] at h2
    obtain ⟨_, _, ⟨rfl, rfl⟩, _, _, ⟨rfl, rfl⟩, rfl⟩ := h2
    exact ⟨⟨ka, phe, z, hash, len, e, k, t, 0x03, none, hka, hphe, hz, hp, hn, hm, decrypt_spec hd, hf, hle, hk, ht, ht', .inl ⟨hs, rfl, rfl⟩,
      encrypt_decrypt hiv henc, rfl⟩⟩
  · obtain ⟨r', s1, h1, _, s2, h2, h3, rfl⟩ := h
    cases h3
    simp only [processGetPinTokenWithPermissions, bind_ok, req_ok, guardE_ok, modTok, modPin, modV_ok, pure_ok] at h1
    obtain ⟨perms, _, ⟨hperm, rfl⟩, _, _, ⟨_, rfl⟩, _, _, ⟨_, rfl⟩, r'', s3, h4, _, s4, rfl, rfl, rfl⟩ := h1
    obtain ⟨ka, phe, z, hash, len, e, k, ct', hka, hphe, hz, hp, hn, hm, hd, hf, hle, hk, ⟨t, ht, ht', rfl⟩, rfl, iv, hiv, henc⟩ :=
      getPinToken_ok h4
    cases hr
    simp only [logIssued, bind_ok, getV_ok, clock_ok, logE_ok] at h2
    obtain ⟨_, _, ⟨rfl, rfl⟩, _, _, ⟨rfl, rfl⟩, rfl⟩ := h2
    refine ⟨⟨ka, phe, z, hash, len, e, k, t, perms, a.permissionsRpId, hka, hphe, hz, hp, hn, hm, decrypt_spec hd, hf, hle, hk, ht, ht', .inr ⟨hs, hperm, rfl⟩,
      ?_, rfl⟩⟩
    have := encrypt_decrypt hiv henc
    revert this
    dsimp only
    cases a.proto <;> exact id

end Verif.Ctap
