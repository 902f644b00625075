import Verif.Ctap.CredLemmas
import Verif.Cbor.Props

/-!
# Lemmas on wrapped credential ids
-/
namespace Verif.Ctap
set_option linter.unusedSectionVars false
open Verif.Cbor (Value)
variable [Dev]

/-- What `unwrapCredential` returns when the master keys are `mk`. -/
def unwrapWith (mk bytes rpIdHash : Bytes) : Except Status (Option CredSource) :=
  if bytes.length < 241 then .ok none
  else if Dev.hmac (authKey mk) (bytes.take (bytes.length - 32)) ≠ bytes.drop (bytes.length - 32) then .ok none
  else if bytes.headD 0 ≠ 0x01 ∨ bytes.length ≠ 241 then .ok none
  else match decryptCredId (encKey mk) (encKey mk) ((bytes.take (bytes.length - 32)).drop 1) with
    | .error e => .error e
    | .ok none => .ok none
    | .ok (some c) => .ok (if rpIdHash = c.rpIdHash then some c else none)

theorem unwrap_ok {b r : Bytes} {w : Option CredSource} {s s' : St} (h : unwrapCredential b r s = (.ok w, s')) :
    (w = none ∧ b.length < 241 ∧ s' = s) ∨
    ∃ mk e, mk.length = 128 ∧ s.env.Le e ∧ (s.p.master = none ∨ s.p.master = some mk) ∧
      s' = { s with env := e, p := { s.p with master := some mk } } ∧ unwrapWith mk b r = .ok w := by
  simp only [unwrapCredential, mapErr_ok] at h
  by_cases h0 : b.length < 241
  · simp only [h0, if_true, pure_ok] at h
    exact .inl ⟨h.1.symm, h0, h.2.symm⟩
  · right
    simp only [h0, if_false, bind_ok] at h
    obtain ⟨mk, s1, h1, h2⟩ := h
    obtain ⟨a1, a2, a3, a4, a5, a6⟩ := getMasterKeys_ok h1
    have hs1 : s1 = { s with env := s1.env, p := { s.p with master := some mk } } := by
      rw [← a2, ← a3, ← a4]
    refine ⟨mk, s1.env, a1, a5, a6, ?_⟩
    rw [← hs1]
    unfold unwrapWith
    simp only [h0, if_false]
    by_cases h3 : Dev.hmac (authKey mk) (b.take (b.length - 32)) ≠ b.drop (b.length - 32)
    · rw [if_pos h3] at h2 ⊢
      rw [pure_ok] at h2
      exact ⟨h2.2.symm, by rw [h2.1]⟩
    · rw [if_neg h3] at h2 ⊢
      by_cases h4 : b.headD 0 ≠ 0x01 ∨ b.length ≠ 241
      · rw [if_pos h4] at h2 ⊢
        rw [pure_ok] at h2
        exact ⟨h2.2.symm, by rw [h2.1]⟩
      · rw [if_neg h4] at h2 ⊢
        simp only [bind_ok, liftE_ok] at h2
        obtain ⟨o, _, ⟨h5, rfl⟩, h6⟩ := h2
        rw [h5]
        cases o with
        | none =>
          simp only [pure_ok] at h6
          exact ⟨h6.2.symm, by rw [← h6.1]⟩
        | some c =>
          dsimp only at h6 ⊢
          by_cases h7 : r = c.rpIdHash
          · rw [if_pos h7] at h6 ⊢
            rw [pure_ok] at h6
            exact ⟨h6.2.symm, by rw [h6.1]⟩
          · rw [if_neg h7] at h6 ⊢
            rw [pure_ok] at h6
            exact ⟨h6.2.symm, by rw [h6.1]⟩

/-- An accepted id has the right length, a valid tag, and was made for this relying party. -/
theorem unwrapWith_some {mk b r : Bytes} {c : CredSource} (h : unwrapWith mk b r = .ok (some c)) :
    b.length = 241 ∧ b.drop 209 = Dev.hmac (authKey mk) (b.take 209) ∧ c.rpIdHash = r ∧ b.headD 0 = 0x01 ∧
      decryptCredId (encKey mk) (encKey mk) ((b.take 209).drop 1) = .ok (some c) := by
  unfold unwrapWith at h
  by_cases h0 : b.length < 241
  · simp [h0] at h
  simp only [h0, if_false] at h
  by_cases h3 : Dev.hmac (authKey mk) (b.take (b.length - 32)) ≠ b.drop (b.length - 32)
  · rw [if_pos h3] at h; cases h
  rw [if_neg h3] at h
  by_cases h4 : b.headD 0 ≠ 0x01 ∨ b.length ≠ 241
  · rw [if_pos h4] at h; cases h
  rw [if_neg h4] at h
  have hl : b.length = 241 := Classical.byContradiction fun hn => h4 (.inr hn)
  have hh : b.headD 0 = 0x01 := Classical.byContradiction fun hn => h4 (.inl hn)
  have ht := Classical.byContradiction h3
  rw [hl] at h ht
  rw [show 241 - 32 = 209 from rfl] at h ht
  cases hd : decryptCredId (encKey mk) (encKey mk) ((b.take 209).drop 1) with
  | error e => rw [hd] at h; cases h
  | ok o =>
    cases o with
    | none => rw [hd] at h; cases h
    | some c' =>
      simp only [hd] at h
      by_cases h7 : r = c'.rpIdHash
      · rw [if_pos h7] at h
        cases h
        exact ⟨hl, ht.symm, h7.symm, hh, rfl⟩
      · rw [if_neg h7] at h; cases h

/-! ## Round trip -/

theorem aesDecrypt_of_encrypt {key iv pt ct : Bytes} (hiv : iv.length = 16)
    (h : Verif.Crypto.aesCbcEncrypt (Dev.aesEnc key) iv pt true = .ok ct) :
    aesDecrypt key ct true = .ok pt ∧ ct.length = pt.length + 16 ∧ pt.length % 16 = 0 := by
  obtain ⟨h1, h2⟩ := Verif.Crypto.aesCbc_wrapper_roundtrip (Dev.aesEnc key) (Dev.aesDec key) (Dev.aesEnc_len _)
    (Dev.aes_inv _) iv pt hiv true
  by_cases hl : pt.length % 16 = 0
  · obtain ⟨c, h3, h4, h5, _⟩ := h2 hl
    rw [h] at h3
    cases h3
    exact ⟨by simp [aesDecrypt, h4], by simpa using h5, hl⟩
  · rw [(h1 hl).1] at h; cases h

theorem addPadding_ok {d p : Bytes} (h : addPadding d = some p) : p.length = 192 ∧ removePadding p = some d := by
  unfold addPadding at h
  by_cases hc : d = [] ∨ d.length > 0xBF
  · rw [if_pos hc] at h; cases h
  rw [if_neg hc] at h
  have h1 : d ≠ [] := fun hn => hc (.inl hn)
  have h2 : d.length ≤ 0xBF := by
    by_cases h : d.length > 0xBF
    · exact absurd (.inr h) hc
    · omega
  have h1' : 0 < d.length := List.length_pos_iff.2 h1
  cases h
  generalize hn : 0xBF - (d.length - 1) = n
  have hn1 : 1 ≤ n := by omega
  have hn2 : n ≤ 0xBF := by omega
  have hb : (UInt8.ofNat n).toNat = n := Verif.Cbor.ofNat_toNat_lt n (by omega)
  have hl : (d ++ List.replicate n (UInt8.ofNat n)).length = 192 := by simp; omega
  refine ⟨hl, ?_⟩
  have hlast : (d ++ List.replicate n (UInt8.ofNat n)).getLastD 0 = UInt8.ofNat n := by
    obtain ⟨k, rfl⟩ : ∃ k, n = k + 1 := ⟨n - 1, by omega⟩
    rw [List.replicate_succ', ← List.append_assoc]
    simp
  unfold removePadding
  rw [hl, hlast]
  have hne : ¬ (UInt8.ofNat n = 0 ∨ (UInt8.ofNat n).toNat > 0xBF) := by
    rw [hb]
    rintro (h | h)
    · have := congrArg UInt8.toNat h
      rw [hb] at this
      simp at this
      omega
    · omega
  have hd : 192 - n = d.length := by omega
  simp only [hb, hd, List.drop_left, List.take_left]
  rw [hb] at hne
  simp [hne]

/-- The CBOR map of a wrapped credential. -/
def sourceMap (c : CredSource) (w : Bytes) : List (Value × Value) :=
  [(.unsigned 0, .array [.negative (-7), .bytes w]), (.unsigned 1, .bytes c.rpIdHash)] ++
  (match c.policy with | some p => [(.unsigned 2, .unsigned p.toNat)] | none => []) ++
  (match c.credBlob with | some b => [(.unsigned 3, .bytes b)] | none => [])

theorem source_toCbor (c : CredSource) (w : Bytes) :
    c.toCbor (.array [cborInt es256, .bytes w]) = some (.map (sourceMap c w)) := by
  obtain ⟨sk, rp, pol, blob⟩ := c
  cases pol <;> cases blob <;>
    simp [CredSource.toCbor, cborMapOptions, Verif.Cbor.mkMap, Verif.Cbor.sortEntries, Verif.Cbor.insertEntry,
      Verif.Cbor.hasDup, Verif.Cbor.Value.cmp, Verif.Cbor.Value.typeLabel, sourceMap, cborInt, es256, Policy.toCbor, compare, compareOfLessAndEq]

theorem policy_lt (p : Policy) : p.toNat ≤ 3 ∧ 1 ≤ p.toNat := by cases p <;> decide

theorem policy_ofCbor (p : Policy) : Policy.ofCbor (.unsigned p.toNat) = .ok p := by cases p <;> rfl

theorem pow_w : 2 ^ 32 ≤ 2 ^ Dev.wordBits := by
  rcases Dev.wordBits_eq with h | h <;> rw [h] <;> decide

theorem w_le : Dev.wordBits ≤ 64 := by
  rcases Dev.wordBits_eq with h | h <;> rw [h] <;> decide

/-- Sizes for which wrapping works. -/
def CredSource.Fits (c : CredSource) : Prop :=
  c.sk.length = 32 ∧ c.rpIdHash.length = 32 ∧ ∀ b, c.credBlob = some b → b.length ≤ 64

theorem lexLt_unsigned {a b : Nat} (h : a < b) (hb : b < 24) :
    Verif.Cbor.LexLt (Value.unsigned a).enc (Value.unsigned b).enc := by
  have ha : a < 24 := by omega
  simp only [Value.enc, Verif.Cbor.head, ha, hb, if_true, Verif.Cbor.LexLt]
  left
  rw [Verif.Cbor.ofNat_toNat_lt _ (by omega), Verif.Cbor.ofNat_toNat_lt _ (by omega)]
  omega

theorem sourceMap_wf (c : CredSource) (w : Bytes) (hc : c.Fits) (hw : w.length ≤ 48) :
    (Value.map (sourceMap c w)).WF Dev.wordBits := by
  have hpow := pow_w
  have h32 : (2 : Nat) ^ 32 = 4294967296 := rfl
  obtain ⟨h1, h2, h3⟩ := hc
  obtain ⟨sk, rp, pol, blob⟩ := c
  dsimp only at h1 h2 h3
  have hw' : w.length < 2 ^ Dev.wordBits := by omega
  have hrp : rp.length < 2 ^ Dev.wordBits := by omega
  have hblob : ∀ b, blob = some b → b.length < 2 ^ Dev.wordBits := fun b hb => by have := h3 b hb; omega
  have hpol : ∀ p : Policy, p.toNat < 2 ^ 64 := fun p => by have := (policy_lt p).1; omega
  refine ⟨?_, ?_, ?_⟩
  · cases pol <;> cases blob <;> simp [sourceMap]
  · rw [Verif.Cbor.WFMap_iff]
    intro e he
    simp only [sourceMap, List.mem_append, List.mem_cons, List.not_mem_nil, or_false] at he
    rcases he with ((rfl | rfl) | he) | he
    · simp [Value.WF, Value.WFList, hw']
    · simp [Value.WF, hrp]
    · cases pol with
      | none => simp at he
      | some p =>
        simp only [List.mem_singleton] at he
        subst he
        simp [Value.WF, hpol p]
    · cases blob with
      | none => simp at he
      | some b =>
        simp only [List.mem_singleton] at he
        subst he
        simp [Value.WF, hblob b rfl]
  · cases pol <;> cases blob <;>
      simp [sourceMap, lexLt_unsigned]

theorem head_length (t n : Nat) (h : n < 256) : (Verif.Cbor.head t n).length = if n < 24 then 1 else 2 := by
  unfold Verif.Cbor.head
  by_cases h1 : n < 24
  · simp [h1]
  · simp [h1, h]

theorem sourceMap_length (c : CredSource) (w : Bytes) (hc : c.Fits) (hw : w.length = 48) :
    (Value.map (sourceMap c w)).enc.length ≤ 158 := by
  obtain ⟨h1, h2, h3⟩ := hc
  obtain ⟨sk, rp, pol, blob⟩ := c
  dsimp only at h1 h2 h3
  have hpol : ∀ p : Policy, p.toNat < 24 := fun p => by have := (policy_lt p).1; omega
  cases pol <;> cases blob <;>
    simp [sourceMap, Value.enc, Value.encMap, Value.encList, head_length, h2, hw, hpol]
  · rename_i b
    have := h3 b rfl
    rw [head_length 2 _ (by omega)]
    split <;> omega
  · rename_i p
    rw [head_length 0 _ (by have := hpol p; omega), if_pos (hpol p)]
    omega
  · rename_i p b
    have := h3 b rfl
    rw [head_length 0 _ (by have := hpol p; omega), if_pos (hpol p), head_length 2 _ (by omega)]
    split <;> omega

theorem sourceMap_depth (c : CredSource) (w : Bytes) : (Value.map (sourceMap c w)).depth = 2 := by
  obtain ⟨sk, rp, pol, blob⟩ := c
  cases pol <;> cases blob <;>
    simp [sourceMap, Value.depth, Value.depthMap, Value.depthList]

theorem sourceMap_destructure (c : CredSource) (w : Bytes) :
    Verif.Cbor.destructure [.unsigned 0, .unsigned 1, .unsigned 2, .unsigned 3] (sourceMap c w) =
      [some (.array [.negative (-7), .bytes w]), some (.bytes c.rpIdHash),
        c.policy.map fun p => .unsigned p.toNat, c.credBlob.map .bytes] := by
  obtain ⟨sk, rp, pol, blob⟩ := c
  cases pol <;> cases blob <;>
    simp [sourceMap, Verif.Cbor.destructure, Verif.Cbor.peekValue, Value.cmp, Value.typeLabel, compare,
      compareOfLessAndEq]

/-- Decrypting what was encrypted, with the keys of the same device. -/
theorem decryptCredId_wrapped {ek : Bytes} {c : CredSource} (hc : c.Fits) {iv1 iv2 w payload padded enc : Bytes}
    (hi1 : iv1.length = 16) (hi2 : iv2.length = 16)
    (h1 : Verif.Crypto.aesCbcEncrypt (Dev.aesEnc ek) iv1 c.sk true = .ok w)
    (h2 : cborWrite (.map (sourceMap c w)) = .ok payload) (h3 : addPadding payload = some padded)
    (h4 : Verif.Crypto.aesCbcEncrypt (Dev.aesEnc ek) iv2 padded true = .ok enc) :
    enc.length = 208 ∧ decryptCredId ek ek enc = .ok (some c) := by
  obtain ⟨a1, a2, _⟩ := aesDecrypt_of_encrypt hi1 h1
  obtain ⟨b1, b2, _⟩ := aesDecrypt_of_encrypt hi2 h4
  obtain ⟨p1, p2⟩ := addPadding_ok h3
  have hw : w.length = 48 := by rw [a2, hc.1]
  have hwf := sourceMap_wf c w hc (by omega)
  have hr : cborRead payload = .ok (.map (sourceMap c w)) := by
    have := (Verif.Cbor.C01_read_write w_le (.map (sourceMap c w)) (some 4) hwf).2 payload
    unfold cborWrite at h2
    unfold Verif.Cbor.writeNested at this
    cases hv : Value.write (.map (sourceMap c w)) (some 4) with
    | error e => simp [hv] at h2
    | ok b =>
      simp only [hv, Except.ok.injEq] at h2
      rw [hv, h2] at this
      simp [cborRead, this rfl]
  refine ⟨by omega, ?_⟩
  have hsk : skFromCbor ek (.array [.negative (-7), .bytes w]) = .ok c.sk := by
    simp [skFromCbor, extractArray, extractBytes, a1, extractInteger, es256, hc.1, bind, Except.bind]
  have hpol : optE Policy.ofCbor (c.policy.map fun p => Value.unsigned p.toNat) = .ok c.policy := by
    cases c.policy with
    | none => rfl
    | some p => simp [optE, policy_ofCbor]
  have hblob : optE extractBytes (c.credBlob.map Value.bytes) = .ok c.credBlob := by
    cases c.credBlob <;> rfl
  unfold decryptCredId
  simp only [b1, p2, hr, extractMap, sourceMap_destructure, hsk, extractBytes, hpol, hblob, hc.2.1, bind, Except.bind]
  simp

theorem wrap_ok {c : CredSource} {id : Bytes} {s s' : St} (h : wrapCredential c s = (.ok id, s')) (hc : c.Fits) :
    ∃ mk e, mk.length = 128 ∧ s.env.Le e ∧ (s.p.master = none ∨ s.p.master = some mk) ∧
      s' = { s with env := e, p := { s.p with master := some mk } } ∧ id.length = 241 ∧
      unwrapWith mk id c.rpIdHash = .ok (some c) := by
  simp only [wrapCredential, mapErr_ok, bind_ok, skToCbor] at h
  obtain ⟨mk, s1, h1, skc, s2, ⟨w, s2', h2, h2'⟩, h3⟩ := h
  rw [pure_ok] at h2'
  obtain ⟨rfl, rfl⟩ := h2'
  rw [source_toCbor] at h3
  simp only [bind_ok, liftE_ok, req_ok, pure_ok] at h3
  obtain ⟨payload, _, ⟨h4, rfl⟩, padded, _, ⟨h5, rfl⟩, mk2, s3, h6, enc, s4, h7, rfl, rfl⟩ := h3
  obtain ⟨a1, a2, a3, a4, a5, a6⟩ := getMasterKeys_ok h1
  obtain ⟨⟨e1, hle1, rfl⟩, iv1, hi1, h2⟩ := aesEncrypt_ok h2
  obtain ⟨b1, b2, b3, b4, b5, b6⟩ := getMasterKeys_ok h6
  have hmk : mk2 = mk := by
    rcases b6 with b6 | b6
    · dsimp only at b6; rw [a2] at b6; cases b6
    · dsimp only at b6; rw [a2] at b6; cases b6; rfl
  subst hmk
  obtain ⟨⟨e2, hle2, rfl⟩, iv2, hi2, h7⟩ := aesEncrypt_ok h7
  obtain ⟨c1, c2⟩ := decryptCredId_wrapped hc (hi1 rfl) (hi2 rfl) h2 h4 h5 h7
  refine ⟨mk2, e2, a1, (a5.trans hle1).trans (b5.trans hle2), a6, ?_, ?_, ?_⟩
  · dsimp only at b2 b3 b4
    rw [show s3.p = { s.p with master := some mk2 } by rw [b2, a2], b3, b4, a3, a4]
  · simp [c1, Dev.hmac_len]
  · have hl : (0x01 :: enc ++ Dev.hmac (authKey mk2) (0x01 :: enc)).length = 241 := by simp [c1, Dev.hmac_len]
    have ht : (0x01 :: enc ++ Dev.hmac (authKey mk2) (0x01 :: enc)).take 209 = 0x01 :: enc :=
      List.take_left' (by simp [c1])
    have hd : (0x01 :: enc ++ Dev.hmac (authKey mk2) (0x01 :: enc)).drop 209 = Dev.hmac (authKey mk2) (0x01 :: enc) :=
      List.drop_left' (by simp [c1])
    unfold unwrapWith
    rw [hl]
    simp only [ht, hd, List.drop_one, List.tail_cons, c2]
    simp

end Verif.Ctap
