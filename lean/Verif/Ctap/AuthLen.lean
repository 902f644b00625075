import Verif.Ctap.AuthDataSpec
import Verif.Ctap.PropsNames
import Verif.Ctap.CredAll
import Verif.Ctap.PropsEnum
import Verif.Ctap.RequestLemmas
import Verif.Cbor.Size

/-!
# How long authenticator data is
-/
namespace Verif.Ctap
open Verif.Cbor (Value beBytes)
set_option maxRecDepth 100000

section
variable [Dev] {P : Oracle → Prop} {s s' : St} {ch : Channel}

omit [Dev] in
theorem write_len {v : Value} {b : Bytes} (h : cborWrite v = .ok b) : b.length ≤ v.size := by
  unfold cborWrite at h
  split at h
  · rename_i hb; cases h; exact Verif.Cbor.write_size _ _ _ hb
  · cases h

omit [Dev] in
theorem insertEntry_perm (e : Value × Value) (l : List (Value × Value)) : (Verif.Cbor.insertEntry e l).Perm (e :: l) := by
  induction l with
  | nil => exact .refl _
  | cons x l ih =>
    unfold Verif.Cbor.insertEntry
    split
    · exact .refl _
    · exact (List.Perm.cons x ih).trans (.swap _ _ _)

omit [Dev] in
theorem sortEntries_perm (l : List (Value × Value)) : (Verif.Cbor.sortEntries l).Perm l := by
  have : ∀ (m acc : List (Value × Value)), (m.foldl (fun acc e => Verif.Cbor.insertEntry e acc) acc).Perm (m ++ acc) := by
    intro m
    induction m with
    | nil => intro acc; exact .refl _
    | cons x m ih =>
      intro acc
      refine (ih _).trans ?_
      refine ((insertEntry_perm x acc).append_left m).trans ?_
      exact List.perm_middle
  simpa [Verif.Cbor.sortEntries] using this l []

/-- The length of a field, if it is there. -/
def fieldSize (k : Value) : Option Value → Nat
  | some v => k.size + v.size
  | none => 0

/-- The length of the fields that are there. -/
def optSize : List (Value × Option Value) → Nat
  | [] => 0
  | (k, o) :: l => fieldSize k o + optSize l

omit [Dev] in
theorem sizeMap_options (es : List (Value × Option Value)) : Value.sizeMap (es.filterMap fun e => e.2.map fun v => (e.1, v)) = optSize es := by
  induction es with
  | nil => rfl
  | cons e es ih =>
    obtain ⟨k, o⟩ := e
    cases o with
    | none => simp only [List.filterMap_cons, Option.map_none, optSize, fieldSize, ih]; omega
    | some v => simp only [List.filterMap_cons, Option.map_some, optSize, fieldSize, Value.sizeMap, ih]

omit [Dev] in
theorem mapOptions_len {es : List (Value × Option Value)} {v : Value} {b : Bytes} (h : cborMapOptions es = some v) (hb : cborWrite v = .ok b) :
    b.length ≤ 9 + optSize es := by
  have h1 := write_len hb
  unfold cborMapOptions Verif.Cbor.mkMap at h
  split at h
  · cases h
  cases h
  rw [Value.size, Verif.Cbor.sizeMap_perm (sortEntries_perm _)] at h1
  rwa [sizeMap_options] at h1

theorem cbc_len (key : Bytes) : ∀ (n : Nat) (iv pt ct : Bytes), pt.length = n → Verif.Crypto.cbcEncrypt (Dev.aesEnc key) iv pt = some ct →
    iv.length = 16 → ct.length = pt.length := by
  intro n
  induction n using Nat.strongRecOn with
  | ind n ih =>
    intro iv pt ct hn h hiv
    rw [Verif.Crypto.cbcEncrypt] at h
    split at h
    · cases h; simp_all
    · split at h
      · cases h
      · rename_i h1 h2
        simp only [Option.map_eq_some_iff] at h
        obtain ⟨r, hr, rfl⟩ := h
        have hb : (Dev.aesEnc key (Verif.Crypto.xorBlock (pt.take 16) iv)).length = 16 :=
          Dev.aesEnc_len _ _ (by simp [Verif.Crypto.xorBlock]; omega)
        have := ih (pt.length - 16) (by omega) _ _ _ (by simp) hr hb
        simp only [List.length_append, hb, this, List.length_drop]
        omega

theorem aesEncrypt_len {key pt ct : Bytes} {b : Bool} (h : aesEncrypt key pt b s = (.ok ct, s')) : ct.length ≤ 16 + pt.length := by
  obtain ⟨_, iv, hiv, h⟩ := aesEncrypt_ok h
  unfold Verif.Crypto.aesCbcEncrypt at h
  split at h
  · cases h
  split at h
  · rename_i hb
    have hiv := hiv hb
    cases hc : Verif.Crypto.cbcEncrypt (Dev.aesEnc key) iv pt with
    | none => rw [hc] at h; cases h
    | some r =>
      rw [hc] at h
      cases h
      have := cbc_len key _ _ _ _ rfl hc hiv
      simp only [List.length_append]
      omega
  · cases hc : Verif.Crypto.cbcEncrypt (Dev.aesEnc key) (List.replicate 16 0) pt with
    | none => rw [hc] at h; cases h
    | some r =>
      rw [hc] at h
      cases h
      have := cbc_len key _ _ _ _ rfl hc (by simp)
      omega

theorem hmacSecret_len {i : HmacSecretInput} {random out : Bytes} (h : processHmacSecret i random s = (.ok out, s')) : out.length ≤ 80 := by
  simp only [processHmacSecret, bind_ok, liftE_ok, guardE_ok] at h
  obtain ⟨ss, s1, h1, _, _, ⟨h2, rfl⟩, salts, _, ⟨h3, rfl⟩, _, _, ⟨h4, rfl⟩, h5⟩ := h
  have := aesEncrypt_len h5
  split at this
  · simp only [List.length_append, Dev.hmac_len] at this; omega
  · simp only [Dev.hmac_len] at this; omega

omit [Dev] in
theorem text_bytes (t b : Bytes) : (Value.text t).size + (Value.bytes b).size = 18 + t.length + b.length := by
  simp only [Value.size]
  omega

theorem gaExt_len {c : Cred} {i : AssertionInput} {e : Bytes} (h : gaExtOutput c i s = (.ok e, s')) :
    e.length ≤ 144 + (c.credBlob.getD []).length := by
  unfold gaExtOutput at h
  split at h
  · rw [bind_ok] at h
    obtain ⟨out, s1, h1, h2⟩ := h
    obtain ⟨rfl, v, hv, hw⟩ := cborWriteM_ok h2
    have ho : ∀ x, out = some x → x.length ≤ 80 := by
      intro x hx
      cases hi : i.ext.hmacSecret with
      | none => simp only [gaHmacSecret, hi, pure_ok] at h1; rw [hx] at h1; cases h1.1
      | some y =>
        simp only [gaHmacSecret, hi, bind_ok, pure_ok] at h1
        obtain ⟨_, _, _, z, _, hz, e, _⟩ := h1
        rw [hx] at e
        cases e
        exact hmacSecret_len hz
    have hl := mapOptions_len hv hw
    simp only [optSize, Nat.add_zero] at hl
    have h1 : fieldSize (.text (b! "credBlob")) (if i.ext.credBlob then some (Value.bytes (c.credBlob.getD [])) else none) ≤ 26 + (c.credBlob.getD []).length := by
      cases i.ext.credBlob
      · exact Nat.zero_le _
      · exact Nat.le_of_eq (text_bytes _ _)
    have h2 : fieldSize (.text (b! "hmac-secret")) (out.map Value.bytes) ≤ 109 := by
      cases out with
      | none => exact Nat.zero_le _
      | some x => exact Nat.le_trans (Nat.le_of_eq (text_bytes _ _)) (Nat.add_le_add_left (ho x rfl) 29)
    omega
  · rw [pure_ok] at h
    rw [← h.1]
    simp

/-- Stored blobs are short. -/
abbrev BlobOk (c : Cred) : Prop := (c.credBlob.getD []).length ≤ Dev.maxCredBlobLength

instance : CredProp BlobOk where
  new a id sk order lbk _ := by
    show ((mcCredBlob a).getD []).length ≤ _
    unfold mcCredBlob
    cases a.ext.credBlob with
    | none => simp
    | some b =>
      simp only [Option.filter]
      split
      · rename_i h; simpa using h
      · simp
  upd _ _ _ _ h := h

omit [Dev] in
theorem enc_bytes_le {b : Bytes} {k : Value} : ∀ {m : List (Value × Value)}, (k, .bytes b) ∈ m → b.length ≤ (Value.encMap m).length := by
  intro m h
  induction m with
  | nil => cases h
  | cons e m ih =>
    obtain ⟨k', v⟩ := e
    simp only [Value.encMap, List.length_append]
    rcases List.mem_cons.1 h with h | h
    · cases h
      simp only [Value.enc, List.length_append]
      omega
    · have := ih h
      omega

theorem opens_blob {mk id rp : Bytes} {w : CredSource} (h : Opens mk id rp w) : (w.credBlob.getD []).length < 2 ^ 32 := by
  have hc := h.content
  unfold decryptCredId at hc
  simp only [bindE_ok] at hc
  obtain ⟨pt, _, hc⟩ := hc
  split at hc
  · cases hc
  rename_i u hu
  have hul : u.length ≤ 192 := by
    unfold removePadding at hu
    split at hu
    · cases hu
    · rename_i hl
      simp only at hu
      split at hu
      · cases hu
      · split at hu
        · cases hu; simp only [List.length_take]; omega
        · cases hu
  simp only [bindE_ok] at hc
  obtain ⟨v, hv, m, hm, hc⟩ := hc
  obtain ⟨hw, _, he⟩ := cborRead_ok hv
  split at hc
  · rename_i skv rpv polv blobv hdes
    simp only [bindE_ok] at hc
    obtain ⟨sk, _, rp', _, hc⟩ := hc
    split at hc
    · cases hc
    · simp only [bindE_ok] at hc
      obtain ⟨pol, _, blob, hb, hc⟩ := hc
      cases hc
      cases blobv with
      | none => cases hb; simp
      | some bv =>
        have hmem : some bv ∈ Verif.Cbor.destructure [.unsigned 0, .unsigned 1, .unsigned 2, .unsigned 3] m := by rw [hdes]; simp
        obtain ⟨k, hk⟩ := destructure_mem hmem
        have hmm : v = .map m := by
          unfold extractMap at hm
          split at hm
          · cases hm; rfl
          · cases hm
        subst hmm
        unfold optE extractBytes at hb
        cases bv with
        | bytes x =>
          cases hb
          rcases Dev.wordBits_eq with h32 | h64
          · have := hw.1
            rw [h32] at this
            have := (Verif.Cbor.WFMap_iff.1 this.2.1 _ hk).2
            simp only [Value.WF] at this
            exact this
          · have := enc_bytes_le hk
            have hlen : u.length = _ := congrArg List.length (he h64)
            simp only [Value.enc, List.length_append] at hlen
            simp only [Option.getD_some]
            omega
        | _ => cases hb
  · cases hc

theorem hasCred_blob {rp : Bytes} {c : Cred} (h : s.HasCred rp c) (hs : AllCreds BlobOk s) : (c.credBlob.getD []).length < 2 ^ 32 := by
  rcases h with ⟨h, _⟩ | ⟨mk, w, _, h, _, _, hb, _⟩
  · obtain ⟨e, he, rfl⟩ := List.mem_map.1 h
    exact Nat.lt_of_le_of_lt (hs e he) (Nat.lt_of_le_of_lt Dev.maxCredBlobLength_le (by decide))
  · rw [hb]
    exact opens_blob h

/-- Authenticator data of assertions. -/
theorem assertion_len {c : Cred} {i : AssertionInput} {n : Option Nat} {g : GaResponse} {rp : Bytes}
    (h : assertionResponse c i n s = (.ok g, s')) (hc : s.HasCred rp c) (hs : AllCreds BlobOk s) (hi : i.authData.length ≤ 37) :
    g.authData.length < 2 ^ 33 := by
  have hb := hasCred_blob hc hs
  simp only [assertionResponse, bind_ok, liftE_ok, pure_ok] at h
  obtain ⟨ext, s1, h1, sig, _, _, rfl, _⟩ := h
  have := gaExt_len h1
  simp only [List.length_append]
  omega

omit [Dev] in
theorem cose_len {k : CoseKey} {v : Value} {b : Bytes} (hv : k.toCbor = some v) (hw : cborWrite v = .ok b) :
    b.length ≤ 9 + 18 * 5 + k.x.length + k.y.length := by
  have := mapOptions_len hv hw
  have hi : ∀ i, (cborInt i).size = 9 := fun i => by unfold cborInt; split <;> rfl
  simp only [optSize, fieldSize, hi] at this
  simp only [Value.size] at this
  omega

omit [Dev] in
theorem text_small (t : Bytes) {o : Option Value} (h : ∀ v, o = some v → v.size = 9) :
    fieldSize (.text t) o ≤ 18 + t.length := by
  cases o with
  | none => exact Nat.zero_le _
  | some v => have := h v rfl; simp only [fieldSize, this, Value.size]; omega

theorem mcExt_len {a : McParams} {mp : Bool} {e : Bytes} (h : mcExtOutput a mp s = (.ok e, s')) : e.length ≤ 123 := by
  unfold mcExtOutput at h
  split at h
  · rw [bind_ok] at h
    obtain ⟨len, s1, h1, h2⟩ := h
    obtain ⟨_, v, hv, hw⟩ := cborWriteM_ok h2
    have hl := mapOptions_len hv hw
    simp only [optSize, Nat.add_zero] at hl
    have g1 := text_small (b! "credBlob") (o := if a.ext.credBlob.isSome then some (cborBool (mcCredBlob a).isSome) else none) (by
      intro v h; split at h <;> cases h; rfl)
    have g2 := text_small (b! "credProtect") (o := if a.ext.credProtect.isSome then (mcPolicy a.ext.credProtect).map Policy.toCbor else none) (by
      intro v h
      split at h
      · obtain ⟨p, _, rfl⟩ := Option.map_eq_some_iff.1 h
        rfl
      · cases h)
    have g3 := text_small (b! "hmac-secret") (o := if a.ext.hmacSecret then some (cborBool true) else none) (by
      intro v h; split at h <;> cases h; rfl)
    have g4 := text_small (b! "minPinLength") (o := len.map Value.unsigned) (by
      intro v h
      obtain ⟨p, _, rfl⟩ := Option.map_eq_some_iff.1 h
      rfl)
    refine Nat.le_trans hl (Nat.le_trans (Nat.add_le_add_left (Nat.add_le_add g1 (Nat.add_le_add g2 (Nat.add_le_add g3 g4))) 9) ?_)
    decide
  · rw [pure_ok] at h
    rw [← h.1]
    simp

/-- Authenticator data of registrations, if the public keys have the usual length. -/
theorem mcAuthData_len {a : McParams} {mp : Bool} {id sk ad : Bytes} (h : mcAuthData a mp id sk s = (.ok ad, s'))
    (hp : ∀ sk x y, Dev.ecdsaPub sk = some (x, y) → x.length ≤ 32 ∧ y.length ≤ 32) : ad.length ≤ 596 := by
  simp only [mcAuthData, bind_ok, pure_ok, guardE_ok, liftE_ok] at h
  obtain ⟨base, s1, hb, _, _, ⟨hid, rfl⟩, pk, _, ⟨hpk, rfl⟩, cose, s3, hcose, ext, _, hext, rfl, _⟩ := h
  obtain ⟨n, rfl, rfl, rfl⟩ := generateAuthData_ok hb
  obtain ⟨rfl, v, hv, hcose'⟩ := cborWriteM_ok hcose
  simp only [pubKey] at hpk
  cases hpub : Dev.ecdsaPub sk with
  | none => rw [hpub] at hpk; cases hpk
  | some xy =>
    obtain ⟨x, y⟩ := xy
    rw [hpub] at hpk
    cases hpk
    obtain ⟨hx, hy⟩ := hp _ _ _ hpub
    have h1 : cose.length ≤ 9 + 18 * 5 + x.length + y.length := cose_len hv hcose'
    have h2 := mcExt_len hext
    have h3 : id.length ≤ 0xFF := by simpa using hid
    have h4 : (Dev.sha256 a.rp.id ++ [mcFlags a.authParam.isSome (mcHasExt a mp)] ++ beBytes 4 (s.p.counter.getD 1) ++ Dev.aaguid ++
        [0x00, UInt8.ofNat id.length]).length = 55 := by
      simp [Dev.sha256_len, Dev.aaguid_len, Verif.Cbor.beBytes]
    rw [List.length_append, List.length_append, List.length_append, h4]
    omega

/-- Authenticator data of registrations. -/
theorem registered_len {a : McParams} {m : McResponse} (h : processParsed (.makeCredential a) ch s = (.ok (.makeCredential m), s'))
    (hp : ∀ sk x y, Dev.ecdsaPub sk = some (x, y) → x.length ≤ 32 ∧ y.length ≤ 32) : m.authData.length ≤ 596 := by
  obtain ⟨_, h⟩ := processParsed_ok h (by simp)
  obtain ⟨ep, s1, s2, s3, s4, _, h1, h2, h3, h4, h5⟩ := makeCredential_ok h
  simp only [mcFinish, bind_ok, pure_ok] at h5
  obtain ⟨mp, s5, a1, lbk, s6, a2, sk, s7, a3, id, s8, a4, ad, s9, a5, ⟨sig, x5c⟩, s10, a6, a7, rfl⟩ := h5
  cases a7
  exact mcAuthData_len a5 hp

end
end Verif.Ctap
