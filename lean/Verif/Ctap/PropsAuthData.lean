import Verif.Ctap.AuthDataSpec
import Verif.Ctap.AnswerLemmas
import Verif.Ctap.PropsNames
import Verif.Ctap.PropsEnum
import Verif.Ctap.WireRespLemmas
import Verif.Ctap.AuthLen
import Verif.Ctap.Toy

/-!
# Property C80: authenticator data
-/
namespace Verif.Ctap
open Verif.Cbor (Value beBytes)
set_option maxRecDepth 100000

theorem flags_inj : ∀ a b c d a' b' c' d' : Bool,
    UInt8.ofNat (a.toNat + 4 * b.toNat + 64 * c.toNat + 128 * d.toNat) = UInt8.ofNat (a'.toNat + 4 * b'.toNat + 64 * c'.toNat + 128 * d'.toNat) →
    a = a' ∧ b = b' ∧ c = c' ∧ d = d' := by decide +kernel

theorem enc_prefix {v v' : Value} (hv : v.WF 64) (hv' : v'.WF 64) {r r' : Bytes} (h : v.enc ++ r = v'.enc ++ r') : v = v' ∧ r = r' := by
  have h1 := Verif.Cbor.decodeItem_enc (Nat.le_refl 64) v (max v.depth v'.depth + 1) none r hv trivial (by omega)
  have h2 := Verif.Cbor.decodeItem_enc (Nat.le_refl 64) v' (max v.depth v'.depth + 1) none r' hv' trivial (by omega)
  rw [h, h2] at h1
  simp at h1
  exact ⟨h1.1.symm, h1.2.symm⟩

theorem beBytes_inj {n a b : Nat} (ha : a < 256 ^ n) (hb : b < 256 ^ n) (h : beBytes n a = beBytes n b) : a = b := by
  have := Verif.Cbor.cmp_beBytes n a b
  rw [h, Verif.Cbor.cmpBytes_eq_iff.2 rfl, Nat.mod_eq_of_lt ha, Nat.mod_eq_of_lt hb] at this
  exact Nat.compare_eq_eq.1 this.symm

/-- **C80**. Authenticator data has only one meaning. -/
theorem C80_one_meaning {d d' : AuthData} (h : d.Ok) (h' : d'.Ok) (he : d.bytes = d'.bytes) : d = d' := by
  obtain ⟨hash, up, uv, n, c, e⟩ := d
  obtain ⟨hash', up', uv', n', c', e'⟩ := d'
  simp only [AuthData.bytes, List.append_assoc] at he
  obtain ⟨h1, he1⟩ := List.append_inj he (h.hash.trans h'.hash.symm)
  obtain ⟨h2, he2⟩ := List.append_inj he1 rfl
  obtain ⟨h3, he3⟩ := List.append_inj he2 (by simp [Verif.Cbor.beBytes])
  clear he he1 he2
  have h3 := beBytes_inj (n := 4) h.counter h'.counter h3
  simp only [List.cons.injEq, and_true] at h2
  obtain ⟨g1, g2, g3, g4⟩ := flags_inj _ _ _ _ _ _ _ _ h2
  dsimp only at h1 h3 g1 g2 g3 g4 he3
  subst h1 h3 g1 g2
  have hext : ∀ {r r' : Option Value}, (∀ v, r = some v → v.WF 64) → (∀ v, r' = some v → v.WF 64) → r.isSome = r'.isSome →
      (r.map Value.enc).getD [] = (r'.map Value.enc).getD [] → r = r' := by
    intro r r' hr hr' hs he
    cases r with
    | none => cases r' with
      | none => rfl
      | some _ => cases hs
    | some v => cases r' with
      | none => cases hs
      | some v' => rw [Verif.Cbor.enc_inj (Nat.le_refl 64) (hr v rfl) (hr' v' rfl) he]
  cases c with
  | none =>
    cases c' with
    | some _ => cases g3
    | none => rw [show e = e' from hext h.extensions h'.extensions g4 he3]
  | some c =>
    cases c' with
    | none => cases g3
    | some c' =>
      obtain ⟨aa, id, key⟩ := c
      obtain ⟨aa', id', key'⟩ := c'
      simp only [Option.map_some, Option.getD_some, AttestedCredential.bytes, List.append_assoc] at he3
      obtain ⟨k1, he4⟩ := List.append_inj he3 ((h.aaguid _ rfl).trans (h'.aaguid _ rfl).symm)
      obtain ⟨k2, he5⟩ := List.append_inj he4 (by simp [Verif.Cbor.beBytes])
      have k2 := beBytes_inj (n := 2) (h.id _ rfl) (h'.id _ rfl) k2
      obtain ⟨k3, he6⟩ := List.append_inj he5 k2
      obtain ⟨k4, he7⟩ := enc_prefix (h.key _ rfl) (h'.key _ rfl) he6
      subst k1 k3 k4
      rw [show e = e' from hext h.extensions h'.extensions g4 he7]

section
variable [Dev] {P : Oracle → Prop} {s s' : St} {ch : Channel}

omit [Dev] in
theorem written_enc {v : Value} {b : Bytes} (h : cborWrite v = .ok b) (hf : v.Fit) (hl : b.length < 2 ^ 64) : v.WF 64 ∧ b = v.enc := by
  have h : v.write (some 4) = .ok b := by
    unfold cborWrite at h
    split at h
    · rename_i hb; cases h; exact hb
    · cases h
  have hwf := Verif.Cbor.wf_of_fit _ _ _ h hl hf
  have hq := Verif.Cbor.C01_write_canonical (Nat.le_refl 64) _ _ hwf (Verif.Cbor.write_ok_depth _ _ _ h)
  rw [show Verif.Cbor.writeNested v (some 4) = v.write (some 4) from rfl, h] at hq
  cases hq
  exact ⟨hwf, rfl⟩

/-- Settings that a registration does not change. -/
def KeepCfg (n : Nat) (l : Option (List Bytes)) (att : Option Attestation) (s : St) : Prop :=
  s.p.minPin = n ∧ s.p.minPinRpIds = l ∧ s.p.attestation = att

section
variable (n : Nat) (l : Option (List Bytes)) (att : Option Attestation)
instance : SEnv (KeepCfg n l att) := ⟨fun _ _ _ _ h => h⟩
instance (P : Oracle → Prop) : SOra P (KeepCfg n l att) := ⟨fun _ _ _ h => h⟩
stable_instances (KeepCfg n l att) under SMaster SCreds STok SMis SKeys SU2f SSp SLb SPresence SCompare SIssued SConsumed SU2fPrompt SU2fConsume
  SU2fTouch SCounterEv SBoot
end

theorem keepCfg {m : M α} {r : Res α} (h : m s = (r, s')) [hp : Pres (KeepCfg s.p.minPin s.p.minPinRpIds s.p.attestation) m] :
    s'.p.minPin = s.p.minPin ∧ s'.p.minPinRpIds = s.p.minPinRpIds ∧ s'.p.attestation = s.p.attestation := by
  have := hp.out s ⟨rfl, rfl, rfl⟩; rwa [h] at this

def CounterIs (n : Option Nat) (s : St) : Prop := s.p.counter = n

section
variable (n : Option Nat)
instance : SEnv (CounterIs n) := ⟨fun _ _ _ _ h => h⟩
stable_instances (CounterIs n) under SMaster SSp
end

omit [Dev] in
theorem counterIs {m : M α} {r : Res α} {n : Option Nat} (h : m s = (r, s')) (hn : CounterIs n s) [hp : Pres (CounterIs n) m] : CounterIs n s' := by
  have := hp.out s hn; rwa [h] at this

/-- Creation of a stored credential. -/
theorem mcCreate_stored {a : McParams} {sk id : Bytes} {lbk : Option Bytes} (hrk : a.options.rk = true) (h : mcCreate a sk lbk s = (.ok id, s')) :
    s'.p.master.isSome = true ∧ ∃ order, mcCred a id sk order lbk ∈ s'.stored := by
  simp only [mcCreate, hrk, if_true, bind_ok, pure_ok] at h
  obtain ⟨id', sa, b1, order, sb, b2, _, sc, b3, rfl, rfl⟩ := h
  obtain ⟨k, mk, e, l, _, _, _, _, _, rfl⟩ := storeCredential_ok b3
  exact ⟨rfl, order, by unfold St.stored; exact List.mem_cons_self ..⟩

/-- Creation of a credential that is not stored. -/
theorem mcCreate_wrapped {a : McParams} {sk id : Bytes} {lbk : Option Bytes} (hsk : sk.length = 32) (hrk : a.options.rk = false)
    (h : mcCreate a sk lbk s = (.ok id, s')) :
    ∃ mk w, s'.p.master = some mk ∧ Opens mk id (Dev.sha256 a.rp.id) w ∧ w.sk = sk ∧ w.policy = mcPolicy a.ext.credProtect ∧
      w.credBlob = mcCredBlob a := by
  simp only [mcCreate, hrk, Bool.false_eq_true, if_false, mapErr_ok] at h
  obtain ⟨mk, e, b1, b2, b3, rfl, b5, b6⟩ := wrap_ok h ⟨hsk, Dev.sha256_len _, fun b hb => by
    have := (Option.filter_eq_some_iff.1 hb).2
    have h2 := Dev.maxCredBlobLength_le
    simp only [decide_eq_true_eq] at this
    omega⟩
  exact ⟨mk, _, rfl, opens_iff.1 b6, rfl, rfl, rfl⟩

theorem mcOutputs_says {a : McParams} {len : Option Nat} {v : Value} (h : cborMapOptions
      [(.text (b! "credBlob"), if a.ext.credBlob.isSome then some (cborBool (mcCredBlob a).isSome) else none),
       (.text (b! "credProtect"),
          if a.ext.credProtect.isSome then (mcPolicy a.ext.credProtect).map Policy.toCbor else none),
       (.text (b! "hmac-secret"), if a.ext.hmacSecret then some (cborBool true) else none),
       (.text (b! "minPinLength"), len.map .unsigned)] = some v) :
    McOutputs.Says v { credBlob := if a.ext.credBlob.isSome then some (mcCredBlob a).isSome else none
                       credProtect := if a.ext.credProtect.isSome then mcPolicy a.ext.credProtect else none
                       hmacSecret := if a.ext.hmacSecret then some true else none
                       minPinLength := len } := by
  obtain ⟨m, rfl, hf, hk⟩ := built_finds h (by simp only [List.map_cons, List.map_nil]; decide +kernel) (by simp only [List.map_cons, List.map_nil]; decide)
  refine ⟨m, rfl, may_of (hf 0 (by simp)) ?_, may_of (hf 1 (by simp)) ?_, may_of (hf 2 (by simp)) ?_, may_of (hf 3 (by simp)) (stands_nat _), hk⟩
  · dsimp only [List.getElem_cons_zero]
    split
    · exact .inr ⟨_, _, rfl, rfl, rfl⟩
    · exact .inl ⟨rfl, rfl⟩
  · dsimp only [List.getElem_cons_succ, List.getElem_cons_zero]
    split
    · exact stands_map says_policy _
    · exact .inl ⟨rfl, rfl⟩
  · dsimp only [List.getElem_cons_succ, List.getElem_cons_zero]
    split
    · exact .inr ⟨_, _, rfl, rfl, rfl⟩
    · exact .inl ⟨rfl, rfl⟩

omit [Dev] in
/-- The flags of a registration. -/
theorem mcFlags_eq : ∀ uv ext : Bool, mcFlags uv ext = UInt8.ofNat (true.toNat + 4 * uv.toNat + 64 * true.toNat + 128 * ext.toNat) := by
  decide

theorem policy_isSome {o : Option Policy} (h : o.isSome = true) : (mcPolicy o).isSome = true := by
  unfold mcPolicy
  split
  · rename_i hlt
    cases hd : Dev.defaultCredProtect with
    | some _ => rfl
    | none => rw [hd] at hlt; cases o with
      | none => simp at hlt
      | some p => cases p <;> simp [Policy.toNat] at hlt
  · exact h

theorem mcExtOutput_ok {a : McParams} {mp : Bool} {e : Bytes} (h : mcExtOutput a mp s = (.ok e, s')) :
    (mcHasExt a mp = false ∧ e = []) ∨ (mcHasExt a mp = true ∧ ∃ v, cborWrite v = .ok e ∧ (s.p.minPin < 2 ^ 64 → v.Fit) ∧
      McOutputs.Says v { credBlob := if a.ext.credBlob.isSome then some (mcCredBlob a).isSome else none
                         credProtect := if a.ext.credProtect.isSome then mcPolicy a.ext.credProtect else none
                         hmacSecret := if a.ext.hmacSecret then some true else none
                         minPinLength := if mp then some s.p.minPin else none }) := by
  unfold mcExtOutput at h
  split at h
  · rename_i hx
    rw [bind_ok] at h
    obtain ⟨len, s1, h1, h2⟩ := h
    obtain ⟨_, v, hv, hw⟩ := cborWriteM_ok h2
    have hlen : len = if mp then some s.p.minPin else none := by
      unfold mcMinPinOutput at h1
      split at h1
      · rename_i hm
        simp only [minPinLength, bind_ok, pure_ok] at h1
        obtain ⟨n, s1', ⟨p, _, hp, hn, _⟩, h1, _⟩ := h1
        obtain ⟨rfl, _⟩ := readP_ok hp
        rw [← h1, ← hn, if_pos hm]
      · rename_i hm; rw [pure_ok] at h1; rw [if_neg hm]; exact h1.1.symm
    refine .inr ⟨hx, v, hw, fun hs => mapOptions_fit hv ?_, hlen ▸ mcOutputs_says hv⟩
    have g1 : OptFit (if a.ext.credBlob.isSome then some (cborBool (mcCredBlob a).isSome) else none) := by
      split
      · exact optFit_some (fit_bool _)
      · exact optFit_none
    have g2 : OptFit (if a.ext.credProtect.isSome then (mcPolicy a.ext.credProtect).map Policy.toCbor else none) := by
      split
      · exact optFit_map fun p _ => by cases p <;> exact fit_num (by decide)
      · exact optFit_none
    have g3 : OptFit (if a.ext.hmacSecret then some (cborBool true) else none) := by
      split
      · exact optFit_some (fit_bool _)
      · exact optFit_none
    have g4 : OptFit (len.map Value.unsigned) := by
      rw [hlen]
      split
      · exact optFit_some (fit_num hs)
      · exact optFit_none
    fits
  · rename_i hx
    rw [pure_ok] at h
    exact .inl ⟨by simpa using hx, h.1.symm⟩

theorem mcMinPin_ok {a : McParams} {mp : Bool} (h : mcMinPin a s = (.ok mp, s')) :
    mp = true ↔ a.ext.minPinLength = true ∧ a.rp.id ∈ s.p.minPinRpIds.getD Dev.defaultMinPinRpIds := by
  unfold mcMinPin at h
  split at h
  · rename_i hx
    simp only [minPinLengthRpIds, bind_ok, pure_ok] at h
    obtain ⟨l, _, ⟨p, _, hp, rfl, _⟩, rfl, _⟩ := h
    obtain ⟨rfl, _⟩ := readP_ok hp
    simp [hx]
  · rename_i hx
    rw [pure_ok] at h
    rw [← h.1]
    simp [hx]

theorem mcHasExt_iff {a : McParams} {mp : Bool} {n : Nat} : mcHasExt a mp = false ↔
    (⟨if a.ext.credBlob.isSome then some (mcCredBlob a).isSome else none, if a.ext.credProtect.isSome then mcPolicy a.ext.credProtect else none,
      if a.ext.hmacSecret then some true else none, if mp then some n else none⟩ : McOutputs) = ⟨none, none, none, none⟩ := by
  unfold mcHasExt
  constructor
  · intro h
    simp only [Bool.or_eq_false_iff] at h
    simp [h]
  · intro h
    simp only [McOutputs.mk.injEq] at h
    obtain ⟨h1, h2, h3, h4⟩ := h
    have k2 : a.ext.credProtect.isSome = false := by
      cases hp : a.ext.credProtect.isSome with
      | false => rfl
      | true => rw [hp, if_pos rfl] at h2; have := policy_isSome hp; rw [h2] at this; cases this
    have k1 : a.ext.credBlob.isSome = false := by
      cases hp : a.ext.credBlob.isSome with
      | false => rfl
      | true => rw [hp] at h1; cases h1
    have k3 : a.ext.hmacSecret = false := by
      cases hp : a.ext.hmacSecret with
      | false => rfl
      | true => rw [hp] at h3; cases h3
    have k4 : mp = false := by
      cases mp with
      | false => rfl
      | true => cases h4
    simp [k1, k2, k3, k4]

theorem mcSign_ok {ep : Bool} {sk data sig : Bytes} {x5c : Option Bytes} (h : mcSign ep sk data s = (.ok (sig, x5c), s')) :
    x5c = none ∧ Dev.ecdsaSign sk data = some sig ∨
    ∃ att, s.p.attestation = some att ∧ x5c = some att.certificate ∧ Dev.ecdsaSign att.sk data = some sig := by
  unfold mcSign at h
  split at h
  · simp only [bind_ok, attestationGet, mapErr_ok, req_ok, pure_ok] at h
    obtain ⟨o, s1, ⟨p, _, hp, rfl, _⟩, att, _, ⟨ha, rfl⟩, h⟩ := h
    obtain ⟨rfl, _⟩ := readP_ok hp
    cases hs : Dev.ecdsaSign att.sk data with
    | none => rw [hs] at h; simp [panicM_ok] at h
    | some x =>
      rw [hs] at h
      simp only [pure_ok, Prod.mk.injEq] at h
      obtain ⟨⟨rfl, rfl⟩, _⟩ := h
      exact .inr ⟨att, ha, rfl, hs⟩
  · simp only [bind_ok, liftE_ok, pure_ok, Prod.mk.injEq] at h
    obtain ⟨x, _, ⟨hx, rfl⟩, ⟨rfl, rfl⟩, _⟩ := h
    unfold signEncode at hx
    cases hs : Dev.ecdsaSign sk data with
    | none => rw [hs] at hx; cases hx
    | some x => rw [hs] at hx; cases hx; exact .inl ⟨rfl, rfl⟩

theorem mcPolicy_max (o : Option Policy) :
    ((mcPolicy o).getD .optional).toNat = max (o.getD .optional).toNat (Dev.defaultCredProtect.getD .optional).toNat := by
  unfold mcPolicy
  split <;> omega

theorem mcCredBlob_cases (a : McParams) : mcCredBlob a = a.ext.credBlob ∧ ((mcCredBlob a).getD []).length ≤ Dev.maxCredBlobLength ∨
    mcCredBlob a = none ∧ Dev.maxCredBlobLength < (a.ext.credBlob.getD []).length := by
  unfold mcCredBlob
  cases a.ext.credBlob with
  | none => exact .inl ⟨rfl, Nat.zero_le _⟩
  | some b =>
    by_cases h : b.length ≤ Dev.maxCredBlobLength
    · exact .inl ⟨Option.filter_some_pos (by simpa using h), by rw [Option.filter_some_pos (by simpa using h)]; exact h⟩
    · exact .inr ⟨by simpa using h, by simpa using h⟩

omit [Dev] in
theorem beBytes_mod (k n : Nat) : beBytes k (n % 256 ^ k) = beBytes k n := by
  refine Verif.Cbor.cmpBytes_eq_iff.1 ?_
  rw [Verif.Cbor.cmp_beBytes, Nat.mod_mod]
  exact Nat.compare_eq_eq.2 rfl

/-- The authenticator data of a registration. -/
theorem mcAuthData_parts {a : McParams} {mp : Bool} {id sk ad : Bytes} (h : mcAuthData a mp id sk s = (.ok ad, s')) (hn : s.p.minPin < 2 ^ 64)
    (hl : ad.length < 2 ^ 64) :
    ∃ d c, d.Ok ∧ ad = d.bytes ∧ d.rpIdHash = Dev.sha256 a.rp.id ∧ d.up = true ∧ d.uv = a.authParam.isSome ∧
      d.counter = s.p.counter.getD 1 % 2 ^ 32 ∧ d.credential = some c ∧ c.aaguid = Dev.aaguid ∧ KeyShown c.key sk ∧ c.id = id ∧
      McOutputs.In ⟨if a.ext.credBlob.isSome then some (mcCredBlob a).isSome else none, if a.ext.credProtect.isSome then mcPolicy a.ext.credProtect else none,
        if a.ext.hmacSecret then some true else none, if mp then some s.p.minPin else none⟩ d := by
  simp only [mcAuthData, bind_ok, pure_ok, guardE_ok, liftE_ok] at h
  obtain ⟨base, s1, hb, _, _, ⟨hid, rfl⟩, pk, _, ⟨hpk, rfl⟩, cose, s3, hcose, ext, _, hext, rfl, _⟩ := h
  obtain ⟨n, rfl, rfl, rfl⟩ := generateAuthData_ok hb
  obtain ⟨rfl, v, hv, hcose'⟩ := cborWriteM_ok hcose
  simp only [pubKey] at hpk
  cases hpub : Dev.ecdsaPub sk with
  | none => rw [hpub] at hpk; cases hpk
  | some xy =>
    obtain ⟨x, y⟩ := xy
    rw [hpub] at hpk
    cases hpk
    simp only [List.length_append] at hl
    have hkf : v.Fit := CoseKey.fit (by simp [CoseKey.Small, es256]) hv
    obtain ⟨hkw, rfl⟩ := written_enc hcose' hkf (by omega)
    have hid : id.length ≤ 0xFF := by simpa using hid
    have h0 : beBytes 2 id.length = [0x00, UInt8.ofNat id.length] := by
      have h1 : id.length / 256 = 0 := by omega
      have h2 : id.length % 256 = id.length := by omega
      simp [beBytes, h1, h2]
    have mk : ∀ e : Option Value, e.isSome = mcHasExt a mp → (∀ v, e = some v → v.WF 64) → ext = (e.map Value.enc).getD [] →
        ∃ (d : AuthData) (c : AttestedCredential), d.Ok ∧ Dev.sha256 a.rp.id ++ [mcFlags a.authParam.isSome (mcHasExt a mp)] ++ beBytes 4 (s.p.counter.getD 1) ++ Dev.aaguid ++
          [0x00, UInt8.ofNat id.length] ++ id ++ v.enc ++ ext = d.bytes ∧ d.rpIdHash = Dev.sha256 a.rp.id ∧ d.up = true ∧ d.uv = a.authParam.isSome ∧
      d.counter = s.p.counter.getD 1 % 2 ^ 32 ∧ d.credential = some c ∧ c.aaguid = Dev.aaguid ∧ KeyShown c.key sk ∧ c.id = id ∧ d.extensions = e := by
      intro e he hw hx
      refine ⟨{ rpIdHash := Dev.sha256 a.rp.id, up := true, uv := a.authParam.isSome, counter := s.p.counter.getD 1 % 2 ^ 32,
                credential := some { aaguid := Dev.aaguid, id := id, key := v }, extensions := e }, _, ?_, ?_, rfl, rfl, rfl, rfl, rfl, rfl,
                ⟨x, y, hpub, cose_shows hv⟩, rfl, rfl⟩
      · refine ⟨Dev.sha256_len _, Nat.mod_lt _ (by decide), ?_, ?_, ?_, hw⟩
        · rintro c ⟨⟩; exact Dev.aaguid_len
        · rintro c ⟨⟩; exact Nat.lt_of_le_of_lt hid (by decide)
        · rintro c ⟨⟩; exact hkw
      · simp only [AuthData.bytes, AuthData.flags, AttestedCredential.bytes, Option.map_some, Option.getD_some, Option.isSome_some, h0, hx, he,
          mcFlags_eq, List.append_assoc]
        rw [show (2 ^ 32 : Nat) = 256 ^ 4 from rfl, beBytes_mod]
    rcases mcExtOutput_ok hext with ⟨h1, h2⟩ | ⟨h1, w, h2, h3, h4⟩
    · obtain ⟨d, c, g1, g2, g3, g4, g5, g6, g7, g8, g9, g10, g11⟩ := mk none h1.symm (fun _ h => nomatch h) h2
      refine ⟨d, c, g1, g2, g3, g4, g5, g6, g7, g8, g9, g10, ?_⟩
      unfold McOutputs.In
      rw [if_pos (mcHasExt_iff.1 h1)]
      exact g11
    · obtain ⟨hw, rfl⟩ := written_enc h2 (h3 hn) (by omega)
      obtain ⟨d, c, g1, g2, g3, g4, g5, g6, g7, g8, g9, g10, g11⟩ := mk (some w) h1.symm (fun _ h => by cases h; exact hw) rfl
      refine ⟨d, c, g1, g2, g3, g4, g5, g6, g7, g8, g9, g10, ?_⟩
      unfold McOutputs.In
      rw [if_neg fun h => by rw [mcHasExt_iff.2 h] at h1; cases h1]
      exact ⟨w, g11, h4⟩

/-- **C80**. Registrations. -/
theorem C80_registration {b : Bool} (hr : Reach P b s) {o : Oracle} {a : McParams} {m : McResponse}
    (h : processParsed (.makeCredential a) ch (s.withOracle o) = (.ok (.makeCredential m), s')) (hl : m.authData.length < 2 ^ 64) :
    ∃ d c sk policy blob, RegisteredAs a m s' d c sk policy blob := by
  have hn : s.p.minPin < 256 := (WireOk.reach hr).data.2
  obtain ⟨_, h⟩ := processParsed_ok h (by simp)
  obtain ⟨ep, s1, s2, s3, s4, _, h1, h2, h3, h4, h5⟩ := makeCredential_ok h
  obtain ⟨i1, i2, i3⟩ := keepCfg h1
  obtain ⟨j1, j2, j3⟩ := keepCfg h2
  obtain ⟨k1, k2, k3⟩ := keepCfg h3
  obtain ⟨l1, l2, l3⟩ := keepCfg h4
  simp only [mcFinish, bind_ok, pure_ok] at h5
  obtain ⟨mp, s5, a1, lbk, s6, a2, sk, s7, a3, id, s8, a4, ad, s9, a5, ⟨sig, x5c⟩, s10, a6, a7, rfl⟩ := h5
  cases a7
  obtain ⟨m1, m2, m3⟩ := keepCfg a1
  obtain ⟨n1, n2, n3⟩ := keepCfg a2
  obtain ⟨o1, o2, o3⟩ := keepCfg a3
  obtain ⟨p1, p2, p3⟩ := keepCfg a4
  have q := keepP a5
  have q' := keepP a6
  have hmin : s8.p.minPin = s.p.minPin := p1.trans (o1.trans (n1.trans (m1.trans (l1.trans (k1.trans (j1.trans i1))))))
  have hrps : s10.p.minPinRpIds = s4.p.minPinRpIds := by rw [q', q]; exact p2.trans (o2.trans (n2.trans m2))
  obtain ⟨d, c, g1, g2, g3, g4, g5, g6, g7, g8, g9, g10, g11⟩ := mcAuthData_parts a5 (by omega) hl
  refine ⟨d, c, sk, mcPolicy a.ext.credProtect, mcCredBlob a, g1, g2, g3, g4, g5, ?_, g7, g8, g9, ?_, ?_, ?_, ?_, mcPolicy_max _, mcCredBlob_cases a, ?_, ?_⟩
  · rw [g6, q', q]
  · intro hrk
    obtain ⟨_, order, hx⟩ := mcCreate_stored hrk a4
    exact ⟨_, by unfold St.stored; rw [q', q]; exact hx, rfl, g10.symm, rfl, rfl, rfl, rfl, rfl⟩
  · intro hrk
    rw [g10, q', q]
    exact mcCreate_wrapped (rng_length a3) hrk a4
  · rw [q', q]
    cases hrk : a.options.rk with
    | true => exact (mcCreate_stored hrk a4).1
    | false =>
      obtain ⟨mk, _, h, _⟩ := mcCreate_wrapped (rng_length a3) hrk a4
      rw [h]; rfl
  · simp only [mcLargeBlobKey] at a2
    split at a2
    · rename_i hk
      simp only [Bool.and_eq_true, beq_iff_eq] at hk
      simp only [bind_ok, pure_ok] at a2
      obtain ⟨_, _, _, rfl, _⟩ := a2
      simp [hk]
    · rename_i hk
      simp only [Bool.and_eq_true, beq_iff_eq] at hk
      rw [pure_ok] at a2
      rw [← a2.1]
      exact ⟨fun h => (nomatch h), fun h => absurd h hk⟩
  · have := mcMinPin_ok a1
    have hmp : (if a.ext.minPinLength = true ∧ a.rp.id ∈ s10.p.minPinRpIds.getD Dev.defaultMinPinRpIds then some s10.p.minPin else none) =
        if mp = true then some s8.p.minPin else none := by
      rw [hrps]
      by_cases hm : mp = true
      · rw [if_pos hm, if_pos (this.1 hm), q', q]
      · rw [if_neg hm, if_neg fun h => hm (this.2 h)]
    rw [hmp]
    exact g11
  · rcases mcSign_ok a6 with h | ⟨att, h1, h2⟩
    · exact .inl h
    · exact .inr ⟨att, by rw [q']; exact h1, h2⟩

/-! ## Assertions -/

theorem hmacSecret_ok {i : HmacSecretInput} {random out : Bytes} (h : processHmacSecret i random s = (.ok out, s')) :
    SecretsFor s.v.pin random i out := by
  simp only [processHmacSecret, bind_ok, liftE_ok, guardE_ok] at h
  obtain ⟨ss, s1, h1, _, _, ⟨h2, rfl⟩, salts, _, ⟨h3, rfl⟩, _, _, ⟨h4, rfl⟩, h5⟩ := h
  obtain ⟨h1, rfl⟩ := getSharedSecret_ok h1
  obtain ⟨z, hz, rfl⟩ := decapsulate_ok h1
  have hlen : salts.length = 32 ∨ salts.length = 64 := by simpa using h4
  refine ⟨z, salts, hz, verify_spec' h2, decrypt_spec h3, hlen, ?_⟩
  obtain ⟨_, iv, hiv, h5⟩ := aesEncrypt_ok h5
  have he : (if salts.length = 64 then Dev.hmac random (salts.take 32) ++ Dev.hmac random (salts.drop 32) else Dev.hmac random (salts.take 32)) =
      hmacSecrets random salts := by
    unfold hmacSecrets
    split
    · rfl
    · rw [List.take_of_length_le (by omega)]
  rw [← he]
  have hp : (SharedSecret.new i.proto z).proto = i.proto := by cases i.proto <;> rfl
  rw [hp] at hiv h5
  exact encrypt_decrypt hiv h5

theorem gaOutputs_says {b o : Option Bytes} {v : Value} (h : cborMapOptions
      [(.text (b! "credBlob"), b.map .bytes), (.text (b! "hmac-secret"), o.map .bytes)] = some v) : GaOutputs.Says v ⟨b, o⟩ := by
  obtain ⟨m, rfl, hf, hk⟩ := built_finds h (by simp only [List.map_cons, List.map_nil]; decide +kernel) (by simp only [List.map_cons, List.map_nil]; decide)
  exact ⟨m, rfl, may_of (hf 0 (by simp)) (stands_bytes _), may_of (hf 1 (by simp)) (stands_bytes _), hk⟩

theorem gaExtOutput_ok {c : Cred} {i : AssertionInput} {e : Bytes} (h : gaExtOutput c i s = (.ok e, s')) :
    ∃ out, out.isSome = i.ext.hmacSecret.isSome ∧
      (∀ x y, i.ext.hmacSecret = some x → out = some y → ∃ mk, s'.p.master = some mk ∧ SecretsFor s.v.pin (credRandomOf mk c.sk i.hasUv) x y) ∧
      s'.p.creds = s.p.creds ∧ (∀ mk, s.p.master = some mk → s'.p.master = some mk) ∧
      (((i.ext.hmacSecret.isSome || i.ext.credBlob) = false ∧ e = []) ∨ ((i.ext.hmacSecret.isSome || i.ext.credBlob) = true ∧
        ∃ v, cborWrite v = .ok e ∧ v.Fit ∧ GaOutputs.Says v ⟨if i.ext.credBlob then some (c.credBlob.getD []) else none, out⟩)) := by
  have hc : s'.p.creds = s.p.creds := keepCreds h
  have hm : ∀ mk, s.p.master = some mk → s'.p.master = some mk := fun mk hk => keepMaster h hk
  unfold gaExtOutput at h
  split at h
  · rename_i hx
    rw [bind_ok] at h
    obtain ⟨out, s1, h1, h2⟩ := h
    obtain ⟨rfl, v, hv, hw⟩ := cborWriteM_ok h2
    have hv' : cborMapOptions [(.text (b! "credBlob"), (if i.ext.credBlob then some (c.credBlob.getD []) else none : Option Bytes).map .bytes),
        (.text (b! "hmac-secret"), out.map .bytes)] = some v := by
      rw [← hv]; cases i.ext.credBlob <;> rfl
    refine ⟨out, ?_, ?_, hc, hm, .inr ⟨hx, v, hw, mapOptions_fit hv' (by fits), gaOutputs_says hv'⟩⟩
    · cases hi : i.ext.hmacSecret with
      | none => simp only [gaHmacSecret, hi, pure_ok] at h1; rw [← h1.1]; rfl
      | some x =>
        simp only [gaHmacSecret, hi, bind_ok, pure_ok] at h1
        obtain ⟨_, _, _, _, _, _, rfl, _⟩ := h1
        rfl
    · intro x y hi hy
      simp only [gaHmacSecret, hi, bind_ok, pure_ok, generateCredRandom, credRandom] at h1
      obtain ⟨r, s2, ⟨k, s3, ⟨mk, s4, h3, rfl, rfl⟩, rfl, rfl⟩, o, s5, h4, h5, rfl⟩ := h1
      obtain ⟨_, a2, a3, _, _, _⟩ := getMasterKeys_ok h3
      have := keepP h4
      refine ⟨mk, by rw [this, a2], ?_⟩
      rw [hy] at h5
      cases h5
      rw [← a3]
      exact hmacSecret_ok h4
  · rename_i hx
    rw [pure_ok] at h
    have hx : (i.ext.hmacSecret.isSome || i.ext.credBlob) = false := by simpa using hx
    simp only [Bool.or_eq_false_iff] at hx
    exact ⟨none, by rw [hx.1]; rfl, fun _ _ _ h => (nomatch h), hc, hm, .inl ⟨by simp [hx], h.1.symm⟩⟩

omit [Dev] in
theorem gaFlags_eq (a : GaParams) : gaFlags a = UInt8.ofNat (a.options.up.toNat + 4 * a.authParam.isSome.toNat + 64 * false.toNat +
    128 * (a.ext.hmacSecret.isSome || a.ext.credBlob).toNat) := by
  unfold gaFlags
  generalize a.authParam.isSome = x
  generalize a.options.up = y
  generalize (a.ext.hmacSecret.isSome || a.ext.credBlob) = z
  revert x y z
  decide

omit [Dev] in
theorem gaUser_shown (c : Cred) (v : Bool) : UserShown c v (gaUser c v) := by
  unfold gaUser
  split
  · rename_i h; exact .inl ⟨h, rfl⟩
  · rename_i h
    refine .inr ⟨h, _, rfl, rfl, ?_, ?_⟩
    · rintro rfl; exact ⟨rfl, rfl, rfl⟩
    · rintro rfl; exact ⟨rfl, rfl, rfl⟩

theorem HasCred.keep {rp : Bytes} {c : Cred} (h : s.HasCred rp c) (hc : s'.p.creds = s.p.creds)
    (hm : ∀ mk, s.p.master = some mk → s'.p.master = some mk) : s'.HasCred rp c := by
  rcases h with ⟨h1, h2⟩ | ⟨mk, w, h1, h2⟩
  · exact .inl ⟨by unfold St.stored; rw [hc]; exact h1, h2⟩
  · exact .inr ⟨mk, w, hm mk h1, h2⟩

theorem SecretsFor.same {p q : ClientPin} {random out : Bytes} {i : HmacSecretInput} (h : SecretsFor p random i out)
    (hk : ∀ pr, (p.proto pr).sk = (q.proto pr).sk) : SecretsFor q random i out := by
  obtain ⟨z, salts, h1, h2⟩ := h
  exact ⟨z, salts, hk _ ▸ h1, h2⟩

theorem assertion_parts {q : ClientPin} {a : GaParams} {c : Cred} {k : Nat} {n : Option Nat} {g : GaResponse}
    (h : assertionResponse c { clientDataHash := a.clientDataHash, authData := Dev.sha256 a.rpId ++ [gaFlags a] ++ beBytes 4 k, ext := a.ext,
                               hasUv := a.authParam.isSome } n s = (.ok g, s')) (hl : g.authData.length < 2 ^ 64)
    (hc : s.HasCred a.rpId c) (hal : ∀ l, a.allowList = some l → ∃ x ∈ l, x.id = c.id) (hq : ∀ pr, (s.v.pin.proto pr).sk = (q.proto pr).sk) :
    ∃ d out, AssertedAs a c g q s' d out ∧ d.counter = k % 2 ^ 32 := by
  obtain ⟨g1, ⟨ext, s1, hext, had⟩, g3, g4, _, g6⟩ := assertionResponse_ok h
  have hs1 : s1 = s' := by
    simp only [assertionResponse, bind_ok, liftE_ok, pure_ok] at h
    obtain ⟨ext', s1', h1, sig, _, ⟨h2, rfl⟩, _, rfl⟩ := h
    rw [hext] at h1; cases h1; rfl
  subst hs1
  obtain ⟨out, e1, e2, e3, e4, e5⟩ := gaExtOutput_ok hext
  have mk : ∀ e : Option Value, e.isSome = (a.ext.hmacSecret.isSome || a.ext.credBlob) → (∀ v, e = some v → v.WF 64) → ext = (e.map Value.enc).getD [] →
      (∀ d : AuthData, d.extensions = e → GaOutputs.In ⟨if a.ext.credBlob then some (c.credBlob.getD []) else none, out⟩ d) →
      ∃ d out, AssertedAs a c g q s1 d out ∧ d.counter = k % 2 ^ 32 := by
    intro e he hw hx hin
    refine ⟨{ rpIdHash := Dev.sha256 a.rpId, up := a.options.up, uv := a.authParam.isSome, counter := k % 2 ^ 32, credential := none, extensions := e },
      out, ⟨?_, ?_, rfl, rfl, rfl, rfl, hin _ rfl, ⟨e1, ?_⟩, g1, ?_, ?_, g3, HasCred.keep hc e3 e4, hal⟩, rfl⟩
    · exact ⟨Dev.sha256_len _, Nat.mod_lt _ (by decide), (fun _ h => nomatch h), (fun _ h => nomatch h), (fun _ h => nomatch h), hw⟩
    · rw [had]
      simp only [AuthData.bytes, AuthData.flags, Option.map_none, Option.getD_none, Option.isSome_none, hx, he, gaFlags_eq, List.append_assoc]
      rw [show (2 ^ 32 : Nat) = 256 ^ 4 from rfl, beBytes_mod]
      rfl
    · intro i x hi hx
      obtain ⟨mk, hm, hs⟩ := e2 i x hi hx
      exact ⟨mk, hm, hs.same hq⟩
    · rw [g4]; exact gaUser_shown _ _
    · rw [g6]; simp
  have hlen : ext.length < 2 ^ 64 := by rw [had] at hl; simp only [List.length_append] at hl; omega
  have hnone : (a.ext.hmacSecret.isSome || a.ext.credBlob) = false ↔
      (⟨if a.ext.credBlob then some (c.credBlob.getD []) else none, out⟩ : GaOutputs) = ⟨none, none⟩ := by
    have e1 : out.isSome = a.ext.hmacSecret.isSome := e1
    rw [← e1]
    cases out <;> cases a.ext.credBlob <;> simp
  rcases e5 with ⟨h1, h2⟩ | ⟨h1, v, h2, h3, h4⟩
  · refine mk none h1.symm (fun _ h => nomatch h) h2 fun d hd => ?_
    unfold GaOutputs.In
    rw [if_pos (hnone.1 h1)]
    exact hd
  · obtain ⟨hw, rfl⟩ := written_enc h2 h3 hlen
    refine mk (some v) h1.symm (fun _ h => by cases h; exact hw) rfl fun d hd => ?_
    unfold GaOutputs.In
    rw [if_neg fun h => by rw [hnone.2 h] at h1; cases h1]
    exact ⟨v, hd, h4⟩

theorem gaFind_has {a : GaParams} {c : Cred} {rest : List Nat} (hc : CredsOk s.p.creds) (h : gaFindCredential a s = (.ok (some c, rest), s')) :
    s'.HasCred a.rpId c ∧ ∀ l, a.allowList = some l → ∃ x ∈ l, x.id = c.id := by
  cases hl : a.allowList with
  | none =>
    obtain ⟨mk, l, h1, _, _, _, h2⟩ := gaFind_discoverable hc hl h
    obtain ⟨k, _, h3, h4, _⟩ := h2 c rfl
    exact ⟨.inl ⟨by rw [h1.stored]; exact List.mem_map.2 ⟨_, h3, rfl⟩, h4⟩, fun _ h => nomatch h⟩
  | some l =>
    simp only [gaFindCredential, hl, bind_ok, pure_ok, Prod.mk.injEq] at h
    obtain ⟨o, s1, h1, ⟨rfl, _⟩, rfl⟩ := h
    rcases allowList_ok h1 with ⟨_, h2, _⟩ | ⟨mk, h2, h3, _⟩
    · cases h2
    · obtain ⟨pre, d, post, hpl, h4, _⟩ := h3 c rfl
      have hd : d ∈ l := by rw [hpl]; simp
      rcases h4 with ⟨⟨h5, h7, h6⟩, _⟩ | ⟨w, h5, _, rfl⟩
      · exact ⟨.inl ⟨by rw [h2.stored]; exact h5, h6⟩, fun _ h => by cases h; exact ⟨d, hd, h7.symm⟩⟩
      · exact ⟨.inr ⟨mk, w, h2.new, h5, rfl, rfl, rfl, rfl, rfl⟩, fun _ h => by cases h; exact ⟨d, hd, rfl⟩⟩

omit [Dev] in
theorem keys_of {α} {m : M α} {t t' : St} {x : α} (h : m t = (.ok x, t'))
    (hp : ∀ q1 q2, Pres (fun u : St => u.v.pin.p1 = q1 ∧ u.v.pin.p2 = q2) m) (pr : Proto) :
    (t'.v.pin.proto pr).sk = (t.v.pin.proto pr).sk := by
  have := (hp t.v.pin.p1 t.v.pin.p2).out t ⟨rfl, rfl⟩
  rw [h] at this
  cases pr
  · exact congrArg PinProtocol.sk this.1
  · exact congrArg PinProtocol.sk this.2

theorem assertion_data (hr : CredsOk s.p.creds) (hs : AllCreds BlobOk s) {o : Oracle} {a : GaParams} {r : Response}
    (h : processParsed (.getAssertion a) ch (s.withOracle o) = (.ok r, s')) :
    ∃ g c d out, r = .getAssertion g ∧ AssertedAs a c g s.v.pin s' d out ∧ d.counter = s'.p.counter.getD 1 % 2 ^ 32 := by
  obtain ⟨_, h⟩ := processParsed_ok h (by simp)
  obtain ⟨s1, s2, s3, s4, s5, s6, c, rest, ad, number, ga, h1, h2, h3, h4, h5, h6, h7, rfl, _⟩ := getAssertion_ok h
  have hc1 : s1.p.creds = s.p.creds := (keepCreds h1).trans rfl
  obtain ⟨hh, hal⟩ := gaFind_has (hc1 ▸ hr) h2
  have hh := HasCred.keep hh (keepCreds h3) (fun _ hm => keepMaster h3 hm)
  have hh := HasCred.keep hh (keepCreds h4) (fun _ hm => keepMaster h4 hm)
  have hh := HasCred.keep hh (keepCreds h5) (fun _ hm => keepMaster h5 hm)
  have hh := HasCred.keep hh (keepCreds h6) (fun _ hm => keepMaster h6 hm)
  have e1 := keys_of h1 fun q1 q2 => by
    have : SEnv (fun u : St => u.v.pin.p1 = q1 ∧ u.v.pin.p2 = q2) := ⟨fun _ _ _ _ h => h⟩
    have : STok (fun u : St => u.v.pin.p1 = q1 ∧ u.v.pin.p2 = q2) := ⟨fun _ _ h => h⟩
    infer_instance
  have e3 := keys_of h3 fun q1 q2 => by
    have : SEnv (fun u : St => u.v.pin.p1 = q1 ∧ u.v.pin.p2 = q2) := ⟨fun _ _ _ _ h => h⟩
    have : STok (fun u : St => u.v.pin.p1 = q1 ∧ u.v.pin.p2 = q2) := ⟨fun _ _ h => h⟩
    have : SPresence (fun u : St => u.v.pin.p1 = q1 ∧ u.v.pin.p2 = q2) := ⟨fun _ _ h => h⟩
    have : SConsumed (fun u : St => u.v.pin.p1 = q1 ∧ u.v.pin.p2 = q2) := ⟨fun _ h => h⟩
    infer_instance
  have hq : ∀ pr, (s6.v.pin.proto pr).sk = (s.v.pin.proto pr).sk := by
    intro pr
    rw [keepPin h6, keepPin h5, keepPin h4, e3, keepPin h2, e1]
    rfl
  obtain ⟨n, rfl, _, hn⟩ := generateAuthData_ok h5
  have hs6 : AllCreds BlobOk s6 := by
    unfold AllCreds
    rw [keepCreds h6, keepCreds h5, keepCreds h4, keepCreds h3, keepCreds h2, hc1]
    exact hs
  have hl := assertion_len h7 hh hs6 (by simp [Dev.sha256_len, Verif.Cbor.beBytes])
  obtain ⟨d, out, hd, hcount⟩ := assertion_parts h7 (by omega) hh hal hq
  refine ⟨ga, c, d, out, rfl, hd, ?_⟩
  have k5 := keepP h5
  have k6 : CounterIs s5.p.counter s6 := counterIs h6 rfl
  have k7 : CounterIs s5.p.counter s' := counterIs h7 k6
  rw [hcount, hn, k7, k5]

/-- **C80**, assertions: the authenticator data says what was asked for and what happened. -/
theorem C80_assertion (hr : Reach P b s) {o : Oracle} {a : GaParams} {r : Response}
    (h : processParsed (.getAssertion a) ch (s.withOracle o) = (.ok r, s')) :
    ∃ g c d out, r = .getAssertion g ∧ AssertedAs a c g s.v.pin s' d out ∧ d.counter = s'.p.counter.getD 1 % 2 ^ 32 :=
  assertion_data (credsOk_reach hr) (allCreds_reach hr) h

/-- **C80**, further assertions: they continue an earlier request, and say what was asked for there. -/
theorem C80_next (hr : Reach P true s) {o : Oracle} {r : Response}
    (h : processParsed .getNextAssertion ch (s.withOracle o) = (.ok r, s')) :
    ∃ g c s0 o0 a d out, r = .getNextAssertion g ∧ Processed P s s0 o0 (.getAssertion a) ch ∧ AssertedAs a c g s.v.pin s' d out := by
  obtain ⟨⟨cid, rfl⟩, h⟩ := processParsed_ok h (by simp)
  obtain ⟨inp, keys, k, c, g, t, h1, h2, ⟨mk, h3⟩, h4, rfl⟩ := nextAssertion_ok h
  obtain ⟨e1, e2, _, e4, e5⟩ := prelude_sp (s := s.withOracle o) h1
  have hg := spGood_reach hr rfl
  cases hg with
  | none hg => exact absurd (hg.symm.trans e2) (by simp)
  | reset hg => exact absurd (hg.symm.trans e2) (by simp)
  | rps hg => exact absurd (congrArg StatefulPerm.cmd hg.symm |>.trans e2) (by simp)
  | creds hg => exact absurd (congrArg StatefulPerm.cmd hg.symm |>.trans e2) (by simp)
  | assertion hsp b ti au al i to p l bg =>
    have e6 := (congrArg StatefulPerm.cmd hsp.symm).trans e2
    simp only [Option.some.injEq, Stateful.getAssertion.injEq] at e6
    obtain ⟨rfl, rfl⟩ := e6
    subst i
    have e7 := e4 _ (congrArg StatefulPerm.channel hsp)
    subst e7
    obtain ⟨c', k1, k2, k3⟩ := mem_discoverable.1 (l ▸ List.mem_append_left _ (List.mem_append_right _ (List.mem_singleton_self k)))
    have := (credsOk_reach hr).key (p.mem_iff.1 k1) h2 rfl
    cases this
    have hh : t.HasCred _ c := .inl ⟨by rw [h3.stored]; exact List.mem_map.2 ⟨_, h2, rfl⟩, k2⟩
    have hst : AllCreds BlobOk t := fun e he => allCreds_reach hr e (h3.creds ▸ he)
    have hl := assertion_len h4 hh hst (by simp [Dev.sha256_len, Verif.Cbor.beBytes])
    obtain ⟨d, out, hd, _⟩ := assertion_parts (q := s.v.pin) h4 (by omega) hh
      (by rw [al]; exact fun _ h => nomatch h) (fun pr => by rw [h3.eq]; rfl)
    exact ⟨g, c, _, _, _, d, out, rfl, b.past, hd⟩

end
end Verif.Ctap
