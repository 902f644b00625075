import Verif.Ctap.PropsLive
import Verif.Ctap.RegLiveSpec

/-!
# When registrations succeed
-/
namespace Verif.Ctap
set_option linter.unusedSectionVars false
variable [Dev] {P : Oracle → Prop} {s s' : St}
open Verif.Cbor (Value)

/-! ## The choice of a slot -/

theorem slotFold_some {new : Cred} : ∀ {l : List (Nat × Cred)} {a : SlotScan},
    (∀ e ∈ l, CREDENTIALS_START ≤ e.1 ∧ e.1 < CREDENTIALS_START + Dev.maxResidentKeys) → (l.map (·.1)).Nodup →
    (∀ e ∈ l, e.1 ∉ a.used) → l.Pairwise (fun a b => ¬ a.2.sameAccount b.2) → (a.old.isSome → ∀ e ∈ l, ¬ e.2.sameAccount new) →
    ∃ b, l.foldlM (slotStep new) a = some b
  | [], a, _, _, _, _, _ => ⟨a, rfl⟩
  | x :: l, a, h1, h2, h3, h4, h5 => by
    have hx := h1 x (by simp)
    have hu := h3 x (by simp)
    rw [List.map_cons, List.nodup_cons] at h2
    rw [List.pairwise_cons] at h4
    have hd : ∀ e ∈ l, e.1 ∉ x.1 :: a.used := fun e he h => by
      rcases List.mem_cons.1 h with h | h
      · exact h2.1 (h ▸ List.mem_map_of_mem he)
      · exact h3 e (List.mem_cons_of_mem _ he) h
    simp only [List.foldlM_cons, Option.bind_eq_bind]
    have hstep : slotStep new a x = some { used := x.1 :: a.used, old := if x.2.sameAccount new then some x.1 else a.old } := by
      unfold slotStep
      rw [if_neg (by rintro (h | h | h); omega; omega; exact hu h)]
      by_cases hs : x.2.sameAccount new
      · have : a.old = none := by
          cases ho : a.old with
          | none => rfl
          | some k => exact absurd hs (h5 (by rw [ho]; rfl) x (by simp))
        have hs' : x.2.rpId = new.rpId ∧ x.2.userHandle = new.userHandle := hs
        rw [if_pos hs, if_pos hs', this]
      · have hs' : ¬ (x.2.rpId = new.rpId ∧ x.2.userHandle = new.userHandle) := hs
        rw [if_neg hs, if_neg hs']
    rw [hstep, Option.bind_some]
    refine slotFold_some (fun e he => h1 e (List.mem_cons_of_mem _ he)) h2.2 hd h4.2 ?_
    dsimp only
    split
    · rename_i hs
      intro _ e he hse
      exact h4.1 e he ⟨hs.1.trans hse.1.symm, hs.2.trans hse.2.symm⟩
    · exact fun h e he => h5 h e (List.mem_cons_of_mem _ he)

theorem firstFree_isSome {used : List Nat} (h : used.length < Dev.maxResidentKeys) : ∃ k, firstFree used = some k := by
  unfold firstFree
  cases hf : List.find? _ _ with
  | some k => exact ⟨k, rfl⟩
  | none =>
    exfalso
    rw [List.find?_eq_none] at hf
    have hsub : (List.range Dev.maxResidentKeys).map (CREDENTIALS_START + ·) ⊆ used := fun k hk => by simpa using hf k hk
    have hnd : ((List.range Dev.maxResidentKeys).map (CREDENTIALS_START + ·)).Nodup := by
      refine List.pairwise_map.2 (List.nodup_range.imp fun h e => h ?_)
      omega
    have := hnd.length_le_of_subset hsub
    simp at this
    omega

theorem chooseSlot_some {new : Cred} {l : List (Nat × Cred)} (hc : CredsOk l)
    (hr : l.length < Dev.maxResidentKeys ∨ ∃ e ∈ l, e.2.sameAccount new) : ∃ k, chooseSlot new l = .ok k := by
  obtain ⟨a, ha⟩ := slotFold_some (new := new) (a := { used := [], old := none }) hc.range hc.nodup (by simp) hc.account (by simp)
  obtain ⟨i1, i2, i3, i4, i5⟩ := slotFold ha
  unfold chooseSlot
  rw [ha]
  cases ho : a.old with
  | some k => exact ⟨k, by simp [ho]⟩
  | none =>
    have hl : l.length < Dev.maxResidentKeys := by
      rcases hr with h | ⟨e, he, h⟩
      · exact h
      · exact absurd h ((i3 ho).2 e he)
    simp only [List.length_nil, Nat.zero_add] at i2
    obtain ⟨k, hk⟩ := firstFree_isSome (used := a.used) (by omega)
    exact ⟨k, by simp only [ho]; rw [if_neg (by omega), hk]⟩

theorem ok_store {c : Cred} (hs : Smooth s) (hc : CredsOk s.p.creds)
    (hr : s.stored.length < Dev.maxResidentKeys ∨ ∃ e ∈ s.stored, e.sameAccount c) : Ok (storeCredential c) s := by
  unfold storeCredential
  refine ok_bind (Go.out _ hs) fun l s1 h1 => ?_
  have hs1 := smooth_of h1 hs
  obtain ⟨hp, _⟩ := iterCredentials_ok h1
  obtain ⟨k, hk⟩ := chooseSlot_some (new := c) (hc.perm hp) (by
    rw [hp.length_eq]
    rcases hr with h | ⟨e, he, h⟩
    · left; simpa [St.stored] using h
    · obtain ⟨x, hx, rfl⟩ := List.mem_map.1 he
      exact .inr ⟨x, hp.mem_iff.2 hx, h⟩)
  refine ok_bind (ok_liftE hk) fun k s2 h2 => ?_
  rw [liftE_ok] at h2
  obtain ⟨_, rfl⟩ := h2
  refine ok_bind (Go.out _ hs1) fun _ s3 h3 => ?_
  have hs3 := smooth_of h3 hs1
  refine ok_bind (Go.out _ hs3) fun _ s4 h4 => ?_
  exact Go.out _ (smooth_of h4 hs3)

theorem ok_wrap {c : CredSource} (hs : Smooth s) (hc : c.Fits) : Ok (wrapCredential c) s := by
  unfold wrapCredential
  refine ok_mapErr (ok_bind (Go.out _ hs) fun mk s1 h1 => ?_)
  have hs1 := smooth_of h1 hs
  refine ok_bind ?_ fun w s2 h2 => ?_
  · exact ok_bind (ok_encrypt hs1 (by rw [hc.1])) fun _ _ _ => ok_pure _ _
  have hs2 := smooth_of h2 hs1
  simp only [skToCbor, bind_ok, pure_ok] at h2
  obtain ⟨w, _, h2, rfl, rfl⟩ := h2
  obtain ⟨_, iv, hi, h2⟩ := aesEncrypt_ok h2
  have hw : w.length = 48 := by rw [(aesDecrypt_of_encrypt (hi rfl) h2).2.1, hc.1]
  rw [source_toCbor]
  obtain ⟨b, hb⟩ := cborWrite_ok (v := .map (sourceMap c w)) (by rw [sourceMap_depth]; omega)
  have hlen : b.length ≤ 158 ∧ b ≠ [] := by
    have hwf := sourceMap_wf c w hc (by omega)
    have := Verif.Cbor.C01_write_canonical w_le (.map (sourceMap c w)) (some 4) hwf (by rw [sourceMap_depth]; simp [Verif.Cbor.Depth.allows])
    unfold Verif.Cbor.writeNested at this
    unfold cborWrite at hb
    rw [this] at hb
    cases hb
    refine ⟨sourceMap_length c w hc hw, fun h => ?_⟩
    rw [Value.enc_eq] at h
    have := congrArg List.length h
    simp only [List.length_append, List.length_nil] at this
    have h1 : 0 < (Verif.Cbor.head (Value.map (sourceMap c w)).typeLabel (Value.map (sourceMap c w)).arg).length := by
      unfold Verif.Cbor.head
      repeat' split
      all_goals simp
    omega
  refine ok_bind (ok_liftE hb) fun b' s3 h3 => ?_
  rw [liftE_ok, hb] at h3
  obtain ⟨h3, rfl⟩ := h3
  cases h3
  obtain ⟨p, hp⟩ : ∃ p, addPadding b = some p := by
    unfold addPadding
    rw [if_neg (by rintro (h | h); exact hlen.2 h; omega)]
    exact ⟨_, rfl⟩
  refine ok_bind (ok_req hp) fun p' s4 h4 => ?_
  rw [req_ok, hp] at h4
  obtain ⟨h4, rfl⟩ := h4
  cases h4
  refine ok_bind (Go.out _ hs2) fun mk s5 h5 => ?_
  exact ok_bind (ok_encrypt (smooth_of h5 hs2) (by rw [(addPadding_ok hp).1])) fun _ _ _ => ok_pure _ _

/-! ## The exclude list -/

theorem ok_isExcluded {rp id : Bytes} {uv : Bool} (hs : Smooth s) (hu : s.Unknown rp id uv) : Ok (isExcluded rp id uv) s := by
  unfold isExcluded
  refine ok_bind (ok_find hs hu.once) fun o s1 h1 => ?_
  have hs1 := smooth_of h1 hs
  obtain ⟨mk, hk, ho⟩ := findCredential_spec h1
  split
  · exact ok_pure _ _
  · refine ok_bind (ok_unwrap hs1 hk.new fun ht => ?_) fun _ _ _ => ok_pure _ _
    obtain ⟨w, h, hw, _⟩ := hu.sealed mk hk.master ht
    exact ⟨w, h, hw⟩

theorem unknown_not {rp id mk : Bytes} {uv : Bool} (hm : s.p.master = none ∨ s.p.master = some mk) (hu : s.Unknown rp id uv) :
    ¬ Offered s.stored mk rp id uv := by
  rintro (h | ⟨w, h1, h2⟩)
  · exact hu.stored h
  · obtain ⟨w', h, h3, h4⟩ := hu.sealed mk hm h1.tagged
    have := h1.content
    rw [h3.content] at this
    cases this
    exact h4 ⟨h3.rp.symm.trans h1.rp, h2⟩

theorem unknown_step {rp id mk : Bytes} {uv : Bool} (hk : MkStep s mk s') (hu : s.Unknown rp id uv) : s'.Unknown rp id uv := by
  have hst : s'.stored = s.stored := by rw [hk.eq]; rfl
  refine ⟨by rw [hst]; exact hu.once, by rw [hst]; exact hu.stored, fun mk' hm' => ?_⟩
  rw [hk.new] at hm'
  rcases hm' with h | h <;> cases h
  exact hu.sealed mk hk.master

theorem ok_exclude {rp : Bytes} {uv : Bool} : ∀ {l : List Descriptor} {s : St}, Smooth s → (∀ d ∈ l, s.Unknown rp d.id uv) →
    Ok (checkExcludeList rp uv l) s
  | [], s, _, _ => ok_pure _ _
  | d :: l, s, hs, hu => by
    unfold checkExcludeList
    refine ok_bind (ok_isExcluded hs (hu d (by simp))) fun b s1 h1 => ?_
    obtain ⟨mk, hk, hb⟩ := isExcluded_spec h1
    have : b ≠ true := fun h => unknown_not hk.master (hu d (by simp)) (hb.1 h)
    rw [if_neg this]
    exact ok_exclude (smooth_of h1 hs) fun d' hd => unknown_step hk (hu d' (List.mem_cons_of_mem _ hd))

/-! ## The command -/

theorem ok_mcAuth {a : McParams} (hs : Smooth s)
    (h1 : a.authParam = none → a.options.uv = false ∧ s.p.uvRequired = false ∧ (a.options.rk = true → s.p.pin = none))
    (h2 : ∀ t, a.authParam = some t → ∃ pr, a.authProto = some pr ∧ t = PinSpec.tag pr (s.v.pin.proto pr).token a.clientDataHash ∧
      s.p.pin.isSome ∧ s.v.pin.tok.inUse = true ∧ s.v.pin.tok.userVerified = true ∧ 0x01 &&& s.v.pin.tok.permissions ≠ 0 ∧
      (s.v.pin.tok.rpId = none ∨ s.v.pin.tok.rpId = some a.rp.id)) : Ok (mcAuth a) s := by
  unfold mcAuth
  cases hp : a.authParam with
  | some t =>
    obtain ⟨pr, e1, rfl, k1, k2, k3, k4, k5⟩ := h2 t hp
    rw [e1]
    exact ok_checkToken hs k1 k2 k3 k4 k5
  | none =>
    obtain ⟨k1, k2, k3⟩ := h1 hp
    unfold mcWithoutParam
    refine ok_bind (ok_guard (by simp [k1])) fun _ s1 e => ?_
    rw [guardE_ok] at e
    obtain ⟨_, rfl⟩ := e
    refine ok_bind (Go.out _ hs) fun b s1 e => ?_
    have := hasAlwaysUv_ok e
    have hs1 := smooth_of e hs
    have hp1 : s1.p = s.p := keepP e
    refine ok_bind (ok_guard (by rw [this.1, k2]; rfl)) fun _ s2 e => ?_
    rw [guardE_ok] at e
    obtain ⟨_, rfl⟩ := e
    refine ok_when fun hrk => ok_bind (Go.out _ hs1) fun o s2 e => ok_guard ?_
    obtain ⟨rfl, rfl⟩ := pinHash_ok e
    simp [hp1, k3 hrk]

instance (b : Bool) : Go (mcMinPinOutput b) := by unfold mcMinPinOutput; go
instance (a : McParams) : Go (mcMinPin a) := by unfold mcMinPin; go
instance (a : McParams) : Go (mcLargeBlobKey a) := by unfold mcLargeBlobKey; go
instance : Go attestationGet := by unfold attestationGet; go

theorem ok_writeM {v : Value} (h : v.depth ≤ 4) : Ok (cborWriteM (some v)) s := by
  obtain ⟨b, hb⟩ := cborWrite_ok h
  exact ⟨b, s, by simp only [cborWriteM, hb]; rfl⟩

theorem ok_mcExt {a : McParams} {b : Bool} (hs : Smooth s) : Ok (mcExtOutput a b) s := by
  unfold mcExtOutput
  split
  · refine ok_bind (Go.out _ hs) fun len s1 _ => ?_
    obtain ⟨v, hv⟩ : ∃ v, cborMapOptions
      [(.text (b! "credBlob"), if a.ext.credBlob.isSome then some (cborBool (mcCredBlob a).isSome) else none),
       (.text (b! "credProtect"),
          if a.ext.credProtect.isSome then (mcPolicy a.ext.credProtect).map Policy.toCbor else none),
       (.text (b! "hmac-secret"), if a.ext.hmacSecret then some (cborBool true) else none),
       (.text (b! "minPinLength"), len.map .unsigned)] = some v := mapOk (by keys)
    have hd : v.depth ≤ 1 := by
      have h2 : OptDepth 0 (if a.ext.credProtect.isSome then (mcPolicy a.ext.credProtect).map Policy.toCbor else none) :=
        optDepth_ite (optDepth_map fun _ => by simp [Value.depth, Policy.toCbor]) (optDepth_none _)
      exact mapOptions_depth (n := 0) hv (by entries)
    rw [hv]
    exact ok_writeM (by omega)
  · exact ok_pure _ _

theorem ok_mcAuthData {a : McParams} {b : Bool} {id sk : Bytes} (hs : Smooth s) (hi : id.length ≤ 255) (hk : (Dev.ecdsaPub sk).isSome) :
    Ok (mcAuthData a b id sk) s := by
  unfold mcAuthData
  refine ok_bind (Go.out _ hs) fun base s1 h1 => ?_
  have hs1 := smooth_of h1 hs
  refine ok_bind (ok_guard (by simpa using hi)) fun _ s2 h2 => ?_
  rw [guardE_ok] at h2
  obtain ⟨_, rfl⟩ := h2
  obtain ⟨⟨x, y⟩, hxy⟩ := Option.isSome_iff_exists.1 hk
  refine ok_bind (ok_liftE (a := { x := x, y := y, alg := es256, kty := 2, crv := 1 }) (by simp only [pubKey, hxy])) fun pk s3 h3 => ?_
  rw [liftE_ok] at h3
  obtain ⟨_, rfl⟩ := h3
  refine ok_bind ?_ fun _ s4 h4 => ?_
  · obtain ⟨v, hv⟩ := CoseKey.toCbor_some pk
    rw [hv]
    exact ok_writeM (Nat.le_trans (CoseKey.depth pk hv) (by omega))
  refine ok_bind (ok_mcExt (smooth_of h4 hs1)) fun _ _ _ => ok_pure _ _

theorem ok_mcSign {ep : Bool} {sk data : Bytes} (hs : Smooth s) (hk : CanSign sk)
    (ha : (ep || Dev.useBatchAttestation) = true → ∃ att, s.p.attestation = some att ∧ CanSign att.sk) : Ok (mcSign ep sk data) s := by
  unfold mcSign
  split
  · rename_i h
    obtain ⟨att, h1, h2⟩ := ha h
    refine ok_bind (Go.out _ hs) fun o s1 e => ?_
    obtain rfl : o = s.p.attestation := by
      simp only [attestationGet, mapErr_ok, bind_ok, pure_ok] at e
      obtain ⟨_, _, e, rfl, rfl⟩ := e
      obtain ⟨rfl, _⟩ := readP_ok e
      rfl
    refine ok_bind (ok_req h1) fun x s2 e => ?_
    rw [req_ok, h1] at e
    obtain ⟨e, rfl⟩ := e
    cases e
    obtain ⟨sig, hsig⟩ := Option.isSome_iff_exists.1 (h2 data)
    rw [hsig]
    exact ok_pure _ _
  · obtain ⟨sig, h⟩ := Option.isSome_iff_exists.1 (hk data)
    exact ok_bind (ok_liftE (a := sig) (by simp only [signEncode, h])) fun _ _ _ => ok_pure _ _

/-- The attestation key stays. -/
def AttIs (x : Option Attestation) (s : St) : Prop := s.p.attestation = x
section
variable (x : Option Attestation)
instance : SEnv (AttIs x) := ⟨fun _ _ _ _ h => h⟩
stable_instances (AttIs x) under SMaster SCreds SMinPin SRpIds SForce SEp SAlwaysUv SLargeBlob SPin SRetries STok SMis SKeys SU2f SSp SLb
  SPresence SCompare SIssued SConsumed SU2fPrompt SU2fConsume SU2fTouch SCounterEv SCounter
end

theorem keepAtt {m : M α} {r : Res α} (h : m s = (r, s')) [hp : Pres (AttIs s.p.attestation) m] : s'.p.attestation = s.p.attestation := by
  have := hp.out s rfl; rwa [h] at this

theorem ok_mcCreate {a : McParams} {sk : Bytes} {lbk : Option Bytes} (hs : Smooth s) (hc : CredsOk s.p.creds) (hk : sk.length = 32)
    (hr : a.options.rk = true → s.stored.length < Dev.maxResidentKeys ∨ ∃ c ∈ s.stored, c.rpId = a.rp.id ∧ c.userHandle = a.user.id) :
    Ok (mcCreate a sk lbk) s ∧ ∀ id s1, mcCreate a sk lbk s = (.ok id, s1) → id.length ≤ 255 := by
  have hfit : CredSource.Fits { sk := sk, rpIdHash := Dev.sha256 a.rp.id, policy := mcPolicy a.ext.credProtect, credBlob := mcCredBlob a } :=
    ⟨hk, Dev.sha256_len _, fun b hb => by
      have : b.length ≤ Dev.maxCredBlobLength := by
        simp only [mcCredBlob, Option.filter_eq_some_iff] at hb
        simpa using hb.2
      have := Dev.maxCredBlobLength_le
      omega⟩
  unfold mcCreate
  split
  · rename_i hrk
    constructor
    · refine ok_bind (Go.out _ hs) fun id s1 h1 => ?_
      have hs1 := smooth_of h1 hs
      have k1 := keepCreds h1
      refine ok_bind (Go.out _ hs1) fun ord s2 h2 => ?_
      have hs2 := smooth_of h2 hs1
      have k2 := keepCreds h2
      have hst : s2.stored = s.stored := by unfold St.stored; rw [k2, k1]
      refine ok_bind (ok_store hs2 (by rw [k2, k1]; exact hc) ?_) fun _ _ _ => ok_pure _ _
      rw [hst]
      rcases hr hrk with h | ⟨c, h1, h2, h3⟩
      · exact .inl h
      · exact .inr ⟨c, h1, h2, h3⟩
    · intro id s1 h
      simp only [bind_ok, pure_ok] at h
      obtain ⟨id', s2, h1, _, _, _, _, _, _, rfl, _⟩ := h
      rw [rng_length h1]; omega
  · constructor
    · exact ok_mapErr (ok_wrap hs hfit)
    · intro id s1 h
      rw [mapErr_ok] at h
      obtain ⟨_, _, _, _, _, _, h, _⟩ := wrap_ok h hfit
      omega

theorem ok_mcFinish {a : McParams} {ep : Bool} (hs : Smooth s) (hc : CredsOk s.p.creds) (hk : s.env.o.DrawsKeys)
    (ha : (ep || Dev.useBatchAttestation) = true → ∃ att, s.p.attestation = some att ∧ CanSign att.sk)
    (hr : a.options.rk = true → s.stored.length < Dev.maxResidentKeys ∨ ∃ c ∈ s.stored, c.rpId = a.rp.id ∧ c.userHandle = a.user.id) :
    Ok (mcFinish a ep) s := by
  unfold mcFinish
  refine ok_bind (Go.out _ hs) fun mp s1 h1 => ?_
  have hs1 := smooth_of h1 hs
  refine ok_bind (Go.out _ hs1) fun lbk s2 h2 => ?_
  have hs2 := smooth_of h2 hs1
  refine ok_bind (Go.out _ hs2) fun sk s3 h3 => ?_
  have hs3 := smooth_of h3 hs2
  have hc3 : s3.p.creds = s.p.creds := (keepCreds h3).trans ((keepCreds h2).trans (keepCreds h1))
  have ho2 : s2.env.o = s.env.o := (keepEnv h2).2.trans (keepEnv h1).2
  have hsk : IsKey sk := by
    obtain ⟨h, _⟩ := rng_ok h3
    rw [h]
    have := hk s2.env.k
    rw [← ho2] at this
    exact this
  have hst : s3.stored = s.stored := by unfold St.stored; rw [hc3]
  obtain ⟨g1, g2⟩ := ok_mcCreate (a := a) (sk := sk) (lbk := lbk) hs3 (by rw [hc3]; exact hc) (rng_length h3) (by rw [hst]; exact hr)
  refine ok_bind g1 fun id s4 h4 => ?_
  have hs4 := smooth_of h4 hs3
  refine ok_bind (ok_mcAuthData hs4 (g2 _ _ h4) hsk.1) fun ad s5 h5 => ?_
  have hs5 := smooth_of h5 hs4
  have hat : s5.p.attestation = s.p.attestation :=
    (keepAtt h5).trans ((keepAtt h4).trans ((keepAtt h3).trans ((keepAtt h2).trans (keepAtt h1))))
  exact ok_bind (ok_mcSign hs5 hsk.2 (by rw [hat]; exact ha)) fun _ _ _ => ok_pure _ _

theorem ok_enterprise {a : McParams} (hs : Smooth s)
    (he : ∀ n, a.enterprise = some n → (n = 1 ∨ n = 2) ∧ Dev.epMode.isSome ∧ s.p.enterprise = true) :
    Ok (mcEnterprise a) s ∧ ∀ ep s1, mcEnterprise a s = (.ok ep, s1) → ep = true → a.enterprise.isSome := by
  unfold mcEnterprise
  cases hn : a.enterprise with
  | none => exact ⟨ok_pure _ _, fun ep s1 h => by rw [pure_ok] at h; obtain ⟨rfl, _⟩ := h; intro h; cases h⟩
  | some n =>
    obtain ⟨h1, h2, h3⟩ := he n hn
    obtain ⟨mode, hm⟩ := Option.isSome_iff_exists.1 h2
    refine ⟨?_, fun _ _ _ _ => rfl⟩
    dsimp only
    refine ok_bind (ok_req hm) fun m s1 e => ?_
    rw [req_ok] at e
    obtain ⟨_, rfl⟩ := e
    refine ok_bind (Go.out _ hs) fun b s1 e => ?_
    obtain rfl : b = s.p.enterprise := by
      simp only [enterpriseAttestation, bind_ok, pure_ok] at e
      obtain ⟨_, _, e, rfl, rfl⟩ := e
      obtain ⟨rfl, _⟩ := readP_ok e
      rfl
    refine ok_bind (ok_guard h3) fun _ s2 e => ?_
    rw [guardE_ok] at e
    obtain ⟨_, rfl⟩ := e
    rcases h1 with rfl | rfl
    · exact ok_bind (ok_liftE (a := .vendorFacilitated) (by simp [EpMode.parse])) fun _ _ _ => ok_pure _ _
    · exact ok_bind (ok_liftE (a := .platformManaged) (by simp [EpMode.parse])) fun _ _ _ => ok_pure _ _

end Verif.Ctap
