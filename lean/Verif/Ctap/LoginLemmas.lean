import Verif.Ctap.LiveLemmas

/-!
# When assertions succeed
-/
namespace Verif.Ctap
set_option linter.unusedSectionVars false
variable [Dev]

/-! ## The invariant -/

/-- Stored credentials are valid and come with master keys, and master keys have the right length. -/
def Keyed (s : St) : Prop :=
  CredsOk s.p.creds ∧ (s.p.creds = [] ∨ s.p.master ≠ none) ∧ ∀ x, s.p.master = some x → x.length = 128

instance : SEnv Keyed := ⟨fun _ _ _ _ h => h⟩
instance (P : Oracle → Prop) : SOra P Keyed := ⟨fun _ _ _ h => h⟩
stable_instances Keyed under SMinPin SRpIds SForce SEp SAlwaysUv SLargeBlob SPin SRetries STok SMis SKeys SU2f
  SSp SLb SPresence SCompare SIssued SConsumed SU2fPrompt SU2fConsume SU2fTouch SCounterEv SBoot SCounter
instance : SMaster Keyed := ⟨fun s x h => ⟨h.1, .inr (by simp), fun y hy => by cases hy; exact x.2.1⟩⟩
instance : SErase Keyed := ⟨fun s h => by
  have : (s.p.clear NUM_PERSISTENT_KEYS).creds = [] := by
    simp only [Persist.clear, List.filter_eq_nil_iff, decide_eq_true_eq]
    intro e he hlt
    have := (h.1.range e he).1
    simp only [NUM_PERSISTENT_KEYS, CREDENTIALS_START] at *
    omega
  exact ⟨by show CredsOk (s.p.clear NUM_PERSISTENT_KEYS).creds; rw [this]; exact ⟨by simp, by simp, by simp⟩, .inl this,
    fun y hy => by cases hy⟩⟩

theorem keyed_write {f : Persist → Persist} {s : St} (h1 : Keyed s) (h2 : CredsOk (f s.p).creds) (h3 : s.p.master ≠ none)
    (h4 : (f s.p).master = s.p.master) : Keyed (writeP f [] s).2 := by
  rcases writeP_snd f [] s with h | h <;> rw [h]
  · exact h1
  · exact ⟨h2, .inr (by show (f s.p).master ≠ none; rw [h4]; exact h3), fun x hx => h1.2.2 x (h4 ▸ hx)⟩

instance (c : Cred) : Pres Keyed (storeCredential c) := by
  unfold storeCredential
  refine Pres.bind' inferInstance fun s l s1 hs hl hs1 => ?_
  obtain ⟨hp, _, _, _, _, _, he⟩ := iterCredentials_ok hl
  have hm1 : s1.p.master ≠ none := by rw [he]; simp
  have hl1 : l.Perm s1.p.creds := by rw [he]; exact hp
  refine bind_snd ((inferInstance : Pres Keyed (liftE _)).out _ hs1) fun k s2 h2 => ?_
  rw [liftE_ok] at h2
  obtain ⟨h2, rfl⟩ := h2
  refine bind_snd ((inferInstance : Pres Keyed getMasterKeys).out _ hs1) fun mk s3 h3 => ?_
  have k3 := keepCreds h3
  have hs3 : Keyed s3 := pres_of_ok h3 hs1
  have hm3 : s3.p.master ≠ none := by obtain ⟨_, a6, _⟩ := getMasterKeys_ok h3; rw [a6]; simp
  refine bind_snd ((inferInstance : Pres Keyed (rng 16)).out _ hs3) fun b s4 h4 => ?_
  have k4 := keepCreds h4
  have hs4 : Keyed s4 := pres_of_ok h4 hs3
  have hm4 : s4.p.master ≠ none := by obtain ⟨_, rfl⟩ := rng_ok h4; exact hm3
  refine keyed_write hs4 ?_ hm4 rfl
  obtain ⟨r1, r2, hc⟩ := chooseSlot_ok h2
  refine CredsOk.put hs4.1 ⟨r1, r2⟩ fun e he hse => ?_
  rw [k4, k3] at he
  have he : e ∈ l := hl1.symm.mem_iff.1 he
  rcases hc with ⟨c', _, _, h5⟩ | ⟨h5, _⟩
  · exact h5 e he hse
  · exact absurd hse (h5 e he)

instance (id : Bytes) : Pres Keyed (deleteCredential id) := by
  unfold deleteCredential
  refine Pres.bind' inferInstance fun s x s1 hs hx hs1 => ?_
  obtain ⟨hf, _, _, _, _, _, he⟩ := findItem_ok hx
  exact keyed_write hs1 (CredsOk.filter hs1.1 _) (by rw [he]; simp) rfl

instance (id : Bytes) (a b c : Option Bytes) : Pres Keyed (updateCredential id a b c) := by
  unfold updateCredential
  refine Pres.bind' inferInstance fun s x s1 hs hx hs1 => ?_
  obtain ⟨hf, _, _, _, _, _, he⟩ := findItem_ok hx
  have hm1 : s1.p.master ≠ none := by rw [he]; simp
  have hmem : x ∈ s1.p.creds := by rw [he]; exact (findItem_mem hf).1
  dsimp only
  refine bind_snd ((inferInstance : Pres Keyed getMasterKeys).out _ hs1) fun mk s3 h3 => ?_
  have k3 := keepCreds h3
  have hs3 : Keyed s3 := pres_of_ok h3 hs1
  have hm3 : s3.p.master ≠ none := by obtain ⟨_, a6, _⟩ := getMasterKeys_ok h3; rw [a6]; simp
  refine bind_snd ((inferInstance : Pres Keyed (rng 16)).out _ hs3) fun b s4 h4 => ?_
  have k4 := keepCreds h4
  have hs4 : Keyed s4 := pres_of_ok h4 hs3
  have hm4 : s4.p.master ≠ none := by obtain ⟨_, rfl⟩ := rng_ok h4; exact hm3
  have hmem4 : x ∈ s4.p.creds := by rw [k4, k3]; exact hmem
  refine keyed_write hs4 ?_ hm4 rfl
  refine CredsOk.put hs4.1 (CredsOk.range hs4.1 x hmem4) fun e he' hse => ?_
  exact congrArg (·.1) (CredsOk.uniq hs4.1 he' hmem4 hse)

instance (a : McParams) (sk : Bytes) (l : Option Bytes) : Pres Keyed (mcCreate a sk l) := by
  unfold mcCreate; pres
instance (a : McParams) (b : Bool) : Pres Keyed (mcFinish a b) := by unfold mcFinish; pres
instance (a : McParams) : Pres Keyed (makeCredential a) := by unfold makeCredential; pres
instance (a : CmSubParams) : Pres Keyed (cmDelete a) := by unfold cmDelete; pres
instance (a : CmSubParams) : Pres Keyed (cmUpdate a) := by unfold cmUpdate; pres
instance (a : CmParams) (ch : Channel) : Pres Keyed (cmDispatch a ch) := by unfold cmDispatch; pres
instance (a : CmParams) (ch : Channel) : Pres Keyed (credentialManagement a ch) := by
  unfold credentialManagement; pres

step_instances Keyed

theorem keyed_reach {P : Oracle → Prop} {b : Bool} {s : St} (h : Reach P b s) : Keyed s :=
  reach_inv (I := Keyed) h fun _ _ => ⟨⟨by simp, by simp, by simp⟩, .inl rfl, fun x h => by cases h⟩

theorem Keyed.smooth {s : St} (h : Keyed s) (ho : s.env.o.Calm) : Smooth s := ⟨ho, h.2.2⟩

step_instances Smooth

/-! ## Finding credentials -/

variable {s s' : St}

theorem ok_find {rp id : Bytes} (hs : Smooth s) (hu : (s.stored.filter fun c => c.id == id).length ≤ 1) :
    Ok (findCredential rp id) s := by
  unfold findCredential
  refine ok_bind (Go.out _ hs) fun l s1 h1 => ?_
  obtain ⟨hp, _⟩ := iterCredentials_ok h1
  have hn : (l.filter fun e => e.2.id == id).length ≤ 1 := by
    rw [(hp.filter _).length_eq]
    have : (s.stored.filter fun c => c.id == id).length = (s.p.creds.filter fun e => e.2.id == id).length := by
      simp [St.stored, List.filter_map, Function.comp_def]
    omega
  cases hf : l.filter (fun e => e.2.id == id) with
  | nil => exact ok_pure _ _
  | cons x t =>
    cases t with
    | nil => exact ok_pure _ _
    | cons y t => rw [hf] at hn; simp at hn

theorem ok_unwrap {id r mk : Bytes} (hs : Smooth s) (hm : s.p.master = some mk)
    (hf : Tagged mk id → ∃ w h, Opens mk id h w) : Ok (unwrapCredential id r) s := by
  unfold unwrapCredential
  refine ok_mapErr ?_
  split
  · exact ok_pure _ _
  rename_i hl
  refine ok_bind (Go.out _ hs) fun mk' s1 h1 => ?_
  obtain rfl : mk' = mk := by
    obtain ⟨_, _, _, _, _, h⟩ := getMasterKeys_ok h1
    rcases h with h | h <;> rw [hm] at h <;> cases h; rfl
  dsimp only
  split
  · exact ok_pure _ _
  rename_i hh
  split
  · exact ok_pure _ _
  rename_i hv
  have hv' : id.headD 0 = 1 ∧ id.length = 241 := by
    constructor
    · exact Decidable.byContradiction fun h => hv (.inl h)
    · exact Decidable.byContradiction fun h => hv (.inr h)
  have e : id.length - 32 = 209 := by omega
  rw [e] at hh ⊢
  obtain ⟨w, h, ho⟩ := hf ⟨hv'.2, (Decidable.byContradiction fun h => hh fun h' => h h'.symm)⟩
  have hc : decryptCredId (encKey mk') (encKey mk') ((id.take 209).drop 1) = .ok (some w) := ho.content
  refine ok_bind (ok_liftE hc) fun c s2 h2 => ?_
  rw [liftE_ok, hc] at h2
  obtain ⟨h2, rfl⟩ := h2
  cases h2
  dsimp only
  split <;> exact ok_pure _ _

theorem proper_congr {id : Bytes} (hc : s'.p.creds = s.p.creds) (hm : s'.p.master = s.p.master) (h : s.Proper id) : s'.Proper id := by
  unfold St.Proper St.stored at *; rw [hc, hm]; exact h

/-- The ids before the one that is chosen. -/
theorem ok_allowList {rp mk : Bytes} {uv : Bool} {d : Descriptor} {post : List Descriptor} {c : Cred} : ∀ {pre : List Descriptor} {s : St},
    Smooth s → s.p.master = some mk → (∀ d' ∈ pre, s.Proper d'.id) → s.Proper d.id → Yields s.stored mk rp d.id uv c →
    Ok (anyFromAllowList rp uv (pre ++ d :: post)) s
  | [], s, hs, hm, _, hd, hy => by
    show Ok (anyFromAllowList rp uv (d :: post)) s
    unfold anyFromAllowList
    refine ok_bind (ok_find hs hd.1) fun o s1 h1 => ?_
    obtain ⟨mk', hk, ho⟩ := findCredential_spec h1
    have hs1 := smooth_of h1 hs
    have hm1 := keepMaster h1 hm
    split
    · exact ok_pure _ _
    rename_i hf
    refine ok_bind (ok_unwrap hs1 hm1 (hd.2 mk hm)) fun w s2 h2 => ?_
    rcases hy with ⟨h3, h4⟩ | ⟨w', h3, h4, _⟩
    · rw [(ho c).2 h3, Option.filter_some, if_pos (listedOk_iff.2 h4)] at hf
      cases hf
    · obtain ⟨_, h5⟩ := unwrap_spec h2 hm1 (hs.2 _ hm)
      rw [opens_iff.2 h3] at h5
      cases h5
      simp only [Option.filter_some, listedOk_iff.2 h4, if_true]
      exact ok_pure _ _
  | d' :: pre, s, hs, hm, hp, hd, hy => by
    show Ok (anyFromAllowList rp uv (d' :: (pre ++ d :: post))) s
    unfold anyFromAllowList
    have hd' := hp d' (List.mem_cons_self ..)
    refine ok_bind (ok_find hs hd'.1) fun o s1 h1 => ?_
    have hs1 := smooth_of h1 hs
    have hm1 := keepMaster h1 hm
    have hc1 : s1.p.creds = s.p.creds := keepCreds h1
    split
    · exact ok_pure _ _
    refine ok_bind (ok_unwrap hs1 hm1 (hd'.2 mk hm)) fun w s2 h2 => ?_
    have hs2 := smooth_of h2 hs1
    have hm2 := keepMaster h2 hm1
    have hc2 : s2.p.creds = s.p.creds := (keepCreds h2).trans hc1
    split
    · exact ok_pure _ _
    have hm3 : s2.p.master = s.p.master := by rw [hm2, hm]
    refine ok_allowList (c := c) hs2 hm2 (fun d'' h => proper_congr hc2 hm3 (hp d'' (List.mem_cons_of_mem _ h))) (proper_congr hc2 hm3 hd) ?_
    unfold St.stored at *; rw [hc2]; exact hy

/-! ## Authorisation -/

theorem verifyMac_ok {pr : Proto} {key msg : Bytes} : verifyMac pr key msg (PinSpec.tag pr key msg) = .ok () := by
  cases pr <;> simp [verifyMac, PinSpec.tag, Dev.hmac_len]

theorem tag_ne_nil {pr : Proto} {key msg : Bytes} : PinSpec.tag pr key msg ≠ [] := by
  intro h
  have := congrArg List.length h
  cases pr <;> simp [PinSpec.tag, Dev.hmac_len] at this

theorem ok_precheck {param : Option Bytes} {proto : Option Proto} (h : ∀ t, param = some t → t ≠ [] ∧ proto.isSome) :
    Ok (authPrecheck param proto) s := by
  cases param with
  | none => exact ok_pure _ _
  | some t =>
    obtain ⟨h1, h2⟩ := h t rfl
    cases t with
    | nil => exact absurd rfl h1
    | cons x l =>
      obtain ⟨pr, rfl⟩ := Option.isSome_iff_exists.1 h2
      exact ok_bind (ok_req rfl) fun _ _ _ => ok_pure _ _

theorem ok_checkToken {perm : UInt8} {rp cdh : Bytes} {pr : Proto} (hs : Smooth s) (h1 : s.p.pin.isSome)
    (h2 : s.v.pin.tok.inUse = true) (h3 : s.v.pin.tok.userVerified = true) (h4 : perm &&& s.v.pin.tok.permissions ≠ 0)
    (h5 : s.v.pin.tok.rpId = none ∨ s.v.pin.tok.rpId = some rp) :
    Ok (checkTokenFor perm rp cdh (PinSpec.tag pr (s.v.pin.proto pr).token cdh) (some pr)) s := by
  unfold checkTokenFor
  refine ok_bind (Go.out _ hs) fun o s1 e1 => ?_
  obtain ⟨rfl, rfl⟩ := pinHash_ok e1
  refine ok_bind (ok_guard (by simpa using h1)) fun _ s2 e2 => ?_
  rw [guardE_ok] at e2
  obtain ⟨_, rfl⟩ := e2
  refine ok_bind (ok_req rfl) fun _ s2 e2 => ?_
  rw [req_ok] at e2
  obtain ⟨e2, rfl⟩ := e2
  cases e2
  refine ok_bind (s := { s with env := s.env.next }) ?_ fun _ s3 e3 => ?_
  · unfold verifyToken
    refine ok_bind ⟨_, _, rfl⟩ fun v s2 e2 => ?_
    rw [getV_ok] at e2
    obtain ⟨rfl, rfl⟩ := e2
    refine ok_bind (ok_guard h2) fun _ s2 e2 => ?_
    rw [guardE_ok] at e2
    obtain ⟨_, rfl⟩ := e2
    exact ok_liftE verifyMac_ok
  obtain ⟨rfl, _⟩ := verifyToken_ok e3
  refine ok_bind (s := { s with env := s.env.next }) ?_ fun _ s3 e3 => ?_
  · exact ok_bind ⟨_, _, rfl⟩ fun v s2 e2 => by
      rw [getV_ok] at e2
      obtain ⟨rfl, rfl⟩ := e2
      exact ok_guard (by simpa [TokenState.hasPermission] using h4)
  obtain ⟨rfl, _⟩ := hasPermission_ok e3
  refine ok_bind (s := { s with env := s.env.next }) ?_ fun _ s3 e3 => ?_
  · exact ok_bind ⟨_, _, rfl⟩ fun v s2 e2 => by
      rw [getV_ok] at e2
      obtain ⟨rfl, rfl⟩ := e2
      exact ok_guard (by simp [h2, h3])
  have e3' : s3 = { s with env := s.env.next } := by
    simp only [checkUserVerified, bind_ok, getV_ok, guardE_ok] at e3
    obtain ⟨_, _, ⟨_, rfl⟩, _, rfl⟩ := e3; rfl
  subst e3'
  exact ok_bind ⟨_, _, rfl⟩ fun v s2 e2 => by
    rw [getV_ok] at e2
    obtain ⟨rfl, rfl⟩ := e2
    dsimp only
    rcases h5 with h5 | h5
    · simp only [h5, Option.isNone_none, if_true]; exact ⟨_, _, rfl⟩
    · simp only [h5, Option.isNone_some, Bool.false_eq_true, if_false]; exact ok_guard (by simp)

/-! ## The response -/

theorem ok_sharedSecret {pr : Proto} {k : CoseKey} {z : Bytes} (hk : k.IsEcdh) (h : Dev.ecdh (s.v.pin.proto pr).sk k.x k.y = some z) :
    getSharedSecret pr k s = (.ok (SharedSecret.new pr z), s) := by
  have : (s.v.pin.proto pr).decapsulate pr k = .ok (SharedSecret.new pr z) := by
    unfold PinProtocol.decapsulate CoseKey.ecdhCoordinates
    rw [if_neg (by rcases hk.alg with h | h <;> simp [h]), if_neg (by simp [hk.kty, hk.crv])]
    simp only [h]
  simp only [getSharedSecret, bind_def, M.bind, getV, this, liftE]; rfl

theorem decrypt_of_spec {pr : Proto} {z ct pt : Bytes} (h : PinSpec.decrypt pr z ct = some pt) :
    (SharedSecret.new pr z).decrypt ct = .ok pt := by
  cases pr <;> simp only [SharedSecret.new, SharedSecret.decrypt, aesDecrypt, PinSpec.decrypt, PinSpec.aesKey,
      Proto.embedsIv] at h ⊢ <;> split at h <;> simp_all

theorem verify_of_spec {pr : Proto} {z msg : Bytes} :
    (SharedSecret.new pr z).verify msg (PinSpec.tag pr (PinSpec.macKey pr z) msg) = .ok () := by
  cases pr <;> exact verifyMac_ok

theorem ok_hmacSecret {h : HmacSecretInput} {r : Bytes} (hs : Smooth s) (hh : h.Honest s.v.pin) : Ok (processHmacSecret h r) s := by
  obtain ⟨hk, z, salts, h1, h2, h3, h4⟩ := hh
  unfold processHmacSecret
  have e1 := ok_sharedSecret hk h1
  refine ok_bind ⟨_, _, e1⟩ fun ss s1 e => ?_
  rw [e1] at e
  cases e
  refine ok_bind (ok_liftE (by rw [h2]; exact verify_of_spec)) fun _ s1 e => ?_
  rw [liftE_ok] at e
  obtain ⟨_, rfl⟩ := e
  refine ok_bind (ok_liftE (decrypt_of_spec h3)) fun ss s1 e => ?_
  rw [liftE_ok, decrypt_of_spec h3] at e
  obtain ⟨e, rfl⟩ := e
  cases e
  refine ok_bind (ok_guard (by simpa using h4)) fun _ s1 e => ?_
  rw [guardE_ok] at e
  obtain ⟨_, rfl⟩ := e
  refine ok_encrypt hs ?_
  split <;> simp [Dev.hmac_len]

/-- The keys of the two protocols. -/
def KeysAre (a b : PinProtocol) (s : St) : Prop := s.v.pin.p1 = a ∧ s.v.pin.p2 = b
section
variable (a b : PinProtocol)
instance : SEnv (KeysAre a b) := ⟨fun _ _ _ _ h => h⟩
stable_instances (KeysAre a b) under SMaster SCreds SMinPin SRpIds SForce SEp SAlwaysUv SLargeBlob STok SMis SU2f SSp
  SLb SPin SRetries SPresence SCompare SIssued SConsumed SU2fPrompt SU2fConsume SU2fTouch SCounterEv SCounter SErase
end

theorem keepKeys {m : M α} {r : Res α} (h : m s = (r, s')) [hp : Pres (KeysAre s.v.pin.p1 s.v.pin.p2) m] (pr : Proto) :
    s'.v.pin.proto pr = s.v.pin.proto pr := by
  have := hp.out s ⟨rfl, rfl⟩
  rw [h] at this
  cases pr
  · exact this.1
  · exact this.2

theorem honest_congr {h : HmacSecretInput} {c c' : ClientPin} (e : ∀ pr, c'.proto pr = c.proto pr) (hh : h.Honest c) : h.Honest c' := by
  unfold HmacSecretInput.Honest at *; rw [e]; exact hh

instance (sk : Bytes) (b : Bool) : Go (generateCredRandom sk b) := by unfold generateCredRandom; go

theorem ok_extOutput {c : Cred} {i : AssertionInput} (hs : Smooth s) (hh : ∀ h, i.ext.hmacSecret = some h → h.Honest s.v.pin) :
    Ok (gaExtOutput c i) s := by
  unfold gaExtOutput
  split
  · refine ok_bind ?_ fun o s1 _ => ?_
    · unfold gaHmacSecret
      split
      · exact ok_pure _ _
      · rename_i h hi
        refine ok_bind (Go.out _ hs) fun r s1 h1 => ?_
        have hs1 := smooth_of h1 hs
        refine ok_bind (ok_hmacSecret hs1 (honest_congr (keepKeys h1) (hh h hi))) fun o s2 _ => ok_pure _ _
    · obtain ⟨v, hv⟩ : ∃ v, cborMapOptions [(.text (b! "credBlob"), if i.ext.credBlob then some (.bytes (c.credBlob.getD [])) else none),
        (.text (b! "hmac-secret"), o.map .bytes)] = some v := mapOk (by keys)
      have hd : v.depth ≤ 1 := mapOptions_depth (n := 0) hv (by entries)
      obtain ⟨b, hb⟩ := cborWrite_ok (v := v) (by omega)
      refine ⟨b, s1, ?_⟩
      simp only [hv, cborWriteM, hb]; rfl
  · exact ok_pure _ _

theorem ok_response {c : Cred} {i : AssertionInput} {n : Option Nat} (hs : Smooth s)
    (hh : ∀ h, i.ext.hmacSecret = some h → h.Honest s.v.pin) (hk : CanSign c.sk) :
    Ok (assertionResponse c i n) s := by
  unfold assertionResponse
  refine ok_bind (ok_extOutput hs hh) fun ext s1 _ => ?_
  obtain ⟨sig, h⟩ := Option.isSome_iff_exists.1 (hk (i.authData ++ ext ++ i.clientDataHash))
  exact ok_bind (ok_liftE (a := sig) (by simp only [signEncode, h])) fun _ _ _ => ok_pure _ _

/-! ## The command -/

theorem ok_gaAuth {a : GaParams} (hs : Smooth s) (h1 : a.authParam = none → a.options.uv = false ∧ (a.options.up = true → s.p.uvRequired = false))
    (h2 : ∀ t, a.authParam = some t → ∃ pr, a.authProto = some pr ∧ t = PinSpec.tag pr (s.v.pin.proto pr).token a.clientDataHash ∧
      s.p.pin.isSome ∧ s.v.pin.tok.inUse = true ∧ s.v.pin.tok.userVerified = true ∧ 0x02 &&& s.v.pin.tok.permissions ≠ 0 ∧
      (s.v.pin.tok.rpId = none ∨ s.v.pin.tok.rpId = some a.rpId)) : Ok (gaAuth a) s := by
  unfold gaAuth
  cases hp : a.authParam with
  | some t =>
    obtain ⟨pr, e1, rfl, k1, k2, k3, k4, k5⟩ := h2 t hp
    rw [e1]
    exact ok_checkToken hs k1 k2 k3 k4 k5
  | none =>
    obtain ⟨k1, k2⟩ := h1 hp
    unfold gaWithoutParam
    refine ok_bind (ok_guard (by simp [k1])) fun _ s1 e => ?_
    rw [guardE_ok] at e
    obtain ⟨_, rfl⟩ := e
    refine ok_when fun hup => ok_bind (Go.out _ hs) fun b s1 e => ok_guard ?_
    have := hasAlwaysUv_ok e
    rw [this.1, k2 hup]; rfl

theorem ok_gaPresence {a : GaParams} (hs : Smooth s) (hc : a.options.up = true → s.env.o.Confirms) : Ok (gaPresence a) s := by
  unfold gaPresence
  refine ok_when fun hup => ok_bind (ok_presence hs (hc hup)) fun _ s1 h => ?_
  exact Go.out _ (smooth_of h hs)

theorem ok_getAssertion {a : GaParams} {ch : Channel} (hs : Smooth s)
    (h0 : ∀ t, a.authParam = some t → t ≠ [] ∧ a.authProto.isSome)
    (h1 : Ok (gaAuth a) s) (h2 : ∀ s1, s1.p = s.p → Smooth s1 → Ok (gaFindCredential a) s1 ∧
      ∀ c rest s2, gaFindCredential a s1 = (.ok (c, rest), s2) → ∃ c', c = some c' ∧ CanSign c'.sk)
    (h3 : a.options.up = true → s.env.o.Confirms) (h4 : ∀ h, a.ext.hmacSecret = some h → a.options.up = true ∧ h.Honest s.v.pin) :
    Ok (getAssertion a ch) s := by
  unfold getAssertion
  refine ok_bind (ok_precheck h0) fun _ s1 e1 => ?_
  obtain ⟨e1, _⟩ := authPrecheck_ok e1
  subst s1
  refine ok_bind (ok_guard ?_) fun _ s1 e1 => ?_
  · cases hh : a.ext.hmacSecret with
    | none => rfl
    | some h => simp [(h4 h hh).1]
  rw [guardE_ok] at e1
  obtain ⟨_, e1⟩ := e1
  subst s1
  refine ok_bind h1 fun _ s1 e1 => ?_
  have hs1 := smooth_of e1 hs
  obtain ⟨g1, g2⟩ := h2 s1 (keepP e1) hs1
  refine ok_bind g1 fun x s2 e2 => ?_
  obtain ⟨c, rest⟩ := x
  have hs2 := smooth_of e2 hs1
  obtain ⟨c, rfl, hk⟩ := g2 _ _ _ e2
  dsimp only
  refine ok_bind (ok_req rfl) fun _ s2' e => ?_
  rw [req_ok] at e
  obtain ⟨e, e'⟩ := e
  subst s2'
  cases e
  have ho2 : s2.env.o = s.env.o := ((keepEnv e2).2).trans (keepEnv e1).2
  refine ok_bind (ok_gaPresence hs2 (by rw [ho2]; exact h3)) fun _ s3 e3 => ?_
  have hs3 := smooth_of e3 hs2
  refine ok_bind (Go.out _ hs3) fun _ s4 e4 => ?_
  have hs4 := smooth_of e4 hs3
  refine ok_bind (Go.out _ hs4) fun ad s5 e5 => ?_
  have hs5 := smooth_of e5 hs4
  refine ok_bind (Go.out _ hs5) fun n s6 e6 => ?_
  have hs6 := smooth_of e6 hs5
  refine ok_bind (ok_response hs6 (fun h hh => ?_) hk) fun _ _ _ => ok_pure _ _
  refine honest_congr (fun pr => ?_) (h4 h hh).2
  rw [keepKeys e6, keepKeys e5, keepKeys e4, keepKeys e3, keepKeys e2, keepKeys e1]

/-- A command that succeeds is answered. -/
theorem answered_state {cmd : Command} {ch : Channel} {msg : Bytes} (hm : Command.deserialize msg = .ok cmd) (hs : Smooth s)
    (h : Ok (processParsed cmd ch) s) :
    ∃ r s1 b s2, processParsed cmd ch s = (.ok r, s1) ∧ r.SentAs b ∧ stepM (.ctap2 ch msg) s = (.ok (.ctap2 b), s2) ∧
      s2.p = s1.p ∧ s2.v = s1.v ∧ s1.env.now ≤ s2.env.now := by
  obtain ⟨r, s1, h1⟩ := h
  have hs1 := smooth_of h1 hs
  obtain ⟨b, h2, h3⟩ : ∃ b, r.SentAs b ∧ ∀ t, encodeResponse r t = (.ok b, t) := by
    obtain ⟨o, ho, h⟩ := encodeResponse_eq r
    unfold Response.SentAs
    rw [ho]
    cases o with
    | none => exact ⟨_, rfl, h⟩
    | some v =>
      obtain ⟨e, he, h⟩ := h
      refine ⟨_, ⟨e, ?_, rfl⟩, h⟩
      unfold cborWrite at he
      split at he
      · rename_i hw; rw [hw]; cases he; rfl
      · cases he
  obtain ⟨_, s2, h4⟩ : Ok (respond r) s1 := by
    refine ok_bind ⟨_, _, h3 s1⟩ fun b' t e => ?_
    rw [h3] at e
    cases e
    refine ok_bind (Go.out _ hs1) fun _ t e => ?_
    exact ok_bind (Go.out _ (smooth_of e hs1)) fun _ _ _ => ok_pure _ _
  have h5 := h4
  simp only [respond, bind_ok, pure_ok] at h5
  obtain ⟨b', t, e1, _, _, _, _, _, _, rfl, _⟩ := h5
  rw [h3] at e1
  cases e1
  refine ⟨r, s1, _, s2, h1, h2, ?_, keepP h4, keepV h4, (keepEnv h4).1⟩
  have : (processParsed cmd ch >>= respond) s = (.ok b, s2) := bind_ok.2 ⟨r, s1, h1, h4⟩
  simp only [stepM, processCommand, hm, bind_ok, pure_ok]
  refine ⟨b, s2, ?_, rfl, rfl⟩
  show errorByte (processParsed cmd ch >>= respond) s = _
  simp only [errorByte, this]

theorem answered {cmd : Command} {ch : Channel} {msg : Bytes} (hm : Command.deserialize msg = .ok cmd) (hs : Smooth s)
    (h : Ok (processParsed cmd ch) s) :
    ∃ r s1 b s2, processParsed cmd ch s = (.ok r, s1) ∧ r.SentAs b ∧ stepM (.ctap2 ch msg) s = (.ok (.ctap2 b), s2) := by
  obtain ⟨r, s1, b, s2, h1, h2, h3, _⟩ := answered_state hm hs h
  exact ⟨r, s1, b, s2, h1, h2, h3⟩

end Verif.Ctap
