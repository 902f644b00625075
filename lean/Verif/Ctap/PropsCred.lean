import Verif.Ctap.CredLemmas
import Verif.Ctap.CredSpec
import Verif.Ctap.PropsToken
import Verif.Ctap.PropsPolicy

/-!
# C24: accounts and capacity
-/
namespace Verif.Ctap
set_option linter.unusedSectionVars false
set_option maxRecDepth 100000

section
variable [Dev] {P : Oracle → Prop} {b : Bool} {s s' : St}

/-- **C24**, invariant: no two stored credentials are for the same account, and there are at most as many as configured. -/
theorem C24_unique_and_bounded (h : Reach P b s) :
    s.stored.Pairwise (fun c d => ¬ (c.rpId = d.rpId ∧ c.userHandle = d.userHandle)) ∧
      s.stored.length ≤ Dev.maxResidentKeys := by
  have := credsOk_reach h
  exact ⟨List.pairwise_map.2 this.account, by simpa [St.stored] using this.length⟩

theorem filter_key {l : List (Nat × Cred)} (h : CredsOk l) {k : Nat} {c : Cred}
    (hk : (∃ d, (k, d) ∈ l ∧ d.sameAccount c) ∨ ((∀ e ∈ l, ¬ e.2.sameAccount c) ∧ k ∉ l.map (·.1))) :
    (l.filter fun e => e.1 != k).map (·.2) = (l.map (·.2)).filter fun d => !d.isFor c.rpId c.userHandle := by
  rw [List.filter_map]
  congr 1
  apply List.filter_congr
  intro e he
  simp only [Function.comp, Cred.isFor]
  rw [Bool.eq_iff_iff]
  simp only [bne_iff_ne, ne_eq, Bool.not_eq_true', Bool.and_eq_false_iff, beq_eq_false_iff_ne]
  rcases hk with ⟨d, hd, hs⟩ | ⟨h1, h2⟩
  · constructor
    · intro hne
      by_cases h3 : e.2.rpId = c.rpId
      · right
        intro h4
        have := h.uniq he hd ⟨h3.trans hs.1.symm, h4.trans hs.2.symm⟩
        exact hne (by rw [this])
      · exact .inl h3
    · intro h3 h4
      have := h.key he hd h4
      subst this
      rcases h3 with h3 | h3
      · exact h3 hs.1
      · exact h3 hs.2
  · constructor
    · intro _
      by_cases h3 : e.2.rpId = c.rpId
      · exact .inr fun h4 => h1 e he ⟨h3, h4⟩
      · exact .inl h3
    · intro _ h4
      exact h2 (List.mem_map.2 ⟨e, he, h4⟩)

/-- All outcomes of storing a credential. -/
theorem storeCredential_tri {l : List (Nat × Cred)} (hl : CredsOk l) (c : Cred) :
    Tri (KeepCreds l) (storeCredential c)
      (fun _ s => Replaced c.rpId c.userHandle c (l.map (·.2)) s.stored ∧
        ((∃ d ∈ l.map (·.2), d.isFor c.rpId c.userHandle) ∨ l.length < Dev.maxResidentKeys))
      (fun s => s.p.creds = l ∨ Replaced c.rpId c.userHandle c (l.map (·.2)) s.stored ∧
        ((∃ d ∈ l.map (·.2), d.isFor c.rpId c.userHandle) ∨ l.length < Dev.maxResidentKeys)) := by
  unfold storeCredential
  have hc : c.isFor c.rpId c.userHandle = true := by simp [Cred.isFor]
  refine Tri.bind (Q := fun l' s => KeepCreds l s ∧ l'.Perm l) ?_ fun l' => ?_
  · refine Tri.of_pres inferInstance (fun _ h => .inl h) fun s l' s' hs hm hs' => ⟨hs', ?_⟩
    have := (iterCredentials_ok hm).1
    rwa [show s.p.creds = l from hs] at this
  refine Tri.bind (Q := fun k s => KeepCreds l s ∧ l'.Perm l ∧ chooseSlot c l' = .ok k)
    (Tri.liftE (fun _ h => .inl h.1) fun s k hk h => ⟨h.1, h.2, hk⟩) fun k => ?_
  have hE : SEnv (fun s => KeepCreds l s ∧ l'.Perm l ∧ chooseSlot c l' = .ok k) := ⟨fun _ _ _ _ h => h⟩
  have hM : SMaster (fun s => KeepCreds l s ∧ l'.Perm l ∧ chooseSlot c l' = .ok k) := ⟨fun _ _ h => h⟩
  refine Tri.bind ((Tri.ofPres (I := fun s => KeepCreds l s ∧ l'.Perm l ∧ chooseSlot c l' = .ok k) inferInstance).exc
    fun _ h => .inl h.1) fun _ => ?_
  refine Tri.bind ((Tri.ofPres (I := fun s => KeepCreds l s ∧ l'.Perm l ∧ chooseSlot c l' = .ok k) inferInstance).exc
    fun _ h => .inl h.1) fun _ => ?_
  have hQ : SEnv ((fun (_ : Unit) s => Replaced c.rpId c.userHandle c (l.map (·.2)) (St.stored s) ∧
        ((∃ d ∈ l.map (·.2), d.isFor c.rpId c.userHandle) ∨ l.length < Dev.maxResidentKeys)) ()) := ⟨fun _ _ _ _ h => h⟩
  refine Tri.writeP (fun _ h => .inl h.1) (fun s h => ?_) (fun _ h => .inr h)
  obtain ⟨h1, hp, hk⟩ := h
  obtain ⟨_, _, hcase⟩ := chooseSlot_ok hk
  have hcase' : (∃ d, (k, d) ∈ l ∧ d.sameAccount c) ∨ ((∀ e ∈ l, ¬ e.2.sameAccount c) ∧ k ∉ l.map (·.1)) := by
    rcases hcase with ⟨d, hd, hs, _⟩ | ⟨h2, h3, _⟩
    · exact .inl ⟨d, hp.mem_iff.1 hd, hs⟩
    · exact .inr ⟨fun e he => h2 e (hp.mem_iff.2 he), fun hm => h3 ((hp.map _).mem_iff.2 hm)⟩
  refine ⟨⟨hc, ?_⟩, ?_⟩
  · simp only [St.stored, Persist.putCred, List.map_cons, show s.p.creds = l from h1]
    rw [filter_key hl hcase']
  · rcases hcase with ⟨d, hd, hs, _⟩ | ⟨_, _, h4⟩
    · exact .inl ⟨d, List.mem_map.2 ⟨_, hp.mem_iff.1 hd, rfl⟩, by simp [Cred.isFor, hs.1, hs.2]⟩
    · exact .inr (by rwa [← hp.length_eq])

/-- What a registration does to the stored credentials: nothing, or (only if a discoverable credential is requested, and
only if the account exists or there is space) the credential of the account is replaced or a new one is added. -/
def RegEffect (a : McParams) (before after : List Cred) : Prop :=
  after = before ∨ (a.options.rk = true ∧ (∃ c, Replaced a.rp.id a.user.id c before after) ∧
    ((∃ d ∈ before, d.isFor a.rp.id a.user.id) ∨ before.length < Dev.maxResidentKeys))

/-- A discoverable credential with this id was created. -/
def Created (a : McParams) (before : List Cred) (id : Bytes) (after : List Cred) : Prop :=
  (∃ c, c.id = id ∧ Replaced a.rp.id a.user.id c before after) ∧
    ((∃ d ∈ before, d.isFor a.rp.id a.user.id) ∨ before.length < Dev.maxResidentKeys)

/-- The result of the creation step. -/
def CreateStep (a : McParams) (before : List Cred) (id : Bytes) (s : St) : Prop :=
  if a.options.rk then id.length = 32 ∧ Created a before id s.stored else s.stored = before

theorem CreateStep.effect {a : McParams} {before : List Cred} {id : Bytes} {s : St} (h : CreateStep a before id s) :
    RegEffect a before s.stored := by
  unfold CreateStep at h
  split at h
  · rename_i hr
    obtain ⟨_, ⟨c, _, h1⟩, h2⟩ := h
    exact .inr ⟨hr, ⟨c, h1⟩, h2⟩
  · exact .inl h

instance (a : McParams) (before : List Cred) (id : Bytes) : SEnv (CreateStep a before id) := ⟨fun _ _ _ _ h => h⟩

theorem mcCreate_tri {l : List (Nat × Cred)} (hl : CredsOk l) (a : McParams) (sk : Bytes) (lbk : Option Bytes) :
    Tri (KeepCreds l) (mcCreate a sk lbk) (CreateStep a (l.map (·.2))) (fun s => RegEffect a (l.map (·.2)) s.stored) := by
  have h0 : ∀ s, KeepCreds l s → RegEffect a (l.map (·.2)) s.stored := fun s h => .inl (by
    unfold St.stored; rw [show s.p.creds = l from h])
  unfold mcCreate
  by_cases hr : a.options.rk = true
  · simp only [hr, if_true]
    refine Tri.bind (Tri.rng h0) fun id => ?_
    have hE : SEnv (fun s => KeepCreds l s ∧ id.length = 32) := ⟨fun _ _ _ _ h => h⟩
    have hM : SMaster (fun s => KeepCreds l s ∧ id.length = 32) := ⟨fun _ _ h => h⟩
    refine Tri.bind ((Tri.ofPres (I := fun s => KeepCreds l s ∧ id.length = 32) inferInstance).exc
      fun _ h => h0 _ h.1) fun order => ?_
    by_cases hid : id.length = 32
    · refine Tri.bind ((storeCredential_tri hl _).conseq (fun _ h => h.1) (Q := fun _ s => CreateStep a (l.map (·.2)) id s)
        (fun _ s h => ?_) (fun s h => ?_)) fun _ => ?_
      · unfold CreateStep
        rw [if_pos hr]
        obtain ⟨h1, h2⟩ := h
        refine ⟨hid, ⟨_, rfl, h1⟩, ?_⟩
        rwa [List.length_map]
      · rcases h with h | ⟨h1, h2⟩
        · exact h0 s h
        · exact .inr ⟨hr, ⟨_, h1⟩, by rwa [List.length_map]⟩
      · exact Tri.pure fun _ h => h
    · exact fun s h => absurd h.2 hid
  · simp only [hr]
    refine Tri.mapErr ?_
    refine Tri.conseq (Tri.ofPres (I := KeepCreds l) inferInstance) (fun _ h => h) (fun _ s h => ?_) h0
    unfold CreateStep
    rw [if_neg hr]
    unfold St.stored
    rw [show s.p.creds = l from h]

theorem mcAuthData_ok {a : McParams} {m : Bool} {id sk ad : Bytes} {s s' : St} (h : mcAuthData a m id sk s = (.ok ad, s')) :
    credentialIdIn ad = id := by
  simp only [mcAuthData, generateAuthData, bind_ok, pure_ok, guardE_ok, liftE_ok] at h
  obtain ⟨base, s1, ⟨c, s2, _, rfl, rfl⟩, _, _, ⟨hl, rfl⟩, pk, _, ⟨_, rfl⟩, cose, s3, _, ext, s4, _, rfl, _⟩ := h
  have hl : id.length ≤ 0xFF := by simpa using hl
  have h1 : (Dev.sha256 a.rp.id ++ [mcFlags a.authParam.isSome (mcHasExt a m)] ++ Verif.Cbor.beBytes 4 c ++ Dev.aaguid).length = 53 := by
    simp [Dev.sha256_len, Dev.aaguid_len, Verif.Cbor.beBytes]
  generalize hpre : (Dev.sha256 a.rp.id ++ [mcFlags a.authParam.isSome (mcHasExt a m)] ++ Verif.Cbor.beBytes 4 c ++ Dev.aaguid) = pre at h1 ⊢
  have h2 : pre ++ [0x00, UInt8.ofNat id.length] ++ id ++ cose ++ ext =
      pre ++ ([0x00, UInt8.ofNat id.length] ++ (id ++ (cose ++ ext))) := by simp
  rw [h2]
  unfold credentialIdIn
  have h3 : (pre ++ ([0x00, UInt8.ofNat id.length] ++ (id ++ (cose ++ ext)))).drop 53 =
      [0x00, UInt8.ofNat id.length] ++ (id ++ (cose ++ ext)) := by
    rw [← h1, List.drop_left]
  have h4 : (pre ++ ([0x00, UInt8.ofNat id.length] ++ (id ++ (cose ++ ext)))).drop 55 = id ++ (cose ++ ext) := by
    rw [show 55 = 53 + 2 from rfl, ← List.drop_drop, h3]; rfl
  rw [h3, h4]
  have h5 : Verif.Cbor.beNat (([0x00, UInt8.ofNat id.length] ++ (id ++ (cose ++ ext))).take 2) = id.length := by
    simp [Verif.Cbor.beNat, UInt8.toNat_ofNat']
    omega
  rw [h5, List.take_left]

theorem makeCredential_tri {l : List (Nat × Cred)} (hl : CredsOk l) (a : McParams) :
    Tri (KeepCreds l) (makeCredential a)
      (fun r s => RegEffect a (l.map (·.2)) s.stored ∧ ∃ m, r = .makeCredential m ∧
        (a.options.rk = true → Created a (l.map (·.2)) (credentialIdIn m.authData) s.stored))
      (fun s => RegEffect a (l.map (·.2)) s.stored) := by
  have h0 : ∀ s, KeepCreds l s → RegEffect a (l.map (·.2)) s.stored := fun s h => .inl (by
    unfold St.stored; rw [show s.p.creds = l from h])
  have keep : ∀ {β : Type} {m : M β} (_ : Pres (KeepCreds l) m),
      Tri (KeepCreds l) m (fun _ => KeepCreds l) (fun s => RegEffect a (l.map (·.2)) s.stored) :=
    fun h => (Tri.ofPres h).exc h0
  unfold makeCredential
  refine Tri.bind (keep inferInstance) fun _ => ?_
  refine Tri.bind (keep inferInstance) fun _ => ?_
  refine Tri.bind (keep inferInstance) fun _ => ?_
  refine Tri.bind (keep inferInstance) fun _ => ?_
  refine Tri.bind (keep inferInstance) fun _ => ?_
  refine Tri.bind (keep inferInstance) fun _ => ?_
  refine Tri.bind (keep inferInstance) fun _ => ?_
  unfold mcFinish
  refine Tri.bind (keep inferInstance) fun mp => ?_
  refine Tri.bind (keep inferInstance) fun _ => ?_
  refine Tri.bind (keep inferInstance) fun sk => ?_
  refine Tri.bind (mcCreate_tri hl _ _ _) fun id => ?_
  refine Tri.bind (Q := fun ad s => CreateStep a (l.map (·.2)) id s ∧ credentialIdIn ad = id) ?_ fun ad => ?_
  · exact Tri.of_pres (P := CreateStep a (l.map (·.2)) id) (m := mcAuthData a mp id sk)
      (Q := fun ad s => CreateStep a (l.map (·.2)) id s ∧ credentialIdIn ad = id) inferInstance (fun _ h => h.effect)
      fun s _ s' hs hm hs' => ⟨hs', mcAuthData_ok hm⟩
  have hE : SEnv (fun s => CreateStep a (l.map (·.2)) id s ∧ credentialIdIn ad = id) := ⟨fun _ _ _ _ h => h⟩
  refine Tri.bind ((Tri.ofPres (I := fun s => CreateStep a (l.map (·.2)) id s ∧ credentialIdIn ad = id) inferInstance).exc
    fun _ h => h.1.effect) fun sig => ?_
  refine Tri.pure fun s h => ⟨h.1.effect, _, rfl, fun hr => ?_⟩
  have := h.1
  unfold CreateStep at this
  rw [if_pos hr] at this
  simp only [h.2]
  exact this.2

/-- **C24**, effect of a registration, whatever its outcome (refusal, error, power cut): the stored credentials are
unchanged, or the credential of this account is replaced; if there was none, there must have been space for it. -/
theorem C24_registration_effect {o : Oracle} {ch : Channel} {a : McParams} {r : Res Response} (h : Reach P true s)
    (hs : processParsed (.makeCredential a) ch (s.withOracle o) = (r, s')) : RegEffect a s.stored s'.stored := by
  have hl := credsOk_reach h
  rw [processParsed_eq] at hs
  cases ch with
  | vendor c =>
    simp only [channelCommand, vendorChannelCommand, fail, Prod.mk.injEq] at hs
    rw [← hs.2]
    exact .inl rfl
  | main c =>
    have := (makeCredential_tri hl a).snd (I := fun t => RegEffect a s.stored t.stored) (fun _ _ h => h.1) (fun _ h => h)
      (prelude (.makeCredential a) (.main c) (s.withOracle o)) rfl
    rw [show makeCredential a (prelude (.makeCredential a) (.main c) (s.withOracle o)) = (r, s') from hs] at this
    exact this

/-- **C24**, success: after a successful registration of a discoverable credential, the credential whose id was returned
is stored in place of any earlier one of this account; nothing else changed. -/
theorem C24_registered {o : Oracle} {ch : Channel} {a : McParams} {r : Response} (h : Reach P true s)
    (hs : processParsed (.makeCredential a) ch (s.withOracle o) = (.ok r, s')) (hr : a.options.rk = true) :
    ∃ m, r = .makeCredential m ∧ Created a s.stored (credentialIdIn m.authData) s'.stored := by
  have hl := credsOk_reach h
  obtain ⟨_, hs⟩ := processParsed_ok hs (by simp)
  obtain ⟨_, m, h1, h2⟩ := (makeCredential_tri hl a (prelude (.makeCredential a) ch (s.withOracle o)) rfl).1 _ _ hs
  exact ⟨m, h1, h2 hr⟩

/-- **C24**, full store: a discoverable registration for a new account is refused without change. -/
theorem C24_full_refused {o : Oracle} {ch : Channel} {a : McParams} {r : Res Response} (h : Reach P true s)
    (hs : processParsed (.makeCredential a) ch (s.withOracle o) = (r, s')) (hr : a.options.rk = true)
    (hfull : s.stored.length = Dev.maxResidentKeys) (hnew : ∀ c ∈ s.stored, c.isFor a.rp.id a.user.id = false) :
    s'.stored = s.stored ∧ ∀ x, r ≠ .ok x := by
  have hno : ¬ ((∃ d ∈ s.stored, d.isFor a.rp.id a.user.id) ∨ s.stored.length < Dev.maxResidentKeys) := by
    rintro (⟨d, hd, h1⟩ | h1)
    · rw [hnew d hd] at h1; cases h1
    · omega
  constructor
  · rcases C24_registration_effect h hs with h1 | ⟨_, _, h1⟩
    · exact h1
    · exact absurd h1 hno
  · rintro x rfl
    obtain ⟨m, _, _, h1⟩ := C24_registered h hs hr
    exact hno h1

end

namespace Toy

/-- Registrations of discoverable credentials for `n` users. -/
def registerMany (n : Nat) : St :=
  (List.range n).foldl (fun s i => step good (register rpA [UInt8.ofNat i] true none) s) (boot good factory)

/-- A full device (three credentials). -/
def full : St := registerMany 3

theorem reach_full {P : Oracle → Prop} (h : P good) : Reach P true full :=
  reach_step good h _ (reach_step good h _ (reach_step good h _ (reach_boot good h (Reach.factory _ _) (by decide +kernel))
    (by decide +kernel)) (by decide +kernel)) (by decide +kernel)

/-- C24: on a full device, a registration for an existing account replaces the credential, one for a new account is
refused with KEY_STORE_FULL. -/
example : full.stored.length = Dev.maxResidentKeys ∧
    (match (runCmd (parse (register rpA [1] true none)) full).1 with | .ok _ => true | _ => false) = true ∧
    (runCmd (parse (register rpA [1] true none)) full).2.stored.map (·.userHandle) = [[1], [2], [0]] ∧
    (runCmd (parse (register rpA [1] true none)) full).2.stored.map (·.order) = [4, 3, 1] ∧
    (runCmd (parse (register rpA [7] true none)) full).1 = .err .keyStoreFull := by decide +kernel

example (a : McParams) (ha : parse (register rpA [7] true none) = .makeCredential a) :
    (runCmd (.makeCredential a) full).2.stored = full.stored := by
  have h1 : (match parse (register rpA [7] true none) with | .makeCredential a => a.options.rk | _ => false) = true := by
    decide +kernel
  have h2 : (match parse (register rpA [7] true none) with
      | .makeCredential a => decide (∀ c ∈ full.stored, c.isFor a.rp.id a.user.id = false) | _ => false) = true := by
    decide +kernel
  rw [ha] at h1 h2
  exact (C24_full_refused (reach_full (P := fun _ => True) trivial) (o := good) (ch := ch) rfl h1 (by decide +kernel)
    (of_decide_eq_true h2)).1

end Toy
end Verif.Ctap
