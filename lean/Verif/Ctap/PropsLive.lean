import Verif.Ctap.LoginLemmas

/-!
# C71: a registered credential answers
-/
namespace Verif.Ctap
set_option linter.unusedSectionVars false
set_option maxRecDepth 100000

section
variable [Dev] {P : Oracle → Prop} {s s' : St}

theorem entitled_precheck {perm : UInt8} {rp cdh : Bytes} {proto : Option Proto} {param : Option Bytes}
    (h : s.Entitles perm rp cdh proto param) : ∀ t, param = some t → t ≠ [] ∧ proto.isSome := by
  rintro t rfl
  obtain ⟨pr, rfl, rfl, _⟩ := h
  exact ⟨tag_ne_nil, rfl⟩

theorem prelude_tok {cmd : Command} {ch : Channel} {perm : UInt8} {rp : Bytes} (h : s.TokenValid perm rp) :
    (prelude cmd ch s).v.pin = s.v.pin := by
  have : s.v.pin.tok.observe s.env.now = s.v.pin.tok := by
    unfold TokenState.observe
    rw [h.running, Bool.and_false]; rfl
  simp only [prelude, this]

theorem prelude_proto (cmd : Command) (ch : Channel) (pr : Proto) : (prelude cmd ch s).v.pin.proto pr = s.v.pin.proto pr := by
  cases pr <;> rfl

/-- The authorisation of an assertion. -/
theorem ok_gaAuth' {a : GaParams} {ch : Channel} (hs : Smooth s)
    (h1 : a.authParam = none → a.options.uv = false ∧ (a.options.up = true → s.p.uvRequired = false))
    (h2 : s.Entitles 0x02 a.rpId a.clientDataHash a.authProto a.authParam) :
    Ok (gaAuth a) (prelude (.getAssertion a) ch s) := by
  refine ok_gaAuth hs h1 fun t ht => ?_
  unfold St.Entitles at h2
  rw [ht] at h2
  obtain ⟨pr, e1, e2, hv⟩ := h2
  rw [prelude_tok hv]
  exact ⟨pr, e1, e2, hv.pinSet, hv.inUse, hv.verified, hv.perm, hv.rpId⟩

theorem entitles_oracle {perm : UInt8} {rp cdh : Bytes} {proto : Option Proto} {param : Option Bytes} (o : Oracle)
    (h : s.Entitles perm rp cdh proto param) : (s.withOracle o).Entitles perm rp cdh proto param := by
  cases param with
  | none => trivial
  | some t =>
    obtain ⟨pr, h1, h2, h3⟩ := h
    exact ⟨pr, h1, h2, h3.pinSet, h3.inUse, h3.verified, h3.running, h3.perm, h3.rpId⟩

/-- An honest assertion request, in an environment where nothing fails. -/
structure GaParams.Fair (a : GaParams) (s : St) (o : Oracle) : Prop where
  calm : o.Calm
  user : a.options.up = true → o.Confirms
  noToken : a.authParam = none → a.options.uv = false ∧ (a.options.up = true → s.p.uvRequired = false)
  token : s.Entitles 0x02 a.rpId a.clientDataHash a.authProto a.authParam
  hmac : ∀ h, a.ext.hmacSecret = some h → a.options.up = true ∧ h.Honest s.v.pin

theorem GaParams.Fair.ok {a : GaParams} {o : Oracle} (h : a.Fair s o) (hk : Keyed s) {cid : Bytes}
    (h2 : ∀ s1, s1.p = s.p → Smooth s1 → Ok (gaFindCredential a) s1 ∧
      ∀ c rest s2, gaFindCredential a s1 = (.ok (c, rest), s2) → ∃ c', c = some c' ∧ CanSign c'.sk) :
    Ok (processParsed (.getAssertion a) (.main cid)) (s.withOracle o) := by
  obtain ⟨calm, user, noToken, token, hmac⟩ := h
  have hs : Smooth (s.withOracle o) := ⟨calm, hk.2.2⟩
  have : Ok (getAssertion a (.main cid)) (prelude (.getAssertion a) (.main cid) (s.withOracle o)) :=
    ok_getAssertion (s := prelude (.getAssertion a) (.main cid) (s.withOracle o)) hs (entitled_precheck token)
      (ok_gaAuth' hs noToken (entitles_oracle o token)) h2 user
      fun h hh => ⟨(hmac h hh).1, honest_congr (fun pr => prelude_proto (s := s.withOracle o) _ _ pr) (hmac h hh).2⟩
  obtain ⟨r, s1, e⟩ := this
  exact ⟨r, s1, by rw [processParsed_eq]; exact e⟩

/-- What an id yields is unique. -/
theorem yields_unique {mk rp id sk : Bytes} {p : Option Policy} {uv : Bool} {c : Cred} (hids : AllCreds (fun c => c.id.length = 32) s)
    (hu : (s.stored.filter fun c => c.id == id).length ≤ 1) (hm : s.p.master = some mk) (h : s.Has rp id sk p)
    (hy : Yields s.stored mk rp id uv c) : c.sk = sk := by
  have hlen : ∀ {c : Cred}, NamesStored s.stored rp id c → id.length = 32 := by
    rintro c ⟨h1, h2, _⟩
    obtain ⟨e, he, rfl⟩ := List.mem_map.1 h1
    rw [← h2]; exact hids e he
  rcases h with ⟨c', h1, rfl, _⟩ | ⟨mk', w, h1, h2, rfl, _⟩ <;> rcases hy with ⟨g1, _⟩ | ⟨w', g1, _, rfl⟩
  · have k1 : c ∈ s.stored.filter fun c => c.id == id := List.mem_filter.2 ⟨g1.1, by simp [g1.2.1]⟩
    have k2 : c' ∈ s.stored.filter fun c => c.id == id := List.mem_filter.2 ⟨h1.1, by simp [h1.2.1]⟩
    revert k1 k2 hu
    cases s.stored.filter fun c => c.id == id with
    | nil => intro _ h; cases h
    | cons x t =>
      cases t with
      | nil => intro _ h1 h2; simp at h1 h2; rw [h1, h2]
      | cons y t => intro h; simp at h
  · have := hlen h1; have := g1.tagged.1; omega
  · have := hlen g1; have := h2.tagged.1; omega
  · rw [hm] at h1
    cases h1
    have := g1.content
    rw [h2.content] at this
    cases this
    rfl

theorem not_names {mk rp id : Bytes} {uv : Bool} (hm : s.p.master = some mk) :
    s.Names rp id uv ↔ Offered s.stored mk rp id uv := by
  constructor
  · rintro (h | ⟨mk', w, h1, h2, h3⟩)
    · exact .inl h
    · rw [hm] at h1; cases h1; exact .inr ⟨w, h2, h3⟩
  · rintro (h | ⟨w, h2, h3⟩)
    · exact .inl h
    · exact .inr ⟨mk, w, hm, h2, h3⟩

theorem first_unique {α : Type} {q : α → Prop} {d d' : α} : ∀ {pre pre' post post' : List α}, pre ++ d :: post = pre' ++ d' :: post' →
    (∀ x ∈ pre, ¬ q x) → (∀ x ∈ pre', ¬ q x) → q d → q d' → pre = pre' ∧ d = d'
  | [], [], _, _, h, _, _, _, _ => by simp at h; exact ⟨rfl, h.1⟩
  | [], x :: l, _, _, h, _, h2, h3, _ => by simp at h; exact absurd h3 (h2 d (by simp [h.1]))
  | x :: l, [], _, _, h, h1, _, _, h4 => by simp at h; exact absurd h4 (h1 d' (by simp [h.1]))
  | x :: l, y :: t, _, _, h, h1, h2, h3, h4 => by
    simp at h
    obtain ⟨rfl, h⟩ := h
    obtain ⟨rfl, rfl⟩ := first_unique h (fun z hz => h1 z (List.mem_cons_of_mem _ hz)) (fun z hz => h2 z (List.mem_cons_of_mem _ hz)) h3 h4
    exact ⟨rfl, rfl⟩

/-- Logins with a list of ids. -/
theorem listed_answered {a : GaParams} {cid msg sk : Bytes} {o : Oracle} {pre post : List Descriptor} {d : Descriptor} {p : Option Policy}
    (hkd : Keyed s) (hids : AllCreds (fun c => c.id.length = 32) s) (hmsg : Command.deserialize msg = .ok (.getAssertion a)) (hf : a.Fair s o)
    (hl : a.allowList = some (pre ++ d :: post)) (hpre : ∀ d' ∈ pre, s.Proper d'.id ∧ ¬ s.Names a.rpId d'.id a.authParam.isSome)
    (hd : s.Proper d.id) (hc : s.Has a.rpId d.id sk p) (hv : VisibleById p a.authParam.isSome) (hk : CanSign sk) :
    ∃ g b t, stepM (.ctap2 (.main cid) msg) (s.withOracle o) = (.ok (.ctap2 b), t) ∧ (Response.getAssertion g).SentAs b ∧
      g.credential.id = d.id ∧ Dev.ecdsaSign sk (g.authData ++ a.clientDataHash) = some g.signature := by
  obtain ⟨mk, hm⟩ : ∃ mk, s.p.master = some mk := by
    rcases hc with ⟨c, h1, _⟩ | ⟨mk, _, h1, _⟩
    · rcases hkd.2.1 with h | h
      · have := h1.1; unfold St.stored at this; rw [h] at this; cases this
      · exact Option.ne_none_iff_exists'.1 h
    · exact ⟨mk, h1⟩
  obtain ⟨c, hy⟩ : ∃ c, Yields s.stored mk a.rpId d.id a.authParam.isSome c := by
    rcases hc with ⟨c, h1, _, rfl⟩ | ⟨mk', w, h1, h2, _, rfl⟩
    · exact ⟨c, .inl ⟨h1, hv⟩⟩
    · rw [hm] at h1; cases h1; exact ⟨_, .inr ⟨w, h2, hv, rfl⟩⟩
  have hfirst : ∀ {mk' c' pre' d' post'}, (s.p.master = none ∨ s.p.master = some mk') → pre ++ d :: post = pre' ++ d' :: post' →
      Yields s.stored mk' a.rpId d'.id a.authParam.isSome c' →
      (∀ x ∈ pre', ¬ Offered s.stored mk' a.rpId x.id a.authParam.isSome) → d' = d ∧ c'.sk = sk := by
    intro mk' c' pre' d' post' h1 h2 h3 h4
    obtain rfl : mk' = mk := by rcases h1 with h1 | h1 <;> rw [hm] at h1 <;> cases h1; rfl
    obtain ⟨rfl, rfl⟩ := first_unique (q := fun x : Descriptor => Offered s.stored mk' a.rpId x.id a.authParam.isSome) h2
      (fun x hx h => (hpre x hx).2 ((not_names hm).2 h)) h4 hy.offered h3.offered
    exact ⟨rfl, yields_unique hids hd.1 hm hc h3⟩
  have hok : Ok (processParsed (.getAssertion a) (.main cid)) (s.withOracle o) := by
    refine hf.ok hkd fun s1 hp1 hs1 => ?_
    have hst : s1.stored = s.stored := by unfold St.stored; rw [hp1]
    have hpr : ∀ id, s.Proper id → s1.Proper id := fun id h => proper_congr (by rw [hp1]) (by rw [hp1]) h
    simp only [gaFindCredential, hl]
    constructor
    · exact ok_bind (ok_allowList hs1 (by rw [hp1]; exact hm) (fun d' h => hpr _ (hpre d' h).1) (hpr _ hd) (by rw [hst]; exact hy))
        fun _ _ _ => ok_pure _ _
    · intro c0 rest s2 h
      simp only [bind_ok, pure_ok, Prod.mk.injEq] at h
      obtain ⟨o', s3, h, ⟨rfl, _⟩, _⟩ := h
      rcases allowList_ok h with ⟨h', _⟩ | ⟨mk', hmk, h5, h6⟩
      · simp at h'
      have hm' := hmk.master
      rw [hp1] at hm'
      cases o' with
      | none =>
        have := h6 rfl d (by simp)
        rw [hst] at this
        obtain rfl : mk' = mk := by rcases hm' with h1 | h1 <;> rw [hm] at h1 <;> cases h1; rfl
        exact absurd hy.offered this
      | some c' =>
        obtain ⟨pre', d', post', e1, e2, e3⟩ := h5 c' rfl
        rw [hst] at e2 e3
        obtain ⟨_, rfl⟩ := hfirst hm' e1 e2 e3
        exact ⟨c', rfl, hk⟩
  obtain ⟨r, s1, b, s2, h1, h2, h3⟩ := answered (s := s.withOracle o) hmsg ⟨hf.calm, hkd.2.2⟩ hok
  obtain ⟨mk', c', g, pre', d', post', rfl, _, e1, e2, e3, e4, e5, _, e6⟩ := assertion_listed h1 hl
  obtain ⟨rfl, rfl⟩ := hfirst e1 e2 e3 e4
  exact ⟨g, b, s2, h3, h2, by rw [e5], e6⟩

/-- **C71**, login with a list of ids: the device holds the credential that the id `d.id` names, it is visible for the request,
no id before it in the list names a visible credential, the request is authorised (or needs no authorisation), the user touches the
device within 30 seconds, and nothing fails.  Then the device answers with success, and the answer names this credential and is signed
by its private key. -/
theorem C71_listed {a : GaParams} {cid msg sk : Bytes} {o : Oracle} {pre post : List Descriptor} {d : Descriptor} {p : Option Policy}
    (hr : Reach P true s) (hmsg : Command.deserialize msg = .ok (.getAssertion a)) (hf : a.Fair s o)
    (hl : a.allowList = some (pre ++ d :: post)) (hpre : ∀ d' ∈ pre, s.Proper d'.id ∧ ¬ s.Names a.rpId d'.id a.authParam.isSome)
    (hd : s.Proper d.id) (hc : s.Has a.rpId d.id sk p) (hv : VisibleById p a.authParam.isSome) (hk : CanSign sk) :
    ∃ g b t, stepM (.ctap2 (.main cid) msg) (s.withOracle o) = (.ok (.ctap2 b), t) ∧ (Response.getAssertion g).SentAs b ∧
      g.credential.id = d.id ∧ Dev.ecdsaSign sk (g.authData ++ a.clientDataHash) = some g.signature :=
  listed_answered (keyed_reach hr) (allCreds_reach (Q := fun c => c.id.length = 32) hr) hmsg hf hl hpre hd hc hv hk

/-- Discoverable logins find a credential. -/
theorem ok_discoverable {a : GaParams} (hs : Smooth s) (hc : CredsOk s.p.creds) (hl : a.allowList = none) :
    Ok (gaFindCredential a) s := by
  simp only [gaFindCredential, hl]
  refine ok_bind (Go.out _ hs) fun l s1 h1 => ?_
  obtain ⟨hperm, _⟩ := iterCredentials_ok h1
  have hs1 := smooth_of h1 hs
  have k1 := keepCreds h1
  cases hk : (discoverableKeys a.rpId a.authParam.isSome l).getLast? with
  | none => exact ok_pure _ _
  | some k =>
    obtain ⟨c, hm, _⟩ := mem_discoverable.1 (List.mem_of_getLast? hk)
    have hm : (k, c) ∈ s1.p.creds := by rw [k1]; exact hperm.mem_iff.1 hm
    refine ok_bind ?_ fun _ _ _ => ok_pure _ _
    unfold getCredential
    refine ok_bind (ok_guard ?_) fun _ s2 h2 => ?_
    · have := hc.range (k, c) (k1 ▸ hm)
      simp [this.1, this.2]
    rw [guardE_ok] at h2
    obtain ⟨_, h2⟩ := h2
    subst s2
    refine ok_bind (Go.out _ hs1) fun p s2 h2 => ?_
    have hs2 := smooth_of h2 hs1
    obtain ⟨e, _⟩ := readP_ok h2
    cases hf : p.creds.lookup k with
    | none => have := List.lookup_eq_none_iff.1 hf (k, c) (by subst e; exact hm); simp at this
    | some c' =>
      refine ok_bind (ok_req rfl) fun _ s3 h3 => ?_
      rw [req_ok] at h3
      obtain ⟨_, h3⟩ := h3
      subst s3
      exact ok_bind (Go.out _ hs2) fun _ _ _ => ok_pure _ _

/-- **C71**, login without a list of ids: the device has stored a credential for the relying party that is visible for the request,
and the request is authorised (or needs no authorisation), the user touches the device within 30 seconds, and nothing fails.  Then the
device answers with success, and the answer names the newest such credential and is signed by its private key. -/
theorem C71_discoverable {a : GaParams} {cid msg : Bytes} {o : Oracle} {c : Cred}
    (hr : Reach P true s) (hmsg : Command.deserialize msg = .ok (.getAssertion a)) (hf : a.Fair s o) (hl : a.allowList = none)
    (hc : c ∈ s.stored) (hrp : c.rpId = a.rpId) (hv : VisibleByRp c.policy a.authParam.isSome)
    (hk : ∀ c ∈ s.stored, c.rpId = a.rpId → CanSign c.sk) :
    ∃ g b t, stepM (.ctap2 (.main cid) msg) (s.withOracle o) = (.ok (.ctap2 b), t) ∧ (Response.getAssertion g).SentAs b ∧
      ∃ c ∈ s.stored, c.rpId = a.rpId ∧ VisibleByRp c.policy a.authParam.isSome ∧ g.credential.id = c.id ∧
        Dev.ecdsaSign c.sk (g.authData ++ a.clientDataHash) = some g.signature ∧
        ∀ c' ∈ s.stored, c'.rpId = a.rpId → VisibleByRp c'.policy a.authParam.isSome → c'.order ≤ c.order := by
  have hkd := keyed_reach hr
  have hok : Ok (processParsed (.getAssertion a) (.main cid)) (s.withOracle o) := by
    refine hf.ok hkd fun s1 hp1 hs1 => ?_
    refine ⟨ok_discoverable hs1 (hp1 ▸ hkd.1) hl, fun c0 rest s2 h => ?_⟩
    obtain ⟨_, l, _, hperm, _, h3, h4⟩ := gaFind_discoverable (hp1 ▸ hkd.1) hl h
    cases c0 with
    | none =>
      obtain ⟨⟨k, c'⟩, h11, rfl⟩ := List.mem_map.1 hc
      have : k ∈ discoverableKeys a.rpId a.authParam.isSome l :=
        mem_discoverable.2 ⟨c', hperm.mem_iff.2 (by rw [hp1]; exact h11), hrp, hv⟩
      rw [h3 rfl] at this
      cases this
    | some c' =>
      obtain ⟨k, _, h5, h6, _⟩ := h4 c' rfl
      exact ⟨c', rfl, hk c' (List.mem_map.2 ⟨_, hp1 ▸ h5, rfl⟩) h6⟩
  obtain ⟨r, s1, b, s2, h1, h2, h3⟩ := answered (s := s.withOracle o) hmsg ⟨hf.calm, hkd.2.2⟩ hok
  obtain ⟨g, c', rfl, ⟨e1, e2, e3⟩, e4, e5, _, e6⟩ := C22_discoverable hr h1 hl
  exact ⟨g, b, s2, h3, h2, c', e1, e2, e3, by rw [e5], e6, fun c'' k1 k2 k3 => e4 c'' ⟨k1, k2, k3⟩⟩

/-- **C71**, from registration to login, credentials that are sealed in their id: after the registration, whatever happens (any
inputs, failures, power cuts), as long as the device is not reset, every honest login with the id is answered with a signature by
the private key whose public key the registration returned. -/
theorem C71_sealed {ac : McParams} {m : McResponse} {ch : Channel} {msg : Bytes} {o : Oracle} {s1 : St}
    (hr : Reach P true s) (ho : P o) (hmsg : Command.deserialize msg = .ok (.makeCredential ac))
    (h : processParsed (.makeCredential ac) ch (s.withOracle o) = (.ok (.makeCredential m), s1)) (hrk : ac.options.rk = false) :
    ∃ sk, PublicKeyIn m.authData sk ∧ Drawn o sk ∧
      ∀ s2, Run P (stepM (.ctap2 ch msg) (s.withOracle o)).2 true s2 →
        ¬ HappenedSince (stepM (.ctap2 ch msg) (s.withOracle o)).2.log Ev.isErased s2.log →
      ∀ (a : GaParams) (cid msg' : Bytes) (o' : Oracle), CanSign sk → Command.deserialize msg' = .ok (.getAssertion a) → a.Fair s2 o' →
        a.rpId = ac.rp.id → a.allowList = some [{ id := credentialIdIn m.authData }] →
        VisibleById (mcPolicy ac.ext.credProtect) a.authParam.isSome →
        ∃ g b t, stepM (.ctap2 (.main cid) msg') (s2.withOracle o') = (.ok (.ctap2 b), t) ∧ (Response.getAssertion g).SentAs b ∧
          g.credential.id = credentialIdIn m.authData ∧ Dev.ecdsaSign sk (g.authData ++ a.clientDataHash) = some g.signature := by
  obtain ⟨mk, w, h1, h2, h3, _, h5, _, hdr⟩ := sealed_drawn h hrk
  have hp := (step_parsed hmsg h).1
  refine ⟨w.sk, h5, hdr, fun s2 hrun hn a cid msg' o' hk hmsg' hf hrp hl hv => ?_⟩
  have hm2 : s2.p.master = some mk := run_master hrun (by rw [hp, h1]) hn
  have hr' := Reach.step o ho (.ctap2 ch msg) hr
  have hids : AllCreds (fun c => c.id.length = 32) s2 :=
    run_inv (I := AllCreds (fun c => c.id.length = 32)) hrun (allCreds_reach (Q := fun c => c.id.length = 32) hr')
  have hk2 : Keyed s2 := run_inv (I := Keyed) hrun (keyed_reach hr')
  refine listed_answered (pre := []) (post := []) (d := { id := credentialIdIn m.authData }) hk2 hids hmsg' hf hl (by simp) ⟨?_, ?_⟩
    (.inr ⟨mk, w, hm2, by rw [hrp]; exact h2, rfl, rfl⟩) (by rw [h3]; exact hv) hk
  · rw [List.filter_eq_nil_iff.2]
    · simp
    · intro c hc hid
      obtain ⟨e, he, rfl⟩ := List.mem_map.1 hc
      have k1 : e.2.id.length = 32 := hids e he
      have k2 := h2.tagged.1
      have k3 : e.2.id = credentialIdIn m.authData := by simpa using hid
      rw [← k3] at k2
      omega
  · intro mk' hm' _
    rw [hm2] at hm'
    cases hm'
    exact ⟨w, _, h2⟩

/-- **C71**, from registration to login, stored credentials: the same, as long as no request is meant to remove the credential.
The random ids of the stored credentials must not coincide. -/
theorem C71_stored {ac : McParams} {m : McResponse} {ch : Channel} {msg : Bytes} {o : Oracle} {s1 : St}
    (hr : Reach P true s) (ho : P o) (hmsg : Command.deserialize msg = .ok (.makeCredential ac))
    (h : processParsed (.makeCredential ac) ch (s.withOracle o) = (.ok (.makeCredential m), s1)) (hrk : ac.options.rk = true) :
    ∃ sk, PublicKeyIn m.authData sk ∧ Drawn o sk ∧
      ∀ s2, Without P (Unregisters ac m) (stepM (.ctap2 ch msg) (s.withOracle o)).2 s2 →
      ∀ (a : GaParams) (cid msg' : Bytes) (o' : Oracle), CanSign sk → Command.deserialize msg' = .ok (.getAssertion a) → a.Fair s2 o' →
        a.rpId = ac.rp.id → a.allowList = some [{ id := credentialIdIn m.authData }] →
        (s2.stored.filter fun c => c.id == credentialIdIn m.authData).length ≤ 1 →
        VisibleById (mcPolicy ac.ext.credProtect) a.authParam.isSome →
        ∃ g b t, stepM (.ctap2 (.main cid) msg') (s2.withOracle o') = (.ok (.ctap2 b), t) ∧ (Response.getAssertion g).SentAs b ∧
          g.credential.id = credentialIdIn m.authData ∧ Dev.ecdsaSign sk (g.authData ++ a.clientDataHash) = some g.signature := by
  obtain ⟨c, hc, h1, h2, h3, _, _, _, h4, _, h5, hdr⟩ := stored_drawn h hrk
  refine ⟨c.sk, h5, hdr, fun s2 hw a cid msg' o' hks hmsg' hf hrp hl hu hv => ?_⟩
  have hr' := Reach.step o ho (.ctap2 ch msg) hr
  have hp := (step_parsed hmsg h).1
  have hc' : c ∈ (stepM (.ctap2 ch msg) (s.withOracle o)).2.stored := by unfold St.stored; rw [hp]; exact hc
  obtain ⟨d, hd, hk⟩ := without_inv (I := fun l => ∃ d ∈ l, c.sameKey d) (credsOk_reach hr') ⟨c, hc', c.sameKey_refl⟩
    (fun _ _ _ hn h1' ⟨d, hd, hk⟩ => by
      obtain ⟨d', hd', hk'⟩ := h1'.left d hd fun h => hn ⟨d, by rw [hk]; exact h1, by rw [hk]; exact h2, by rw [hk]; exact h3, h⟩
      exact ⟨d', hd', Cred.sameKey_trans hk hk'⟩) hw
  have e1 : d.id = credentialIdIn m.authData := by rw [hk]; exact h1
  have e2 : d.rpId = ac.rp.id := by rw [hk]; exact h2
  have e3 : d.sk = c.sk := by rw [hk]
  have e4 : d.policy = mcPolicy ac.ext.credProtect := by rw [hk]; exact h4
  have hids : AllCreds (fun c => c.id.length = 32) s2 :=
    without_pres hw (allCreds_reach (Q := fun c => c.id.length = 32) hr')
  have hk2 : Keyed s2 := without_pres hw (keyed_reach hr')
  refine listed_answered (pre := []) (post := []) (d := { id := credentialIdIn m.authData }) hk2 hids hmsg' hf hl (by simp) ⟨hu, ?_⟩
    (.inl ⟨d, ⟨hd, e1, e2.trans hrp.symm⟩, e3, e4⟩) hv hks
  intro mk _ ht
  obtain ⟨e, he, rfl⟩ := List.mem_map.1 hd
  have k1 : e.2.id.length = 32 := hids e he
  have k2 : (credentialIdIn m.authData).length = _ := ht.1
  rw [e1] at k1
  omega

end
end Verif.Ctap

namespace Verif.Ctap.Toy
open Verif.Cbor (Value)
set_option maxRecDepth 100000

theorem good_calm : good.Calm := ⟨fun _ => rfl, fun _ => rfl, fun _ => rfl⟩
theorem good_confirms : good.Confirms := fun _ => ⟨0, by decide, rfl, fun _ h => absurd h (Nat.not_lt_zero _)⟩
theorem canSign (sk : Bytes) : CanSign sk := fun _ => rfl

/-- The bytes of a message. -/
def body : Input → Bytes
  | .ctap2 _ m => m
  | _ => []

/-- The assertion request in a message. -/
def gaOf (i : Input) : Option GaParams :=
  match Command.deserialize (body i) with
  | .ok (.getAssertion a) => some a
  | _ => none

theorem gaOf_parsed {i : Input} {a : GaParams} (h : gaOf i = some a) : Command.deserialize (body i) = .ok (.getAssertion a) := by
  unfold gaOf at h
  split at h
  · next h' => cases h; exact h'
  · cases h

/-- What the examples need of a request without token. -/
theorem fair_plain {a : GaParams} {s : St} (h1 : a.authParam = none) (h2 : a.options.uv = false) (h3 : s.p.uvRequired = false)
    (h4 : a.ext.hmacSecret = none) : a.Fair s good where
  calm := good_calm
  user _ := good_confirms
  noToken _ := ⟨h2, fun _ => h3⟩
  token := by rw [h1]; trivial
  hmac h hh := by rw [h4] at hh; cases hh

/-- What the device opens of a sealed id. -/
def opened (s : St) (rp id : Bytes) : Option CredSource :=
  match s.p.master with
  | some mk => (match unwrapWith mk id (Dev.sha256 rp) with | .ok w => w | _ => none)
  | none => none

theorem opened_has {s : St} {rp id : Bytes} {w : CredSource} (h : opened s rp id = some w) :
    s.Has rp id w.sk w.policy ∧ ∀ mk, s.p.master = some mk → Opens mk id (Dev.sha256 rp) w := by
  unfold opened at h
  split at h
  · next mk hm =>
    split at h
    · next w' h' =>
      subst h
      have := opens_iff.1 h'
      exact ⟨.inr ⟨mk, w, hm, this, rfl, rfl⟩, fun mk' h => by rw [hm] at h; cases h; exact this⟩
    · cases h
  · cases h

/-- C71: an id that the device does not know and a sealed one, without token, after a power cycle. -/
example : ∃ g b t, stepM (assert rpA (some [[1, 2], sealedId]) none) ((boot good withSealed).withOracle good) =
      (.ok (.ctap2 b), t) ∧ (Response.getAssertion g).SentAs b ∧ g.credential.id = sealedId := by
  obtain ⟨a, ha⟩ : ∃ a, gaOf (assert rpA (some [[1, 2], sealedId]) none) = some a := Option.isSome_iff_exists.1 (by decide +kernel)
  have e : (gaOf (assert rpA (some [[1, 2], sealedId]) none)).map (fun a => (a.authParam, a.options.uv, a.rpId, a.allowList)) =
    some (none, false, rpA, some [{ id := [1, 2] }, { id := sealedId }]) := by decide +kernel
  have e' : (gaOf (assert rpA (some [[1, 2], sealedId]) none)).map (fun a => a.ext.hmacSecret.isNone) = some true := by decide +kernel
  rw [ha] at e e'
  simp only [Option.map_some, Option.some.injEq, Prod.mk.injEq, Option.isNone_iff_eq_none] at e e'
  obtain ⟨e1, e2, e4, e5⟩ := e
  have hr : Reach (fun _ => True) true (boot good withSealed) := reach_boot good trivial
    (reach_step good trivial _ (reach_booted trivial) (by decide +kernel)) (by decide +kernel)
  have hst : (boot good withSealed).stored = [] := by decide +kernel
  obtain ⟨w, hw⟩ : ∃ w, opened (boot good withSealed) rpA sealedId = some w := Option.isSome_iff_exists.1 (by decide +kernel)
  have hp : (opened (boot good withSealed) rpA sealedId).map (·.policy) = some none := by decide +kernel
  rw [hw] at hp
  simp only [Option.map_some, Option.some.injEq] at hp
  obtain ⟨h1, h2⟩ := opened_has hw
  obtain ⟨g, b, t, k1, k2, k3, _⟩ := C71_listed (cid := [1, 2, 3, 4]) (pre := [{ id := [1, 2] }]) (d := { id := sealedId }) (post := []) hr
    (gaOf_parsed ha) (fair_plain e1 e2 (by decide +kernel) e') e5
    (by
      intro d hd
      obtain rfl : d = { id := [1, 2] } := by simpa using hd
      refine ⟨⟨by rw [hst]; simp, fun mk _ ht => absurd ht.1 (by decide)⟩, ?_⟩
      rintro (⟨c, hc, _⟩ | ⟨mk, w, _, h, _⟩)
      · have := hc.1; rw [hst] at this; cases this
      · exact absurd h.tagged.1 (by decide))
    ⟨by rw [hst]; simp, fun mk hm _ => ⟨w, _, h2 mk hm⟩⟩ (e4 ▸ h1) (by rw [hp]; simp [VisibleById]) (canSign _)
  exact ⟨g, b, t, k1, k2, k3⟩

/-- A credential, a PIN, and a token for it. -/
def entitled : St := step good (getTokenPerm pin 2 (some rpA)) (step good (setPin pin) (step good (register rpA [1] true none) booted))

theorem reach_entitled {P : Oracle → Prop} (h : P good) : Reach P true entitled :=
  reach_step good h _ (reach_step good h _ (reach_step good h _ (reach_booted h) (by decide +kernel)) (by decide +kernel))
    (by decide +kernel)

/-- C71: a login without a list, with the token. -/
example : ∃ g b t, stepM (assert rpA none (some (tokenMac entitled cdh))) (entitled.withOracle good) = (.ok (.ctap2 b), t) ∧
    (Response.getAssertion g).SentAs b ∧ ∃ c ∈ entitled.stored, g.credential.id = c.id := by
  obtain ⟨a, ha⟩ : ∃ a, gaOf (assert rpA none (some (tokenMac entitled cdh))) = some a := Option.isSome_iff_exists.1 (by decide +kernel)
  have e : (gaOf (assert rpA none (some (tokenMac entitled cdh)))).map
      (fun a => (a.authParam, a.authProto, a.clientDataHash, a.rpId)) =
    some (some (tokenMac entitled cdh), some .v1, cdh, rpA) := by decide +kernel
  have e' : (gaOf (assert rpA none (some (tokenMac entitled cdh)))).map (fun a => (a.ext.hmacSecret.isNone, a.allowList.isNone)) =
    some (true, true) := by decide +kernel
  rw [ha] at e e'
  simp only [Option.map_some, Option.some.injEq, Prod.mk.injEq, Option.isNone_iff_eq_none] at e e'
  obtain ⟨e1, e2, e3, e4⟩ := e
  obtain ⟨e', e5⟩ := e'
  have hf : a.Fair entitled good := {
    calm := good_calm
    user := fun _ => good_confirms
    noToken := fun h => by rw [e1] at h; cases h
    token := by
      rw [e1, e2, e3, e4]
      exact ⟨.v1, rfl, rfl, by decide +kernel, by decide +kernel, by decide +kernel, by decide +kernel, by decide +kernel, by decide +kernel⟩
    hmac := fun h hh => by rw [e'] at hh; cases hh }
  obtain ⟨c, hc⟩ : ∃ c, entitled.stored.head? = some c := Option.isSome_iff_exists.1 (by decide +kernel)
  have hc' : entitled.stored.head?.map (fun c => (c.rpId, c.policy)) = some (rpA, none) := by decide +kernel
  rw [hc] at hc'
  simp only [Option.map_some, Option.some.injEq, Prod.mk.injEq] at hc'
  obtain ⟨g, b, t, k1, k2, c', k3, _, _, k4, _⟩ := C71_discoverable (cid := [1, 2, 3, 4]) (reach_entitled (P := fun _ => True) trivial)
    (gaOf_parsed ha) hf e5 (List.mem_of_head? hc) (hc'.1.trans e4.symm) (by rw [hc'.2]; simp [VisibleByRp]) (fun _ _ _ => canSign _)
  exact ⟨g, b, t, k1, k2, c', k3, k4⟩

/-- C71: the hypotheses of `C71_sealed` and `C71_stored`: registrations that are answered, and what may come after. -/
example : accepted good (register rpA [1] false none) booted = true ∧ accepted good (register rpA [1] true none) booted = true ∧
    Run (fun _ => True) withSealed true (boot good (step good (assert rpB none none) withSealed)) ∧
    ¬ HappenedSince withSealed.log Ev.isErased (boot good (step good (assert rpB none none) withSealed)).log := by
  refine ⟨by decide +kernel, by decide +kernel, ?_, ?_⟩
  · have h1 : Run (fun _ => True) withSealed true (step good (assert rpB none none) withSealed) := by
      have := Run.step (P := fun _ => True) good trivial (assert rpB none none) (Run.refl (s0 := withSealed))
      rwa [show (stepM (assert rpB none none) (withSealed.withOracle good)).1.alive = true by decide +kernel] at this
    have := Run.boot (P := fun _ => True) good trivial h1
    rwa [show (bootM ((step good (assert rpB none none) withSealed).withOracle good)).1.alive = true by decide +kernel] at this
  · rintro ⟨new, h, e, he, hq⟩
    have : (boot good (step good (assert rpB none none) withSealed)).log.any Ev.isErased = false := by decide +kernel
    rw [h] at this
    exact absurd hq (by simpa using List.any_eq_false.1 this e (List.mem_append_left _ he))

end Verif.Ctap.Toy
