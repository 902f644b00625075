import Verif.Ctap.FlagsSpec

/-!
# C20, C21, C26: truthful flags, always-UV
-/
namespace Verif.Ctap
set_option linter.unusedSectionVars false
set_option maxRecDepth 100000

section
variable [Dev] {P : Oracle → Prop} {s s' : St} {ch : Channel}

theorem keeps {I : St → Prop} {m : M α} {r : Res α} (h : m s = (r, s')) [hp : Pres I m] (hs : I s) : I s' := by
  have := hp.out s hs; rwa [h] at this

theorem flags_prefix {h x : Bytes} {f : UInt8} (hl : h.length = 32) : flagsIn (h ++ [f] ++ x) = f := by
  unfold flagsIn
  rw [List.append_assoc, List.getD_eq_getElem?_getD, List.getElem?_append_right (by omega), hl]
  rfl

theorem mcFlags_up (uv ext : Bool) : mcFlags uv ext &&& 0x01 ≠ 0 := by cases uv <;> cases ext <;> decide
theorem mcFlags_uv (uv ext : Bool) : mcFlags uv ext &&& 0x04 ≠ 0 ↔ uv = true := by cases uv <;> cases ext <;> decide
theorem gaFlags_up (a : GaParams) : gaFlags a &&& 0x01 ≠ 0 ↔ a.options.up = true := by
  unfold gaFlags
  generalize a.authParam.isSome = x
  generalize a.options.up = y
  generalize (a.ext.hmacSecret.isSome || a.ext.credBlob) = z
  cases x <;> cases y <;> cases z <;> decide
theorem gaFlags_uv (a : GaParams) : gaFlags a &&& 0x04 ≠ 0 ↔ a.authParam.isSome = true := by
  unfold gaFlags
  generalize a.authParam.isSome = x
  generalize a.options.up = y
  generalize (a.ext.hmacSecret.isSome || a.ext.credBlob) = z
  cases x <;> cases y <;> cases z <;> decide

theorem mcFinish_flags {a : McParams} {ep : Bool} {r : Response} (h : mcFinish a ep s = (.ok r, s')) :
    ∃ m x, r = .makeCredential m ∧ flagsIn m.authData = mcFlags a.authParam.isSome x := by
  simp only [mcFinish, bind_ok, pure_ok] at h
  obtain ⟨mp, s1, _, lbk, s2, _, sk, s3, _, id, s4, _, ad, s5, h5, ⟨sig, x5c⟩, s6, _, rfl, _⟩ := h
  refine ⟨_, mcHasExt a mp, rfl, ?_⟩
  simp only [mcAuthData, bind_ok, pure_ok, guardE_ok, liftE_ok] at h5
  obtain ⟨base, s1, h6, _, _, ⟨hl, rfl⟩, pk, _, ⟨_, rfl⟩, cose, s3, _, ext, s4, _, rfl, _⟩ := h5
  obtain ⟨n, rfl, _, _⟩ := generateAuthData_ok h6
  simp only [List.append_assoc]
  rw [← List.append_assoc (Dev.sha256 _)]
  exact flags_prefix (Dev.sha256_len _)

/-- An authorised request is authenticated in the sense of the specification. -/
theorem verifiedFor {cmd : Command} {o : Oracle} {perm : UInt8} {rp msg param : Bytes} {pr : Proto} {proto : Option Proto}
    {param' : Option Bytes} (hr : Reach P true s) (hp : perm = 1 ∨ perm = 2 ∨ perm = 4 ∨ perm = 32)
    (ha : Authorised perm pr msg param (prelude cmd ch (s.withOracle o)).v.pin)
    (hb : (prelude cmd ch (s.withOracle o)).v.pin.tok.rpId = none ∨
      (prelude cmd ch (s.withOracle o)).v.pin.tok.rpId = some rp)
    (h1 : proto = some pr) (h2 : param' = some param) : VerifiedFor perm rp msg proto param' s := by
  obtain ⟨htok, _, new, t, perms, r, h3, h4, h5, h6, h7⟩ := tok_issued (tokGood_reach hr)
    (by rcases hp with h | h | h | h <;> simp [h]) ha
  rw [htok] at hb
  refine ⟨⟨pr, param, h1, h2, ?_⟩, ⟨new, t, perms, r, h3, h4, h5, ?_, ?_⟩, hb⟩
  · have := ha.mac
    revert this
    cases pr <;> exact id
  · intro hc
    have := h6 hc
    subst this
    revert hp; decide
  · intro x hx
    have := h7 x hx
    rcases hb with hb | hb <;> rw [this] at hb <;> cases hb
    rfl

/-! ## Registration -/

theorem registered {a : McParams} {o : Oracle} {r : Response} (hr : Reach P true s)
    (h : processParsed (.makeCredential a) ch (s.withOracle o) = (.ok r, s')) :
    ∃ m, r = .makeCredential m ∧ UserPresent m.authData ∧ HappenedSince s.log Ev.isPresence s'.log ∧
      (UserVerified m.authData ↔ a.authParam.isSome = true) ∧
      (a.authParam.isSome = true → VerifiedFor 1 a.rp.id a.clientDataHash a.authProto a.authParam s) ∧
      (s.p.uvRequired = true → a.authParam.isSome = true) := by
  obtain ⟨_, h⟩ := processParsed_ok h (by simp)
  obtain ⟨ep, s1, s2, s3, s4, _, h1, h2, h3, h4, h5⟩ := makeCredential_ok h
  obtain ⟨m, x, rfl, hf⟩ := mcFinish_flags h5
  refine ⟨m, rfl, ?_, ?_, ?_, ?_, ?_⟩
  · unfold UserPresent; rw [hf]; exact mcFlags_up _ _
  · have hg : s.log <:+ s3.log :=
      ((grown (s := prelude (.makeCredential a) ch (s.withOracle o)) h1).trans (grown h2)).trans (grown h3)
    obtain ⟨e, _, rfl⟩ := presenceE_ok h4
    obtain ⟨pre, hpre⟩ := hg
    refine keeps (I := Marked s.log Ev.isPresence) h5 ?_
    exact ⟨.tokenConsumed :: .presence e.now :: pre, by simp [← hpre], .presence e.now, by simp, rfl⟩
  · unfold UserVerified; rw [hf]; exact mcFlags_uv _ _
  · intro hs
    obtain ⟨param, hp⟩ := Option.isSome_iff_exists.1 hs
    obtain ⟨pr, g1, g2, _, _, g5⟩ := mcAuth_token h hp
    exact verifiedFor hr (.inl rfl) g2 g5 g1 hp
  · intro hu
    cases hp : a.authParam with
    | some p => rfl
    | none =>
      have hp1 : s1.p = s.p := (keepP h1).trans (prelude_p ..)
      simp only [mcAuth, hp, mcWithoutParam, bind_ok, guardE_ok] at h2
      obtain ⟨_, _, ⟨_, rfl⟩, al, t1, g1, _, _, ⟨g2, rfl⟩, _⟩ := h2
      obtain ⟨g1, _⟩ := hasAlwaysUv_ok g1
      rw [hp1, hu] at g1
      simp [g1] at g2

/-- **C20**, registrations: the response has the user-verified flag iff the request carried a token authentication, and then
the request is authenticated by the current token, with permission for registrations at this relying party. -/
theorem C20_registration {a : McParams} {o : Oracle} {r : Response} (hr : Reach P true s)
    (h : processParsed (.makeCredential a) ch (s.withOracle o) = (.ok r, s')) :
    ∃ m, r = .makeCredential m ∧ (UserVerified m.authData ↔ a.authParam.isSome = true) ∧
      (UserVerified m.authData → VerifiedFor 1 a.rp.id a.clientDataHash a.authProto a.authParam s) := by
  obtain ⟨m, h1, _, _, h2, h3, _⟩ := registered hr h
  exact ⟨m, h1, h2, fun hv => h3 (h2.1 hv)⟩

/-- **C21**, registrations: the user touched the device during the command. -/
theorem C21_registration {a : McParams} {o : Oracle} {r : Response} (hr : Reach P true s)
    (h : processParsed (.makeCredential a) ch (s.withOracle o) = (.ok r, s')) :
    HappenedSince s.log Ev.isPresence s'.log ∧ ∃ m, r = .makeCredential m ∧ UserPresent m.authData := by
  obtain ⟨m, h1, h2, h3, _⟩ := registered hr h
  exact ⟨h3, m, h1, h2⟩

/-- **C26**, registrations. -/
theorem C26_registration {a : McParams} {o : Oracle} {r : Response} (hr : Reach P true s)
    (h : processParsed (.makeCredential a) ch (s.withOracle o) = (.ok r, s')) (hu : s.p.uvRequired = true) :
    VerifiedFor 1 a.rp.id a.clientDataHash a.authProto a.authParam s ∧ ∃ m, r = .makeCredential m ∧ UserVerified m.authData := by
  obtain ⟨m, h1, _, _, h2, h3, h4⟩ := registered hr h
  exact ⟨h3 (h4 hu), m, h1, h2.2 (h4 hu)⟩

/-! ## Assertion -/

theorem gaAuth_verified {a : GaParams} {o : Oracle} {s1 : St} (hr : Reach P true s)
    (h : gaAuth a (prelude (.getAssertion a) ch (s.withOracle o)) = (.ok (), s1)) :
    (a.authParam.isSome = true → VerifiedFor 2 a.rpId a.clientDataHash a.authProto a.authParam s) ∧
      (s.p.uvRequired = true → a.options.up = true → a.authParam.isSome = true) := by
  cases hp : a.authParam with
  | some p =>
    refine ⟨fun _ => ?_, fun _ _ => rfl⟩
    rw [gaAuth, hp] at h
    obtain ⟨pr, e', h3, h4, h5, h6, h7, _⟩ := checkTokenFor_ok h
    exact verifiedFor hr (.inr (.inl rfl)) h4 h7 h3 rfl
  | none =>
    refine ⟨fun h => by simp at h, fun hu hup => ?_⟩
    simp only [gaAuth, hp, gaWithoutParam, bind_ok, guardE_ok, whenM_ok, hup] at h
    obtain ⟨_, _, ⟨_, rfl⟩, ⟨_, al, t1, g1, g2, rfl⟩ | ⟨h, _⟩⟩ := h
    · obtain ⟨g1, _⟩ := hasAlwaysUv_ok g1
      rw [prelude_p, show (s.withOracle o).p = s.p from rfl, hu] at g1
      simp [g1] at g2
    · cases h

theorem response_flags {c : Cred} {a : GaParams} {n : Option Nat} {g : GaResponse} {x : Nat} {ex uv}
    (h : assertionResponse c { clientDataHash := a.clientDataHash, ext := ex, hasUv := uv
                               authData := Dev.sha256 a.rpId ++ [gaFlags a] ++ Verif.Cbor.beBytes 4 x } n s = (.ok g, s')) :
    flagsIn g.authData = gaFlags a := by
  obtain ⟨_, ⟨ext, _, _, h1⟩, _⟩ := assertionResponse_ok h
  rw [h1, List.append_assoc]
  exact flags_prefix (Dev.sha256_len _)

theorem asserted {a : GaParams} {o : Oracle} {r : Response} (hr : Reach P true s)
    (h : processParsed (.getAssertion a) ch (s.withOracle o) = (.ok r, s')) :
    ∃ g, r = .getAssertion g ∧ flagsIn g.authData = gaFlags a ∧
      (a.options.up = true → HappenedSince s.log Ev.isPresence s'.log) ∧
      (a.authParam.isSome = true → VerifiedFor 2 a.rpId a.clientDataHash a.authProto a.authParam s) ∧
      (s.p.uvRequired = true → a.options.up = true → a.authParam.isSome = true) := by
  obtain ⟨_, h⟩ := processParsed_ok h (by simp)
  obtain ⟨s1, s2, s3, s4, s5, s6, c, rest, ad, number, ga, h1, h2, h3, h4, h5, h6, h7, rfl, _⟩ := getAssertion_ok h
  obtain ⟨v1, v2⟩ := gaAuth_verified hr h1
  obtain ⟨n, rfl, _⟩ := generateAuthData_ok h5
  refine ⟨ga, rfl, response_flags h7, fun hu => ?_, v1, v2⟩
  have hg : s.log <:+ s2.log :=
    (grown (s := prelude (.getAssertion a) ch (s.withOracle o)) h1).trans (grown h2)
  have hm : Marked s.log Ev.isPresence s3 := by
    simp only [gaPresence, whenM_ok, hu, bind_ok] at h3
    rcases h3 with ⟨_, _, s6', h6, h6'⟩ | ⟨h6, _⟩
    · obtain ⟨e, _, rfl⟩ := presenceE_ok h6
      simp only [clearTokenFlags, modTok, modPin, bind_ok, modV_ok, logE_ok] at h6'
      obtain ⟨_, _, rfl, rfl⟩ := h6'
      obtain ⟨pre, hpre⟩ := hg
      exact ⟨.tokenConsumed :: .presence e.now :: pre, by simp [hpre], .presence e.now, by simp, rfl⟩
    · cases h6
  exact keeps h7 (keeps h6 (keeps h5 (keeps h4 hm)))

/-- **C20**, assertions. -/
theorem C20_assertion {a : GaParams} {o : Oracle} {r : Response} (hr : Reach P true s)
    (h : processParsed (.getAssertion a) ch (s.withOracle o) = (.ok r, s')) :
    ∃ g, r = .getAssertion g ∧ (UserVerified g.authData ↔ a.authParam.isSome = true) ∧
      (UserVerified g.authData → VerifiedFor 2 a.rpId a.clientDataHash a.authProto a.authParam s) := by
  obtain ⟨g, h1, h2, _, h4, _⟩ := asserted hr h
  have : UserVerified g.authData ↔ a.authParam.isSome = true := by unfold UserVerified; rw [h2]; exact gaFlags_uv a
  exact ⟨g, h1, this, fun hv => h4 (this.1 hv)⟩

/-- **C21**, assertions: the user-present flag is set iff the request asks for presence, and then the user touched the device
during the command. -/
theorem C21_assertion {a : GaParams} {o : Oracle} {r : Response} (hr : Reach P true s)
    (h : processParsed (.getAssertion a) ch (s.withOracle o) = (.ok r, s')) :
    ∃ g, r = .getAssertion g ∧ (UserPresent g.authData ↔ a.options.up = true) ∧
      (UserPresent g.authData → HappenedSince s.log Ev.isPresence s'.log) := by
  obtain ⟨g, h1, h2, h3, _⟩ := asserted hr h
  have : UserPresent g.authData ↔ a.options.up = true := by unfold UserPresent; rw [h2]; exact gaFlags_up a
  exact ⟨g, h1, this, fun hv => h3 (this.1 hv)⟩

/-- **C26**, assertions. -/
theorem C26_assertion {a : GaParams} {o : Oracle} {r : Response} (hr : Reach P true s)
    (h : processParsed (.getAssertion a) ch (s.withOracle o) = (.ok r, s')) (hu : s.p.uvRequired = true) :
    ∃ g, r = .getAssertion g ∧ (UserPresent g.authData →
      VerifiedFor 2 a.rpId a.clientDataHash a.authProto a.authParam s ∧ UserVerified g.authData) := by
  obtain ⟨g, h1, h2, _, h4, h5⟩ := asserted hr h
  refine ⟨g, h1, fun hp => ?_⟩
  have hup : a.options.up = true := by unfold UserPresent at hp; rw [h2] at hp; exact (gaFlags_up a).1 hp
  refine ⟨h4 (h5 hu hup), ?_⟩
  unfold UserVerified
  rw [h2]
  exact (gaFlags_uv a).2 (h5 hu hup)

/-! ## The next assertion -/

theorem nextAssertion_ok {r : Response} (h : getNextAssertion s = (.ok r, s')) :
    ∃ inp keys k c g t, (s.v.sp.clearTimer s.env.now).cmd = some (.getAssertion inp (keys ++ [k])) ∧
      (k, c) ∈ s.p.creds ∧ (∃ mk, MkStep { s with v := { s.v with sp :=
        { (s.v.sp.clearTimer s.env.now) with cmd := some (.getAssertion inp keys) } } } mk t) ∧
      assertionResponse c inp none t = (.ok g, s') ∧ r = .getNextAssertion g := by
  simp only [getNextAssertion, bind_ok, pure_ok] at h
  obtain ⟨⟨inp, k⟩, s1, h1, c, s2, h2, g, s3, h3, rfl, rfl⟩ := h
  simp only [nextAssertionCredential, bind_ok] at h1
  obtain ⟨x, s4, h4, h5⟩ := h1
  obtain ⟨rfl, rfl⟩ := getCommand_ok h4
  cases hc : (s.v.sp.clearTimer s.env.now).cmd with
  | none => simp [hc, fail] at h5
  | some c' =>
    cases c' with
    | getAssertion inp' keys =>
      simp only [hc, bind_ok, req_ok, modSp, modV_ok, pure_ok] at h5
      obtain ⟨k', _, ⟨h6, rfl⟩, _, _, rfl, h7, rfl⟩ := h5
      cases h7
      obtain ⟨ys, hys⟩ := List.getLast?_eq_some_iff.1 h6
      subst hys
      obtain ⟨h8, mk, h9⟩ := getCredential_ok h2
      refine ⟨_, ys, _, c, g, s2, rfl, h8, ⟨mk, ?_⟩, h3, rfl⟩
      simpa using h9
    | _ => simp [hc, fail] at h5

/-- What is left of a running stateful command after the common start. -/
theorem prelude_sp {cmd : Command} {c : Stateful}
    (h : ((prelude cmd ch s).v.sp.clearTimer s.env.now).cmd = some c) :
    (prelude cmd ch s).v.sp.clearTimer s.env.now = s.v.sp ∧ s.v.sp.cmd = some c ∧ keepsStateful cmd (some c) = true ∧
      (∀ c', s.v.sp.channel = some c' → c' = ch) ∧ Verif.Hid.Timer.isElapsed s.v.sp.timer s.env.now = false := by
  unfold prelude at h ⊢
  dsimp only at h ⊢
  by_cases hk : keepsStateful cmd ((s.v.sp.clearOldChannels ch).clearTimer s.env.now).cmd = true
  · simp only [hk, if_true] at h ⊢
    revert hk h
    unfold StatefulPerm.clearOldChannels StatefulPerm.clearTimer
    cases hch : s.v.sp.channel with
    | none =>
      simp only
      cases he : Verif.Hid.Timer.isElapsed s.v.sp.timer s.env.now <;> simp [he, StatefulPerm.cleared]
      intro h1 h2
      rw [h2] at h1
      exact ⟨h2, h1⟩
    | some c' =>
      simp only
      by_cases hc' : c' = ch
      · subst hc'
        cases he : Verif.Hid.Timer.isElapsed s.v.sp.timer s.env.now <;> simp [he, StatefulPerm.cleared]
        intro h1 h2
        rw [h2] at h1
        exact ⟨h2, h1⟩
      · simp [hc', StatefulPerm.cleared, Verif.Hid.Timer.isElapsed]
  · simp only [if_neg hk] at h
    simp [StatefulPerm.cleared, StatefulPerm.clearTimer, Verif.Hid.Timer.isElapsed] at h

/-- Where the response of GetNextAssertion comes from: an earlier request for an assertion without allow list, on the same
channel, in a state `s0` with the same stored credentials; less than 30 s before. -/
theorem nextAsserted {o : Oracle} {r : Response} (hr : Reach P true s)
    (h : processParsed .getNextAssertion ch (s.withOracle o) = (.ok r, s')) :
    ∃ g s0 s1 o0 a, r = .getNextAssertion g ∧ Processed P s s0 o0 (.getAssertion a) ch ∧ s0.p.creds = s.p.creds ∧
      gaAuth a (prelude (.getAssertion a) ch (s0.withOracle o0)) = (.ok (), s1) ∧
      flagsIn g.authData = gaFlags a ∧ (a.options.up = true → HappenedSince s0.log Ev.isPresence s.log) ∧ a.allowList = none ∧
      ∃ c, Candidate s.stored a.rpId a.authParam.isSome c ∧ g.credential = { id := c.id } ∧
        g.user = gaUser c a.authParam.isSome ∧ Dev.ecdsaSign c.sk (g.authData ++ a.clientDataHash) = some g.signature := by
  obtain ⟨⟨cid, rfl⟩, h⟩ := processParsed_ok h (by simp)
  obtain ⟨inp, keys, k, c, g, t, h1, h2, ⟨mk, h3⟩, h4, rfl⟩ := nextAssertion_ok h
  obtain ⟨e1, e2, _, e4, e5⟩ := prelude_sp (s := s.withOracle o) h1
  have hg := spGood_reach hr rfl
  cases hg with
  | none hg => exact absurd (hg.symm.trans e2) (by simp)
  | reset hg => exact absurd (hg.symm.trans e2) (by simp)
  | rps hg => exact absurd (congrArg StatefulPerm.cmd hg.symm |>.trans e2) (by simp)
  | creds hg => exact absurd (congrArg StatefulPerm.cmd hg.symm |>.trans e2) (by simp)
  | assertion hsp b ti au al i to p l bg =>
    have e6 := (congrArg StatefulPerm.cmd hsp.symm).trans e2
    simp only [Option.some.injEq, Stateful.getAssertion.injEq] at e6
    obtain ⟨rfl, rfl⟩ := e6
    subst i
    have e7 := e4 _ (congrArg StatefulPerm.channel hsp)
    subst e7
    obtain ⟨g1, _, g3, g4, _, _⟩ := assertionResponse_ok h4
    refine ⟨g, _, _, _, _, rfl, b.past, b.creds, au, response_flags h4, to, al, c, ?_, g1, g4, g3⟩
    obtain ⟨c', k1, k2, k3⟩ := mem_discoverable.1 (l ▸ List.mem_append_left _ (List.mem_append_right _ (List.mem_singleton_self k)))
    have := (credsOk_reach hr).key (p.mem_iff.1 k1) h2 rfl
    cases this
    exact ⟨List.mem_map.2 ⟨_, h2, rfl⟩, k2, k3⟩

/-- **C20**, next assertions: if the response has the user-verified flag, it continues the response to an earlier request on
the same channel that carried a token authentication, which was right when the request was processed. -/
theorem C20_next {o : Oracle} {r : Response} (hr : Reach P true s)
    (h : processParsed .getNextAssertion ch (s.withOracle o) = (.ok r, s')) :
    ∃ g, r = .getNextAssertion g ∧ (UserVerified g.authData →
      ∃ s0 o0 a, Processed P s s0 o0 (.getAssertion a) ch ∧
        VerifiedFor 2 a.rpId a.clientDataHash a.authProto a.authParam s0 ∧
        ∃ c, Candidate s.stored a.rpId true c ∧ g.credential = { id := c.id } ∧
          Dev.ecdsaSign c.sk (g.authData ++ a.clientDataHash) = some g.signature) := by
  obtain ⟨g, s0, s1, o0, a, h1, h2, _, h4, h5, _, _, c, h7, h8, _, h9⟩ := nextAsserted hr h
  refine ⟨g, h1, fun hv => ?_⟩
  unfold UserVerified at hv
  rw [h5, gaFlags_uv] at hv
  rw [hv] at h7
  exact ⟨s0, o0, a, h2, (gaAuth_verified h2.1 h4).1 hv, c, h7, h8, h9⟩

/-- **C21**, next assertions: if the response has the user-present flag, it continues the response to an earlier request on
the same channel, and the user touched the device since this request came in. -/
theorem C21_next {o : Oracle} {r : Response} (hr : Reach P true s)
    (h : processParsed .getNextAssertion ch (s.withOracle o) = (.ok r, s')) :
    ∃ g, r = .getNextAssertion g ∧ (UserPresent g.authData →
      ∃ s0 o0 a, Processed P s s0 o0 (.getAssertion a) ch ∧ a.options.up = true ∧
        HappenedSince s0.log Ev.isPresence s.log ∧
        ∃ c, Candidate s.stored a.rpId a.authParam.isSome c ∧ g.credential = { id := c.id } ∧
          Dev.ecdsaSign c.sk (g.authData ++ a.clientDataHash) = some g.signature) := by
  obtain ⟨g, s0, s1, o0, a, h1, h2, _, h4, h5, h6, _, c, h7, h8, _, h9⟩ := nextAsserted hr h
  refine ⟨g, h1, fun hv => ?_⟩
  unfold UserPresent at hv
  rw [h5, gaFlags_up] at hv
  exact ⟨s0, o0, a, h2, hv, h6 hv, c, h7, h8, h9⟩

/-- **C22**, next assertions: the credential of the response is visible to the earlier request that it continues. -/
theorem C22_next {o : Oracle} {r : Response} (hr : Reach P true s)
    (h : processParsed .getNextAssertion ch (s.withOracle o) = (.ok r, s')) :
    ∃ g s0 o0 a c, r = .getNextAssertion g ∧ Processed P s s0 o0 (.getAssertion a) ch ∧ a.allowList = none ∧
      (a.authParam.isSome = true → VerifiedFor 2 a.rpId a.clientDataHash a.authProto a.authParam s0) ∧
      Candidate s.stored a.rpId a.authParam.isSome c ∧ g.credential = { id := c.id } ∧
      g.user = gaUser c a.authParam.isSome ∧ Dev.ecdsaSign c.sk (g.authData ++ a.clientDataHash) = some g.signature := by
  obtain ⟨g, s0, s1, o0, a, h1, h2, _, h4, h5, _, h6, c, h7, h8, h10, h9⟩ := nextAsserted hr h
  exact ⟨g, s0, o0, a, c, h1, h2, h6, (gaAuth_verified h2.1 h4).1, h7, h8, h10, h9⟩

/-- **C26**, U2F: while always-UV is on, every U2F message gets an error and nothing is stored. -/
theorem C26_u2f {msg : Bytes} {x : Except Sw Bytes} (h : processU2f msg s = (.ok x, s')) (hu : s.p.uvRequired = true) :
    (∃ e, x = .error e) ∧ s'.p = s.p := by
  obtain ⟨s1, h1, h2⟩ := processU2f_cmd h
  rw [h2]
  simp only [u2fCommand, bindSw_ok, orSw_ok] at h1
  rcases h1 with ⟨al, s1, h1, h2⟩ | ⟨e, h1, rfl⟩
  · obtain ⟨h3, e, _, rfl⟩ := hasAlwaysUv_ok h1
    rw [hu] at h3
    subst h3
    simp only [if_true, pure_ok] at h2
    obtain ⟨rfl, rfl⟩ := h2
    exact ⟨⟨_, rfl⟩, rfl⟩
  · exact ⟨⟨_, rfl⟩, keepP h1⟩
end

namespace Toy

/-- The authenticator data of the answer to a registration or assertion. -/
def adOf (c : Command) (s : St) : Option Bytes :=
  match (runCmd c s).1 with
  | .ok (.makeCredential m) => some m.authData
  | .ok (.getAssertion g) => some g.authData
  | .ok (.getNextAssertion g) => some g.authData
  | _ => none

/-- C20, C21: the flags of answers with and without token and touch. -/
example : (adOf (parse (register rpA [1] true (some (tokenMac withToken cdh)))) withToken).map flagsIn = some 0x45 ∧
    (adOf (parse (register rpA [1] false none)) booted).map flagsIn = some 0x41 ∧
    (adOf (parse (assert rpA none none)) withCred).map flagsIn = some 0x01 ∧
    (adOf (parse (assertSilent rpA none)) withCred).map flagsIn = some 0x00 := by decide +kernel

/-- Two discoverable credentials, then an assertion. -/
def twoCreds : St := step good (register rpA [2] true none) (step good (register rpA [1] true none) booted)
def asserting : St := step good (assert rpA none none) twoCreds

theorem reach_twoCreds {P : Oracle → Prop} (h : P good) : Reach P true twoCreds :=
  reach_step good h _ (reach_step good h _ (reach_booted h) (by decide +kernel)) (by decide +kernel)
theorem reach_asserting {P : Oracle → Prop} (h : P good) : Reach P true asserting :=
  reach_step good h _ (reach_twoCreds h) (by decide +kernel)

/-- C20, C21, C22: the second credential is given by the next assertion, on the same channel. -/
example : adOf .getNextAssertion asserting = adOf (parse (assert rpA none none)) twoCreds ∧
    (adOf .getNextAssertion asserting).map flagsIn = some 0x01 ∧
    (processParsed .getNextAssertion (.main [9, 9, 9, 9]) (asserting.withOracle good)).1 = .err .notAllowed := by
  decide +kernel

/-- C26: always-UV is switched on; then neither registrations nor assertions nor U2F messages succeed without token. -/
def alwaysUv : St := step good (send 0x0D (map [(.unsigned 1, .unsigned 2)])) withCred

theorem reach_alwaysUv {P : Oracle → Prop} (h : P good) : Reach P true alwaysUv :=
  reach_step good h _ (reach_step good h _ (reach_booted h) (by decide +kernel)) (by decide +kernel)

example : alwaysUv.p.uvRequired = true ∧ (runCmd (parse (register rpA [1] true none)) alwaysUv).1 = .err .puatRequired ∧
    (runCmd (parse (assert rpA none none)) alwaysUv).1 = .err .puatRequired ∧
    (adOf (parse (assertSilent rpA none)) alwaysUv).map flagsIn = some 0x00 ∧
    (match (processU2f [0, 3, 0, 0, 0, 0, 0] (alwaysUv.withOracle good)).1 with
      | .ok (.error e) => e == .commandNotAllowed | _ => false) = true := by decide +kernel

/-- ... and with a token, a registration succeeds. -/
def alwaysUvToken : St :=
  step good (getTokenPerm (b! "1234") 7 (some rpA)) (step good (setPin (b! "1234")) alwaysUv)

example : alwaysUvToken.p.uvRequired = true ∧
    (adOf (parse (register rpA [1] true (some (tokenMac alwaysUvToken cdh)))) alwaysUvToken).map flagsIn = some 0x45 := by
  decide +kernel

end Toy
end Verif.Ctap
