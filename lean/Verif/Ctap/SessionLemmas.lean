import Verif.Ctap.PropsKey

/-!
# Where the stateful commands come from
-/
namespace Verif.Ctap
set_option linter.unusedSectionVars false
variable [Dev]

/-- The user confirmed presence in a CTAP2 command. -/
def Ev.isPresence : Ev → Bool
  | .presence _ => true
  | _ => false

/-- A relation that says that a request was processed in a state (for an oracle, on a channel). -/
abbrev Past := St → Oracle → Command → Channel → Prop

/-- The request `cmd` was processed in the state `s0`, when the same credentials were stored. -/
structure Began (B : Past) (s0 : St) (o : Oracle) (cmd : Command) (ch : Channel) (creds : List (Nat × Cred))
    (log : List Ev) : Prop where
  past : B s0 o cmd ch
  creds : s0.p.creds = creds
  log : s0.log <:+ log

/-- The running stateful command comes from an authorised request on its channel, and the stored credentials are the same
since. -/
inductive Origin (B : Past) (creds : List (Nat × Cred)) (log : List Ev) : StatefulPerm → Prop
  | none {sp : StatefulPerm} (h : sp.cmd = none) : Origin B creds log sp
  | reset {sp : StatefulPerm} (h : sp.cmd = some .reset) : Origin B creds log sp
  | assertion {sp : StatefulPerm} {inp : AssertionInput} {keys : List Nat} {ch : Channel} {s0 s1 : St} {o : Oracle}
      {a : GaParams} {n t : Nat} {l : List (Nat × Cred)} {done : List Nat}
      (h : sp = { timer := makeTimer t 30000, cmd := some (.getAssertion inp keys), channel := some ch })
      (began : Began B s0 o (.getAssertion a) ch creds log) (time : s0.env.now ≤ t)
      (auth : gaAuth a (prelude (.getAssertion a) ch (s0.withOracle o)) = (.ok (), s1))
      (all : a.allowList = Option.none)
      (inp_eq : inp = { clientDataHash := a.clientDataHash, ext := a.ext, hasUv := a.authParam.isSome
                        authData := Dev.sha256 a.rpId ++ [gaFlags a] ++ Verif.Cbor.beBytes 4 n })
      (touched : a.options.up = true → HappenedSince s0.log Ev.isPresence log)
      (perm : l.Perm creds) (left : discoverableKeys a.rpId a.authParam.isSome l = keys ++ done) (begun : done ≠ []) :
      Origin B creds log sp
  | rps {sp : StatefulPerm} {i : Nat} {ch : Channel} {s0 : St} {o : Oracle} {a : CmParams} {t : Nat}
      (h : sp = { timer := makeTimer t 30000, cmd := some (.enumerateRps i), channel := some ch })
      (began : Began B s0 o (.credMgmt a) ch creds log) (time : s0.env.now ≤ t) (sub : a.sub = .rpsBegin)
      (auth : ∃ param pr msg, a.authParam = some param ∧ a.authProto = some pr ∧ cmMessage a = some msg ∧
        Authorised 0x04 pr msg param (prelude (.credMgmt a) ch (s0.withOracle o)).v.pin)
      (unbound : (prelude (.credMgmt a) ch (s0.withOracle o)).v.pin.tok.rpId = Option.none) (pos : 0 < i) : Origin B creds log sp
  | creds {sp : StatefulPerm} {keys : List Nat} {ch : Channel} {s0 : St} {o : Oracle} {a : CmParams} {t : Nat}
      {p : CmSubParams} {hash : Bytes} {l : List (Nat × Cred)} {done : List Nat}
      (h : sp = { timer := makeTimer t 30000, cmd := some (.enumerateCredentials keys), channel := some ch })
      (began : Began B s0 o (.credMgmt a) ch creds log) (time : s0.env.now ≤ t) (sub : a.sub = .credsBegin)
      (auth : ∃ param pr msg, a.authParam = some param ∧ a.authProto = some pr ∧ cmMessage a = some msg ∧
        Authorised 0x04 pr msg param (prelude (.credMgmt a) ch (s0.withOracle o)).v.pin)
      (bound : ∀ rp, (prelude (.credMgmt a) ch (s0.withOracle o)).v.pin.tok.rpId = some rp → hash = Dev.sha256 rp)
      (params : a.params = some p) (hash_eq : p.rpIdHash = some hash)
      (perm : l.Perm creds) (left : keysOfRpHash hash l = keys ++ done) (begun : done ≠ []) : Origin B creds log sp

/-- The invariant. -/
def SpGood (B : Past) (s : St) : Prop := Origin B s.p.creds s.log s.v.sp

/-- No enumeration is running. -/
def NoSession (s : St) : Prop := s.v.sp.cmd = none ∨ s.v.sp.cmd = some .reset

theorem NoSession.good {B : Past} {s : St} (h : NoSession s) : SpGood B s :=
  h.elim .none .reset

theorem Began.cons {B : Past} {s0 : St} {o : Oracle} {cmd : Command} {ch : Channel} {c : List (Nat × Cred)} {log : List Ev}
    (h : Began B s0 o cmd ch c log) (e : Ev) : Began B s0 o cmd ch c (e :: log) :=
  ⟨h.past, h.creds, h.log.trans (List.suffix_cons _ _)⟩

theorem Origin.mono {B B' : Past} {c : List (Nat × Cred)} {log : List Ev} {sp : StatefulPerm} (h : Origin B c log sp)
    (hb : ∀ s0 o cmd ch, B s0 o cmd ch → B' s0 o cmd ch) : Origin B' c log sp := by
  have hm : ∀ {s0 o cmd ch}, Began B s0 o cmd ch c log → Began B' s0 o cmd ch c log :=
    fun h => ⟨hb _ _ _ _ h.past, h.creds, h.log⟩
  cases h with
  | none h => exact .none h
  | reset h => exact .reset h
  | assertion h b t a al i to p l bg => exact .assertion h (hm b) t a al i to p l bg
  | rps h b t sub a u p => exact .rps h (hm b) t sub a u p
  | creds h b t sub a bd pa ha p l bg => exact .creds h (hm b) t sub a bd pa ha p l bg

theorem HappenedSince.cons {l log : List Ev} {q : Ev → Bool} (h : HappenedSince l q log) (e : Ev) :
    HappenedSince l q (e :: log) := by
  obtain ⟨pre, h1, x, h2, h3⟩ := h
  exact ⟨e :: pre, by simp [h1], x, List.mem_cons_of_mem _ h2, h3⟩

theorem Origin.cons {B : Past} {c : List (Nat × Cred)} {log : List Ev} {sp : StatefulPerm} (h : Origin B c log sp)
    (e : Ev) : Origin B c (e :: log) sp := by
  cases h with
  | none h => exact .none h
  | reset h => exact .reset h
  | assertion h b t a al i to p l bg => exact .assertion h (b.cons e) t a al i (fun hu => (to hu).cons e) p l bg
  | rps h b t sub a u p => exact .rps h (b.cons e) t sub a u p
  | creds h b t sub a bd pa ha p l bg => exact .creds h (b.cons e) t sub a bd pa ha p l bg

section
variable (B : Past)
instance : SEnv (SpGood B) := ⟨fun _ _ _ _ h => h⟩
instance (Q : Oracle → Prop) : SOra Q (SpGood B) := ⟨fun _ _ _ h => h⟩
stable_instances (SpGood B) under SMaster SMinPin SRpIds SForce SEp SAlwaysUv SLargeBlob SPin SRetries STok SMis SKeys SU2f SLb
instance : SPresence (SpGood B) := ⟨fun _ _ h => h.cons _⟩
instance : SCompare (SpGood B) := ⟨fun _ _ h => h.cons _⟩
instance : SIssued (SpGood B) := ⟨fun _ _ _ _ h => h.cons _⟩
instance : SConsumed (SpGood B) := ⟨fun _ h => h.cons _⟩
instance : SU2fPrompt (SpGood B) := ⟨fun _ _ h => h.cons _⟩
instance : SU2fConsume (SpGood B) := ⟨fun _ _ h => h.cons _⟩
instance : SU2fTouch (SpGood B) := ⟨fun _ _ h => h.cons _⟩
instance : SCounterEv (SpGood B) := ⟨fun _ _ _ h => h.cons _⟩
instance : SCounter (SpGood B) := ⟨fun s x w h => by
  cases w
  · exact Origin.cons h _
  · exact h⟩
instance : SSpGo (SpGood B) where
  drop _ _ := .none rfl
  next s c c' hc hn h := by
    obtain ⟨env, p, v, log⟩ := s
    obtain ⟨pin, u2f, sp, lb⟩ := v
    dsimp only at hc
    unfold SpGood at h ⊢
    dsimp only at h ⊢
    cases h with
    | none h => rw [h] at hc; cases hc
    | reset h => rw [h] at hc; cases hc; cases hn
    | assertion h b t a al i to p l bg =>
      subst h
      cases hc
      cases hn
      exact .assertion rfl b t a al i to p (l.trans (List.append_assoc _ [_] _)) (by simp)
    | rps h b t sub a u p =>
      subst h
      cases hc
      cases hn
      exact .rps rfl b t sub a u (Nat.succ_pos _)
    | creds h b t sub a bd pa ha p l bg =>
      subst h
      cases hc
      cases hn
      exact .creds rfl b t sub a bd pa ha p (l.trans (List.append_assoc _ [_] _)) (by simp)
end

instance : SEnv NoSession := ⟨fun _ _ _ _ h => h⟩
stable_instances NoSession under SMaster SCreds SMinPin SRpIds SForce SEp SAlwaysUv SLargeBlob SPin SRetries STok SMis SKeys SU2f
  SLb SPresence SCompare SIssued SConsumed SU2fPrompt SU2fConsume SU2fTouch SCounterEv SCounter SErase
instance : SSpGo NoSession := ⟨fun _ _ => .inl rfl, fun s c c' hc hn h => by
  rcases h with h | h <;> rw [h] at hc <;> cases hc
  cases hn⟩

/-! ## The step -/

variable {P : Oracle → Prop} {B : Past} {s s' s0 : St}

theorem SpGood.prelude (h : SpGood B s) (o : Oracle) (cmd : Command) (ch : Channel) :
    SpGood B (prelude cmd ch (s.withOracle o)) := by
  unfold SpGood at h ⊢
  show Origin B s.p.creds s.log (if _ then _ else _)
  have h1 : Origin B s.p.creds s.log (s.v.sp.clearOldChannels ch) := by
    unfold StatefulPerm.clearOldChannels
    split
    · split
      · exact .none rfl
      · exact h
    · exact h
  have h2 : Origin B s.p.creds s.log ((s.v.sp.clearOldChannels ch).clearTimer s.env.now) := by
    unfold StatefulPerm.clearTimer
    split <;> first | exact h1 | exact .none rfl
  split
  · exact h2
  · exact .none rfl

/-- Only GetNextAssertion and credential management can start with a running enumeration. -/
theorem noSession_prelude (s : St) (ch : Channel) {cmd : Command} (h1 : cmd ≠ .getNextAssertion)
    (h2 : ∀ a, cmd ≠ .credMgmt a) : NoSession (prelude cmd ch s) := by
  unfold NoSession
  show StatefulPerm.cmd (if _ then _ else _) = _ ∨ StatefulPerm.cmd (if _ then _ else _) = _
  split
  · rename_i hk
    revert hk
    generalize (s.v.sp.clearOldChannels ch).clearTimer s.env.now = sp
    intro hk
    cases hc : sp.cmd with
    | none => exact .inl rfl
    | some c =>
      rw [hc] at hk
      cases c <;> first | exact .inr rfl | (exfalso; revert hk; cases cmd <;> simp [keepsStateful] at h1 h2 ⊢)
  · exact .inl rfl

theorem generateAuthData_ok {h : Bytes} {f : UInt8} {ad : Bytes} (hh : generateAuthData h f s = (.ok ad, s')) :
    ∃ n, ad = h ++ [f] ++ Verif.Cbor.beBytes 4 n ∧ s' = { s with env := s.env.next } ∧ n = s.p.counter.getD 1 := by
  simp only [generateAuthData, bind_ok, pure_ok] at hh
  obtain ⟨c, s1, h1, h2, h3⟩ := hh
  obtain ⟨rfl, rfl⟩ := signatureCounter_ok h1
  exact ⟨_, h2.symm, h3.symm, rfl⟩

theorem presenceLoop_ok : ∀ {n : Nat} {s s' : St}, presenceLoop n s = (.ok (.ok ()), s') →
    ∃ e, s.env.Le e ∧ s' = { s with env := e, log := .presence e.now :: s.log }
  | 0, s, s', h => by simp [presenceLoop, pure_ok] at h
  | n + 1, s, s', h => by
    rw [presenceLoop, bind_ok] at h
    obtain ⟨w, s1, h1, h2⟩ := h
    simp only [effect_ok] at h1
    obtain ⟨_, h1, rfl⟩ := h1
    cases w <;> simp only [bind_ok, clock_ok, logE_ok, pure_ok, effect_ok] at h2
    · obtain ⟨t, _, ⟨rfl, rfl⟩, _, _, rfl, _, rfl⟩ := h2
      exact ⟨_, Env.le_next _, rfl⟩
    all_goals first | (simp at h2; done) | skip
    obtain ⟨r, s2, ⟨_, h3, rfl⟩, h4⟩ := h2
    cases r <;> simp only [pure_ok, panicM_ok] at h4
    · obtain ⟨e, he, rfl⟩ := presenceLoop_ok h4
      exact ⟨e, (Env.le_next _).next.trans he, rfl⟩
    all_goals simp at h4

theorem presenceE_ok (h : checkPresenceE s = (.ok u, s')) :
    ∃ e, s.env.Le e ∧ s' = { s with env := e, log := .presence e.now :: s.log } := by
  simp only [checkPresenceE, bind_ok, liftE_ok] at h
  obtain ⟨r, s1, h1, rfl, rfl⟩ := h
  exact presenceLoop_ok h1

/-- Time is at least `t`. -/
def Late (t : Nat) (s : St) : Prop := t ≤ s.env.now

section
variable (t : Nat)
instance : SEnv (Late t) := ⟨fun _ _ h _ h' => Nat.le_trans h' h⟩
stable_instances (Late t) under SMaster SCreds SMinPin SRpIds SForce SEp SAlwaysUv SLargeBlob SPin SRetries STok SMis SKeys SU2f
  SSp SLb SPresence SCompare SIssued SConsumed SU2fPrompt SU2fConsume SU2fTouch SCounterEv SCounter SErase SBoot
end

theorem late {m : M α} {r : Res α} (h : m s = (r, s')) [hp : Pres (Late s.env.now) m] : s.env.now ≤ s'.env.now := by
  have := hp.out s (Nat.le_refl _); rwa [h] at this

theorem grown {m : M α} {r : Res α} (h : m s = (r, s')) [hp : Pres (Grown s.log) m] : s.log <:+ s'.log := by
  have := hp.out s (List.suffix_refl _); rwa [h] at this

theorem bind_good {m : M α} {f : α → M β} [h1 : Pres NoSession m] (h : NoSession s)
    (h2 : ∀ a s1, m s = (.ok a, s1) → NoSession s1 → SpGood B (f a s1).2) : SpGood B ((m >>= f) s).2 :=
  bind_snd (h1.out s h).good fun a s1 hm => h2 a s1 hm (by have := h1.out s h; rwa [hm] at this)

/-- The state after an assertion. -/
theorem getAssertion_good {a : GaParams} {o : Oracle} {cid : Bytes} (hr : Reach P true s0)
    (hb : B s0 o (.getAssertion a) (.main cid)) :
    SpGood B (getAssertion a (.main cid) (prelude (.getAssertion a) (.main cid) (s0.withOracle o))).2 := by
  have hn := noSession_prelude (s0.withOracle o) (.main cid) (cmd := .getAssertion a) (by simp) (by simp)
  unfold getAssertion
  refine bind_good hn fun _ s1 h1 hn => ?_
  refine bind_good hn fun _ s2 h2 hn => ?_
  refine bind_good hn fun _ s3 h3 hn => ?_
  refine bind_good hn fun ⟨oc, rest⟩ s4 h4 hn => ?_
  refine bind_good hn fun c s5 h5 hn => ?_
  refine bind_good hn fun _ s6 h6 hn => ?_
  refine bind_good hn fun _ s7 h7 hn => ?_
  refine bind_good hn fun ad s8 h8 hn => ?_
  have hg : SpGood B (gaRemember { clientDataHash := a.clientDataHash, authData := ad, ext := a.ext
                                   hasUv := a.authParam.isSome } rest (.main cid) s8).2 := by
    cases hrest : rest with
    | nil => exact hn.good
    | cons k ks =>
      obtain ⟨rfl, _⟩ := authPrecheck_ok h1
      rw [guardE_ok] at h2
      obtain ⟨_, rfl⟩ := h2
      rw [req_ok] at h5
      obtain ⟨rfl, rfl⟩ := h5
      cases hl : a.allowList with
      | some l =>
        simp only [gaFindCredential, hl, bind_ok, pure_ok] at h4
        obtain ⟨_, _, _, h4, _⟩ := h4
        cases h4
        cases hrest
      | none =>
        have hp3 : s3.p = s0.p := (keepP h3).trans rfl
        have hc := credsOk_reach hr
        rw [← hp3] at hc
        obtain ⟨mk, l, hm, hperm, hk, _, hl2⟩ := gaFind_discoverable hc hl h4
        obtain ⟨k', hk', _⟩ := hl2 c rfl
        obtain ⟨n, rfl, rfl, _⟩ := generateAuthData_ok h8
        have hcr : s7.p.creds = s0.p.creds := by
          rw [keepCreds h7, keepCreds h6, keepCreds h4, hp3]
        have hg3 : s0.log <:+ s3.log :=
          grown (s := prelude (.getAssertion a) (.main cid) (s0.withOracle o)) h3
        have ht3 : s0.env.now ≤ s3.env.now :=
          late (s := prelude (.getAssertion a) (.main cid) (s0.withOracle o)) h3
        have hg4 : s0.log <:+ s4.log := hg3.trans (grown h4)
        have hg6 := hg4.trans (grown h6)
        have hg7 := hg6.trans (grown h7)
        have ht : s0.env.now ≤ s7.env.next.now :=
          Nat.le_trans (Nat.le_trans (Nat.le_trans (Nat.le_trans ht3 (late h4)) (late h6)) (late h7)) (next_now_le _)
        unfold SpGood gaRemember
        refine .assertion rfl ⟨hb, hcr.symm, hg7⟩ ht h3 hl rfl ?_ (l := l) (done := [k']) ?_ ?_ (by simp)
        · intro hu
          have hm6 : HappenedSince s0.log Ev.isPresence s6.log := by
            simp only [gaPresence, whenM_ok, hu, bind_ok] at h6
            rcases h6 with ⟨_, _, s6', h6, h6'⟩ | ⟨h6, _⟩
            · obtain ⟨e, _, rfl⟩ := presenceE_ok h6
              simp only [clearTokenFlags, modTok, modPin, bind_ok, modV_ok, logE_ok] at h6'
              obtain ⟨_, _, rfl, rfl⟩ := h6'
              obtain ⟨pre, hpre⟩ := hg4
              exact ⟨.tokenConsumed :: .presence e.now :: pre, by simp [hpre], .presence e.now, by simp, rfl⟩
            · cases h6
          have := (inferInstance : Pres (Marked s0.log Ev.isPresence) incrementGlobalCounter).out s6 hm6
          rwa [h7] at this
        · show l.Perm s7.p.creds
          rw [hcr, ← hp3]
          exact hperm
        · rw [← hrest, hk]
          obtain ⟨ys, hys⟩ := List.getLast?_eq_some_iff.1 hk'
          rw [hys]; simp
  refine bind_snd hg fun num s9 h9 => ?_
  rw [h9] at hg
  exact (inferInstance : Pres (SpGood B) (assertionResponse c _ num >>= fun r => M.pure (Response.getAssertion r))).out _ hg

/-! ### Credential management -/

theorem noRpId_ok (h : hasNoRpIdPermission s = (.ok u, s')) : s' = s ∧ s.v.pin.tok.rpId = none := by
  simp only [hasNoRpIdPermission, bind_ok, getV_ok, guardE_ok] at h
  obtain ⟨_, _, ⟨rfl, rfl⟩, h, rfl⟩ := h
  exact ⟨rfl, by simpa using h⟩

theorem noOrHash_ok {hash : Bytes} (h : hasNoOrRpIdHashPermission hash s = (.ok u, s')) :
    s' = s ∧ ∀ rp, s.v.pin.tok.rpId = some rp → hash = Dev.sha256 rp := by
  simp only [hasNoOrRpIdHashPermission, bind_ok, getV_ok, guardE_ok] at h
  obtain ⟨_, _, ⟨rfl, rfl⟩, h, rfl⟩ := h
  refine ⟨rfl, fun rp hrp => ?_⟩
  rw [hrp] at h
  simpa using h

/-- The state after the start of credential management. -/
def cmStart (a : CmParams) (s : St) : St :=
  { s with v := { s.v with sp := (if cmKeeps a.sub (s.v.sp.clearTimer s.env.now).cmd
                                  then s.v.sp.clearTimer s.env.now else .cleared) } }

/-- The rest of credential management. -/
def cmRest (a : CmParams) (ch : Channel) : M Response := do
  whenM a.sub.needsToken (cmAuth a)
  let r ← cmDispatch a ch
  M.pure (.credMgmt r)

theorem credMgmt_eq (a : CmParams) (ch : Channel) (s : St) :
    credentialManagement a ch s = cmRest a ch (cmStart a s) := by
  simp only [credentialManagement, bind_def, M.bind, clock, modV, getCommand, modSp, getV, M.pure, cmRest, cmStart]
  cases h : cmKeeps a.sub (s.v.sp.clearTimer s.env.now).cmd <;> simp [whenM, modV, M.pure]

theorem SpGood.cmStart (h : SpGood B s) (a : CmParams) : SpGood B (cmStart a s) := by
  unfold SpGood at h ⊢
  show Origin B s.p.creds s.log (if _ then _ else _)
  have h2 : Origin B s.p.creds s.log (s.v.sp.clearTimer s.env.now) := by
    unfold StatefulPerm.clearTimer
    split <;> first | exact h | exact .none rfl
  split
  · exact h2
  · exact .none rfl

theorem noSession_cmStart (s : St) {a : CmParams} (h1 : a.sub ≠ .rpsNext) (h2 : a.sub ≠ .credsNext) :
    NoSession (cmStart a s) := by
  have : cmKeeps a.sub (s.v.sp.clearTimer s.env.now).cmd = false := by
    cases h : a.sub <;> first | rfl | exact absurd h h1 | exact absurd h h2
  unfold NoSession Verif.Ctap.cmStart
  rw [this]
  exact .inl rfl

theorem credMgmt_good {a : CmParams} {o : Oracle} {cid : Bytes} (hb : B s0 o (.credMgmt a) (.main cid))
    (hs : SpGood B s0) :
    SpGood B (credentialManagement a (.main cid) (prelude (.credMgmt a) (.main cid) (s0.withOracle o))).2 := by
  rw [credMgmt_eq]
  have hg := (hs.prelude o (.credMgmt a) (.main cid)).cmStart a
  by_cases h1 : a.sub = .rpsNext
  · refine Pres.out (I := SpGood B) (m := cmRest a _) _ hg (self := ?_)
    unfold cmRest cmDispatch
    rw [h1]
    pres
  by_cases h2 : a.sub = .credsNext
  · refine Pres.out (I := SpGood B) (m := cmRest a _) _ hg (self := ?_)
    unfold cmRest cmDispatch
    rw [h2]
    pres
  have hn := noSession_cmStart (prelude (.credMgmt a) (.main cid) (s0.withOracle o)) h1 h2
  have ht : a.sub.needsToken = true := by
    cases h : a.sub <;> first | rfl | exact absurd h h1 | exact absurd h h2
  unfold cmRest
  rw [ht]
  refine bind_good hn fun _ s1 h3 hn => ?_
  rw [whenM_ok] at h3
  rcases h3 with ⟨_, h3⟩ | ⟨h3, _⟩
  rotate_left
  · cases h3
  obtain ⟨rfl, hauth⟩ := cmAuth_ok h3
  have key : SpGood B (cmDispatch a (.main cid)
      (cmStart a (prelude (.credMgmt a) (.main cid) (s0.withOracle o)))).2 := by
    unfold cmDispatch
    cases hsub : a.sub
    case rpsNext => exact absurd hsub h1
    case credsNext => exact absurd hsub h2
    case metadata =>
      refine NoSession.good (Pres.out (I := NoSession) (self := ?_) _ hn)
      pres
    case delete =>
      refine NoSession.good (Pres.out (I := NoSession) (self := ?_) _ hn)
      pres
    case update =>
      refine NoSession.good (Pres.out (I := NoSession) (self := ?_) _ hn)
      pres
    case rpsBegin =>
      refine bind_good hn fun _ s2 h4 hn => ?_
      obtain ⟨rfl, hun⟩ := noRpId_ok h4
      have hb : SpGood B (cmRpsBegin (.main cid)
          (cmStart a (prelude (.credMgmt a) (.main cid) (s0.withOracle o)))).2 := by
        unfold cmRpsBegin
        refine bind_good hn fun rps s3 h5 hn => ?_
        have hset : SpGood B (whenM (decide (1 < rps.length)) (setCommand (.enumerateRps 1) (.main cid)) s3).2 := by
          by_cases hlen : 1 < rps.length
          · simp only [hlen, decide_true, whenM, if_true]
            have hcr := keepCreds h5
            have hlog := grown h5
            have htime := late h5
            refine .rps rfl ⟨hb, ?_, hlog⟩ htime hsub hauth hun (by decide)
            exact hcr.symm
          · simp only [hlen, decide_false, whenM]
            exact hn.good
        refine bind_snd hset fun _ s4 h6 => ?_
        rw [h6] at hset
        exact Pres.out (self := by pres) _ hset
      refine bind_snd hb fun _ s3 h5 => ?_
      rw [h5] at hb
      exact hb
    case credsBegin =>
      refine bind_good hn fun sp s2 h4 hn => ?_
      rw [req_ok] at h4
      obtain ⟨hsp, rfl⟩ := h4
      have hb : SpGood B (cmCredsBegin sp (.main cid)
          (cmStart a (prelude (.credMgmt a) (.main cid) (s0.withOracle o)))).2 := by
        unfold cmCredsBegin
        refine bind_good hn fun hash s3 h5 hn => ?_
        rw [req_ok] at h5
        obtain ⟨hh, rfl⟩ := h5
        refine bind_good hn fun _ s3 h5 hn => ?_
        obtain ⟨rfl, hbound⟩ := noOrHash_ok h5
        refine bind_good hn fun l s3 h5 hn => ?_
        refine bind_good hn fun k s4 h6 hn => ?_
        rw [req_ok] at h6
        obtain ⟨hk, rfl⟩ := h6
        refine bind_good hn fun c s4 h7 hn => ?_
        have hset : SpGood B (whenM (decide (1 < (keysOfRpHash hash l).length))
            (setCommand (.enumerateCredentials (keysOfRpHash hash l).dropLast) (.main cid)) s4).2 := by
          by_cases hlen : 1 < (keysOfRpHash hash l).length
          · simp only [hlen, decide_true, whenM, if_true]
            have hcr := (keepCreds h7).trans (keepCreds h5)
            have hlog := (grown h5).trans (grown h7)
            have htime := Nat.le_trans (late h5) (late h7)
            refine .creds rfl ⟨hb, hcr.symm, hlog⟩ htime hsub hauth hbound hsp hh (l := l) (done := [k]) ?_ ?_ (by simp)
            · show l.Perm s4.p.creds
              rw [hcr]
              exact (iterCredentials_ok h5).1
            · obtain ⟨ys, hys⟩ := List.getLast?_eq_some_iff.1 hk
              rw [hys]; simp
          · simp only [hlen, decide_false, whenM]
            exact hn.good
        refine bind_snd hset fun _ s4 h6 => ?_
        rw [h6] at hset
        exact Pres.out (self := by pres) _ hset
      refine bind_snd hb fun _ s3 h5 => ?_
      rw [h5] at hb
      exact hb
  refine bind_snd key fun r s2 h4 => ?_
  rw [h4] at key
  exact key

/-! ### Everything -/

theorem parsed_good {cmd : Command} {ch : Channel} {o : Oracle} (hr : Reach P true s0) (hb : B s0 o cmd ch)
    (hs : SpGood B s0) : SpGood B (processParsed cmd ch (s0.withOracle o)).2 := by
  rw [processParsed_eq]
  have hg := hs.prelude o cmd ch
  cases ch with
  | vendor cid =>
    cases cmd <;> unfold channelCommand vendorChannelCommand <;>
      exact Pres.out (I := SpGood B) (self := by pres) _ hg
  | main cid =>
    cases cmd with
    | getAssertion a => exact getAssertion_good hr hb
    | credMgmt a => exact credMgmt_good hb hs
    | getNextAssertion => exact Pres.out (I := SpGood B) (m := getNextAssertion) _ hg
    | makeCredential a =>
      exact (Pres.out (I := NoSession) (m := makeCredential a) _ (noSession_prelude _ _ (by simp) (by simp))).good
    | getInfo => exact (Pres.out (I := NoSession) (m := getInfo) _ (noSession_prelude _ _ (by simp) (by simp))).good
    | clientPin a =>
      exact (Pres.out (I := NoSession) (m := do let r ← clientPinCommand a; M.pure (Response.clientPin r))
        _ (noSession_prelude _ _ (by simp) (by simp))).good
    | reset => exact (Pres.out (I := NoSession) (m := resetCommand) _ (noSession_prelude _ _ (by simp) (by simp))).good
    | selection => exact (Pres.out (I := NoSession) (m := selection) _ (noSession_prelude _ _ (by simp) (by simp))).good
    | largeBlobs a =>
      exact (Pres.out (I := NoSession) (m := largeBlobsCommand a) _ (noSession_prelude _ _ (by simp) (by simp))).good
    | config a =>
      exact (Pres.out (I := NoSession) (m := configCommand a) _ (noSession_prelude _ _ (by simp) (by simp))).good

theorem step_good {i : Input} {o : Oracle} (hr : Reach P true s0)
    (hb : ∀ ch msg cmd, i = .ctap2 ch msg → Command.deserialize msg = .ok cmd → B s0 o cmd ch) (hs : SpGood B s0) :
    SpGood B (stepM i (s0.withOracle o)).2 := by
  cases i with
  | ctap2 ch msg =>
    suffices h : SpGood B (processCommand ch msg (s0.withOracle o)).2 from
      bind_snd h fun _ s1 h1 => by rw [h1] at h; exact h
    unfold processCommand
    cases hd : Command.deserialize msg with
    | error e => exact hs
    | ok cmd =>
      have h1 := parsed_good (cmd := cmd) (ch := ch) hr (hb _ _ _ rfl hd) hs
      have h2 : SpGood B ((processParsed cmd ch >>= respond) (s0.withOracle o)).2 :=
        bind_snd h1 fun r s1 h => by
          rw [h] at h1
          exact Pres.out (I := SpGood B) _ h1
      show SpGood B (errorByte (processParsed cmd ch >>= respond) (s0.withOracle o)).2
      unfold errorByte
      rcases hm : (processParsed cmd ch >>= respond) (s0.withOracle o) with ⟨r, s1⟩
      rw [hm] at h2
      cases r <;> exact h2
  | ctap1 msg => exact Pres.out (I := SpGood B) (m := stepM (.ctap1 msg)) (self := by unfold stepM; pres) _ hs
  | touch => exact Pres.out (I := SpGood B) (m := stepM .touch) (self := by unfold stepM; pres) _ hs
  | wait n => exact hs

/-- In the history of the state `s`, the device (running, in the state `s0`) processed the request `cmd` on the channel `ch`. -/
def Processed (P : Oracle → Prop) (s s0 : St) (o : Oracle) (cmd : Command) (ch : Channel) : Prop :=
  Reach P true s0 ∧ P o ∧ ∃ msg, Command.deserialize msg = .ok cmd ∧
    Run P (stepM (.ctap2 ch msg) (s0.withOracle o)).2 true s

theorem spGood_reach {b : Bool} (h : Reach P b s) (hb : b = true) : SpGood (Processed P s) s := by
  induction h with
  | factory => exact .none rfl
  | boot o ho h ih =>
    rename_i s0
    obtain ⟨e, _, _, ⟨h0, h1⟩ | ⟨p1, p2, h1⟩⟩ := bootM_cases (s0.withOracle o) <;> rw [h1]
    · rw [h0] at hb; cases hb
    · exact .reset rfl
  | step o ho i h ih =>
    rename_i s0
    have ih := ih rfl
    let B : Past := fun s1 o1 cmd ch => Processed P s0 s1 o1 cmd ch ∨
      (s1 = s0 ∧ o1 = o ∧ ∃ msg, i = .ctap2 ch msg ∧ Command.deserialize msg = .ok cmd)
    have h1 : SpGood B s0 := Origin.mono ih fun _ _ _ _ h => .inl h
    have h2 : SpGood B (stepM i (s0.withOracle o)).2 :=
      step_good h (fun ch msg cmd hi hd => .inr ⟨rfl, rfl, msg, hi, hd⟩) h1
    refine Origin.mono h2 fun s1 o1 cmd ch hB => ?_
    rcases hB with ⟨a1, a2, msg, a3, a4⟩ | ⟨rfl, rfl, msg, rfl, a3⟩
    · exact ⟨a1, a2, msg, a3, hb ▸ a4.step o ho i⟩
    · exact ⟨h, ho, msg, a3, .refl⟩

end Verif.Ctap
