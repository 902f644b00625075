import Verif.Ctap.EnumSpec
import Verif.Ctap.PropsFlags

/-!
# Lemmas about enumerations
-/
namespace Verif.Ctap
set_option linter.unusedSectionVars false
variable [Dev] {P : Oracle → Prop} {s s' : St} {ch : Channel}

/-- The stateful command and the stored credentials. -/
def KeepSp (sp : StatefulPerm) (c : List (Nat × Cred)) (s : St) : Prop := s.v.sp = sp ∧ s.p.creds = c

section
variable (sp : StatefulPerm) (c : List (Nat × Cred))
instance : SEnv (KeepSp sp c) := ⟨fun _ _ _ _ h => h⟩
instance (Q : Oracle → Prop) : SOra Q (KeepSp sp c) := ⟨fun _ _ _ h => h⟩
stable_instances (KeepSp sp c) under SMaster SMinPin SRpIds SForce SEp SAlwaysUv SLargeBlob SPin SRetries STok SMis SKeys SU2f SLb
  SPresence SCompare SIssued SConsumed SU2fPrompt SU2fConsume SU2fTouch SCounterEv SCounter
end

theorem keepSp {m : M α} {s s' : St} {r : Res α} (h : m s = (r, s')) [hp : Pres (KeepSp s.v.sp s.p.creds) m] :
    s'.v.sp = s.v.sp ∧ s'.p.creds = s.p.creds := by have := hp.out s ⟨rfl, rfl⟩; rwa [h] at this

section
variable (t : Nat)
step_instances (Late t)
end

theorem idle_keep {i : Input} {o : Oracle} {x : Res Reply} (hi : i.idle) (h : stepM i (s.withOracle o) = (x, s')) :
    s'.v.sp = s.v.sp ∧ s'.p.creds = s.p.creds ∧ s.env.now ≤ s'.env.now := by
  have hl : s.env.now ≤ s'.env.now := late (s := s.withOracle o) h
  suffices h : s'.v.sp = s.v.sp ∧ s'.p.creds = s.p.creds from ⟨h.1, h.2, hl⟩
  cases i with
  | ctap2 ch msg =>
    cases hd : Command.deserialize msg with
    | ok cmd => exact absurd hd (hi ch msg cmd rfl)
    | error e =>
      simp only [stepM, processCommand, hd, bind_def, M.bind, M.pure, Prod.mk.injEq] at h
      obtain ⟨_, rfl⟩ := h
      exact ⟨rfl, rfl⟩
  | ctap1 msg =>
    have : Pres (KeepSp s.v.sp s.p.creds) (stepM (.ctap1 msg)) := by unfold stepM; pres
    exact keepSp (s := s.withOracle o) h (hp := this)
  | touch =>
    have : Pres (KeepSp s.v.sp s.p.creds) (stepM .touch) := by unfold stepM; pres
    exact keepSp (s := s.withOracle o) h (hp := this)
  | wait n =>
    simp only [stepM, Prod.mk.injEq] at h
    obtain ⟨_, rfl⟩ := h
    exact ⟨rfl, rfl⟩

/-- From the response to the end of the step. -/
theorem stepM_served {o : Oracle} {msg : Bytes} {cmd : Command} {r : Response} {x : Res Reply} {s1 : St}
    (hd : Command.deserialize msg = .ok cmd) (h1 : processParsed cmd ch (s.withOracle o) = (.ok r, s1))
    (h2 : stepM (.ctap2 ch msg) (s.withOracle o) = (x, s')) :
    s'.v = s1.v ∧ s'.p = s1.p ∧ s1.env.now ≤ s'.env.now := by
  have h3 : s' = (respond r s1).2 := by
    simp only [stepM, processCommand, hd, bind_def, M.bind, errorByte, h1] at h2
    rcases hr : respond r s1 with ⟨y, t⟩
    rw [hr] at h2
    cases y <;> · simp only [M.pure, Prod.mk.injEq] at h2; exact h2.2.symm
  rcases hr : respond r s1 with ⟨y, t⟩
  rw [hr] at h3
  subst h3
  exact ⟨keepV hr, keepP hr, late hr⟩

theorem Served.elim {cmd : Command} {r : Response} (h : Served P ch cmd s r s') :
    ∃ o s1, P o ∧ processParsed cmd ch (s.withOracle o) = (.ok r, s1) ∧ s'.v = s1.v ∧ s'.p = s1.p ∧
      s1.env.now ≤ s'.env.now := by
  obtain ⟨o, msg, x, s1, ho, hd, h1, h2⟩ := h
  obtain ⟨a, b, c⟩ := stepM_served hd h1 h2
  exact ⟨o, s1, ho, h1, a, b, c⟩

/-- An invariant of continuations. -/
theorem Continued.induct {isNext : Command → Prop} {rs : List Response} (h : Continued P ch isNext s rs s')
    (J : List Response → St → Prop) (h0 : J [] s)
    (hn : ∀ rs s1 o cmd r s2 s3, J rs s1 → isNext cmd → processParsed cmd ch (s1.withOracle o) = (.ok r, s2) →
      s3.v = s2.v → s3.p = s2.p → s2.env.now ≤ s3.env.now → J (rs ++ [r]) s3)
    (hi : ∀ rs s1 s2, J rs s1 → s2.v.sp = s1.v.sp → s2.p.creds = s1.p.creds → s1.env.now ≤ s2.env.now → J rs s2) :
    J rs s' := by
  induction h with
  | start => exact h0
  | next h hc hs ih =>
    obtain ⟨o, s1, _, h1, h2, h3, h4⟩ := hs.elim
    exact hn _ _ _ _ _ _ _ ih hc h1 h2 h3 h4
  | idle h ho hi' hs ih =>
    obtain ⟨h1, h2, h3⟩ := idle_keep hi' hs
    exact hi _ _ _ ih h1 h2 h3

theorem EachOf.append {R : α → β → Prop} : ∀ {as : List α} {bs : List β}, EachOf R as bs → ∀ {as' bs'}, EachOf R as' bs' →
    EachOf R (as ++ as') (bs ++ bs')
  | [], [], _, _, _, h => h
  | [], _ :: _, h, _, _, _ => h.elim
  | _ :: _, [], h, _, _, _ => h.elim
  | _ :: _, _ :: _, h, _, _, h' => ⟨h.1, h.2.append h'⟩

theorem EachOf.length {R : α → β → Prop} : ∀ {as : List α} {bs : List β}, EachOf R as bs → as.length = bs.length
  | [], [], _ => rfl
  | [], _ :: _, h => h.elim
  | _ :: _, [], h => h.elim
  | _ :: _, _ :: _, h => by simp [h.2.length]

/-! ## Assertions -/

/-- A running sequence of assertions with the keys that are left; it ends 30 s after `t`. -/
def Asserting (t : Nat) (ch : Channel) (inp : AssertionInput) (keys : List Nat) (sp : StatefulPerm) : Prop :=
  (keys = [] ∧ sp = .cleared) ∨ sp = { timer := makeTimer t 30000, cmd := some (.getAssertion inp keys), channel := some ch }

/-- Without a key that is left, there is no next assertion. -/
theorem next_refused (h : ∀ inp keys, (s.v.sp.clearTimer s.env.now).cmd = some (.getAssertion inp keys) → keys = []) :
    (getNextAssertion s).1 = .err .notAllowed := by
  have hg := getCommand_run s
  simp only [getNextAssertion, nextAssertionCredential, bind_def, M.bind, hg]
  cases hc : (s.v.sp.clearTimer s.env.now).cmd with
  | none => simp [fail]
  | some c =>
    cases c with
    | getAssertion inp keys =>
      have := h inp keys hc
      subst this
      simp [req, fail, bind_def, M.bind]
    | _ => simp [fail]

/-! ### Without a running sequence -/

/-- No sequence of assertions is running. -/
def NoAssertion (s : St) : Prop := ∀ inp keys, s.v.sp.cmd ≠ some (.getAssertion inp keys)

instance : SEnv NoAssertion := ⟨fun _ _ _ _ h => h⟩
stable_instances NoAssertion under SMaster SCreds SMinPin SRpIds SForce SEp SAlwaysUv SLargeBlob SPin SRetries STok SMis SKeys SU2f
  SLb SPresence SCompare SIssued SConsumed SU2fPrompt SU2fConsume SU2fTouch SCounterEv SCounter SErase
instance (Q : Oracle → Prop) : SOra Q NoAssertion := ⟨fun _ _ _ h => h⟩
instance : SSpGo NoAssertion := ⟨fun _ _ _ _ => by simp, fun s c c' hc hn h => by
  intro inp keys he
  cases hn with
  | assertion i l k => exact h _ _ hc
  | rp i => simp at he
  | credential l k => simp at he⟩

instance (i : Nat) (ch : Channel) : Pres NoAssertion (setCommand (.enumerateRps i) ch) :=
  ⟨fun s _ => by intro _ _ h; simp [setCommand, bind_def, M.bind, clock, modSp, modV] at h⟩
instance (l : List Nat) (ch : Channel) : Pres NoAssertion (setCommand (.enumerateCredentials l) ch) :=
  ⟨fun s _ => by intro _ _ h; simp [setCommand, bind_def, M.bind, clock, modSp, modV] at h⟩
instance (ch : Channel) : Pres NoAssertion (cmRpsBegin ch) := by unfold cmRpsBegin; pres
instance (a : CmSubParams) (ch : Channel) : Pres NoAssertion (cmCredsBegin a ch) := by unfold cmCredsBegin; pres
instance (a : CmParams) (ch : Channel) : Pres NoAssertion (cmDispatch a ch) := by unfold cmDispatch; pres
instance (a : CmParams) (ch : Channel) : Pres NoAssertion (credentialManagement a ch) := by
  unfold credentialManagement; pres

theorem noAssertion_prelude {cmd : Command} (h : cmd ≠ .getNextAssertion) : NoAssertion (prelude cmd ch s) := by
  intro inp keys
  show StatefulPerm.cmd (if _ then _ else _) ≠ _
  split
  · rename_i hk
    intro he
    rw [he] at hk
    cases cmd <;> simp_all [keepsStateful]
  · exact fun h => by cases h

theorem NoAssertion.prelude {cmd : Command} (h : NoAssertion s) : NoAssertion (prelude cmd ch s) := by
  intro inp keys he
  revert he
  show StatefulPerm.cmd (if _ then _ else _) = _ → _
  unfold StatefulPerm.clearOldChannels StatefulPerm.clearTimer
  intro he
  repeat' split at he
  all_goals first | exact h _ _ he | (cases he; done)

/-- Commands other than a first request do not start a sequence of assertions. -/
theorem noAssertion_command {cmd : Command} (h : ∀ a, cmd ≠ .getAssertion a) (hs : NoAssertion s) :
    NoAssertion (channelCommand ch cmd s).2 := by
  cases ch with
  | vendor c => cases cmd <;> unfold channelCommand vendorChannelCommand <;> exact Pres.out (I := NoAssertion) (self := by pres) _ hs
  | main c =>
    cases cmd with
    | getAssertion a => exact absurd rfl (h a)
    | credMgmt a => exact Pres.out (I := NoAssertion) (m := credentialManagement a _) _ hs
    | getNextAssertion => exact Pres.out (I := NoAssertion) (m := getNextAssertion) _ hs
    | makeCredential a => exact Pres.out (I := NoAssertion) (m := makeCredential a) _ hs
    | getInfo => exact Pres.out (I := NoAssertion) (m := getInfo) _ hs
    | clientPin a =>
      exact Pres.out (I := NoAssertion) (m := do let r ← clientPinCommand a; M.pure (Response.clientPin r)) _ hs
    | reset => exact Pres.out (I := NoAssertion) (m := resetCommand) _ hs
    | selection => exact Pres.out (I := NoAssertion) (m := selection) _ hs
    | largeBlobs a => exact Pres.out (I := NoAssertion) (m := largeBlobsCommand a) _ hs
    | config a => exact Pres.out (I := NoAssertion) (m := configCommand a) _ hs

/-- What a message does after parsing. -/
theorem stepM_msg {I : St → Prop} {msg : Bytes} {cmd : Command} (hd : Command.deserialize msg = .ok cmd)
    (h : I (processParsed cmd ch s).2) [hp : ∀ r, Pres I (respond r)] : I (stepM (.ctap2 ch msg) s).2 := by
  suffices h : I (processCommand ch msg s).2 from bind_snd h fun _ s1 h1 => by rw [h1] at h; exact h
  have h2 : I ((processParsed cmd ch >>= respond) s).2 :=
    bind_snd h fun r s1 h1 => by
      rw [h1] at h
      exact (hp r).out _ h
  simp only [processCommand, hd]
  show I (errorByte (processParsed cmd ch >>= respond) s).2
  unfold errorByte
  rcases hm : (processParsed cmd ch >>= respond) s with ⟨r, s1⟩
  rw [hm] at h2
  cases r <;> exact h2

/-- What other inputs do. -/
theorem stepM_idle {I : St → Prop} {i : Input} (hi : i.idle) (hs : I s) [SEnv I] [∀ m, Pres I (processU2f m)]
    [Pres I touchButton] : I (stepM i s).2 := by
  cases i with
  | ctap2 ch msg =>
    cases hd : Command.deserialize msg with
    | ok cmd => exact absurd hd (hi ch msg cmd rfl)
    | error e => simpa only [stepM, processCommand, hd, bind_def, M.bind, M.pure] using hs
  | ctap1 msg =>
    have : Pres I (stepM (.ctap1 msg)) := by unfold stepM; pres
    exact this.out _ hs
  | touch =>
    have : Pres I (stepM .touch) := by unfold stepM; pres
    exact this.out _ hs
  | wait n => exact (presWait n).out _ hs

theorem noAssertion_step {i : Input} (hi : ∀ ch msg cmd, i = .ctap2 ch msg → Command.deserialize msg = .ok cmd →
    ∀ a, cmd ≠ .getAssertion a) (hs : NoAssertion s) : NoAssertion (stepM i s).2 := by
  by_cases h : ∃ ch msg cmd, i = .ctap2 ch msg ∧ Command.deserialize msg = .ok cmd
  · obtain ⟨ch, msg, cmd, rfl, hd⟩ := h
    refine stepM_msg hd ?_
    rw [processParsed_eq]
    exact noAssertion_command (hi _ _ _ rfl hd) hs.prelude
  · exact stepM_idle (fun ch msg cmd h1 h2 => h ⟨ch, msg, cmd, h1, h2⟩) hs

end Verif.Ctap
