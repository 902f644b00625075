import Verif.Ctap.ResetSpec
import Verif.Ctap.PropsMgmt

/-!
# C18, C19: factory reset
-/
namespace Verif.Ctap
set_option linter.unusedSectionVars false
variable [Dev] {P : Oracle → Prop} {s s' : St} {ch : Channel}

/-! ## The permission to reset -/

/-- The permission to reset, if there is one, ends 10 s after `t`; and `q` holds. -/
def ResetUntil (q : Prop) (t : Nat) (s : St) : Prop :=
  s.v.sp.cmd = some .reset → q ∧ s.v.sp.timer = makeTimer t 10000

section
variable (q : Prop) (t : Nat)
instance : SEnv (ResetUntil q t) := ⟨fun _ _ _ _ h => h⟩
stable_instances (ResetUntil q t) under SMaster SCreds SMinPin SRpIds SForce SEp SAlwaysUv SLargeBlob SPin SRetries STok SMis SKeys
  SU2f SLb SPresence SCompare SIssued SConsumed SU2fPrompt SU2fConsume SU2fTouch SCounterEv SCounter SErase
instance (Q : Oracle → Prop) : SOra Q (ResetUntil q t) := ⟨fun _ _ _ h => h⟩
instance : SSpGo (ResetUntil q t) where
  drop _ _ h := by cases h
  next s c c' hc hn h he := by cases hn <;> cases he
instance : SSpSet (ResetUntil q t) := ⟨fun s c ch hc h he => absurd (Option.some.inj he) hc⟩
step_instances (ResetUntil q t)
end

theorem ResetUntil.prelude {cmd : Command} {q : Prop} {t : Nat} (h : ResetUntil q t s) : ResetUntil q t (prelude cmd ch s) := by
  intro he
  revert he
  show StatefulPerm.cmd (if _ then _ else _) = _ → _ ∧ StatefulPerm.timer (if _ then _ else _) = _
  unfold StatefulPerm.clearOldChannels StatefulPerm.clearTimer
  intro he
  repeat' split at he
  all_goals first | (cases he; done) | skip
  all_goals simp_all [ResetUntil]

/-- Other requests end the permission. -/
theorem resetUntil_harmful {cmd : Command} {t : Nat} (h : cmd.harmless = false) : ResetUntil False t (prelude cmd ch s) := by
  intro he
  exfalso
  revert he
  show StatefulPerm.cmd (if _ then _ else _) = _ → _
  split
  · rename_i hk
    intro he
    rw [he] at hk
    cases cmd <;> simp_all [keepsStateful, Command.harmless]
  · exact fun h => by cases h

theorem bootM_now (ha : (bootM s).1.alive = true) :
    (bootM s).2.v.sp = { timer := makeTimer (bootM s).2.env.now 10000, cmd := some .reset, channel := none } := by
  obtain ⟨e, _, _, ⟨h, _⟩ | ⟨p1, p2, h⟩⟩ := bootM_cases s
  · rw [h] at ha; cases ha
  · rw [h]

theorem poweredUp_reset {t : Nat} {cmds : List Command} (h : PoweredUp P t cmds s) :
    ResetUntil (∀ c ∈ cmds, c.harmless = true) t s := by
  induction h with
  | boot h ho ha =>
    intro _
    rw [bootM_now ha]
    simp
  | step h ho ha ih =>
    rename_i t cmds s o i
    by_cases hi : ∃ ch msg cmd, i = .ctap2 ch msg ∧ Command.deserialize msg = .ok cmd
    · obtain ⟨ch, msg, cmd, rfl, hd⟩ := hi
      have hq : (Input.ctap2 ch msg).requests = [cmd] := by simp [Input.requests, hd]
      rw [hq]
      cases hh : cmd.harmless with
      | true =>
        have := (inferInstance : Pres (ResetUntil (∀ c ∈ cmds, c.harmless = true) t) (stepM (.ctap2 ch msg))).out _
          (SOra.out (P := P) (I := ResetUntil (∀ c ∈ cmds, c.harmless = true) t) s o ho ih)
        intro he
        obtain ⟨h1, h2⟩ := this he
        refine ⟨fun c hc => ?_, h2⟩
        rcases List.mem_append.1 hc with hc | hc
        · exact h1 c hc
        · rw [List.mem_singleton.1 hc]; exact hh
      | false =>
        have : ResetUntil False t (stepM (.ctap2 ch msg) (s.withOracle o)).2 := by
          refine stepM_msg hd ?_
          rw [processParsed_eq]
          exact Pres.out (I := ResetUntil False t) _ (resetUntil_harmful hh)
        exact fun he => (this he).1.elim
    · have hq : i.requests = [] := by
        cases i with
        | ctap2 ch msg =>
          cases hd : Command.deserialize msg with
          | ok c => exact absurd ⟨ch, msg, c, rfl, hd⟩ hi
          | error e => simp [Input.requests, hd]
        | _ => rfl
      rw [hq, List.append_nil]
      exact Pres.out (I := ResetUntil _ t) _
          (SOra.out (P := P) (I := ResetUntil (∀ c ∈ cmds, c.harmless = true) t) s o ho ih)

/-- Every running device was powered up. -/
theorem poweredUp_of_reach {b : Bool} (h : Reach P b s) (hb : b = true) : ∃ t cmds, PoweredUp P t cmds s := by
  induction h with
  | factory => cases hb
  | boot o ho h ih => exact ⟨_, _, .boot h ho hb⟩
  | step o ho i h ih =>
    obtain ⟨t, cmds, h'⟩ := ih rfl
    exact ⟨_, _, .step h' ho hb⟩

/-! ## The command -/

theorem clear_eq {p : Persist} (hc : CredsOk p.creds) : p.clear NUM_PERSISTENT_KEYS = .factory p.attestation := by
  have : p.creds.filter (fun e => e.1 < NUM_PERSISTENT_KEYS) = [] := by
    rw [List.filter_eq_nil_iff]
    intro e he
    have h1 : 1700 ≤ e.1 := (hc.range e he).1
    show ¬ decide (e.1 < 20) = true
    rw [decide_eq_true_eq]
    omega
  unfold Persist.clear
  rw [this]
  rfl

/-- The persistent data is `p`. -/
def HasP (p : Persist) (s : St) : Prop := s.p = p

/-- All is erased, after a touch. -/
def Erased (p : Persist) (l : List Ev) (s : St) : Prop := s.p = .factory p.attestation ∧ Marked l Ev.isPresence s

section
variable (p : Persist) (l : List Ev)
instance : SEnv (Erased p l) := ⟨fun _ _ _ _ h => h⟩
stable_instances (Erased p l) under STok SMis SKeys SU2f
end

theorem writeMaster_erased {p : Persist} {l : List Ev} (h : Erased p l s) :
    Erased p l (mapErr (fun _ => .internalError) (writeP fun p => { p with master := none }) s).2 := by
  rw [mapErr_snd]
  rcases writeP_snd (fun p => { p with master := none }) [] s with h1 | h1 <;> rw [h1]
  · exact h
  · refine ⟨?_, h.2⟩
    show { s.p with master := none } = _
    rw [h.1]; rfl

/-! ## Nothing else erases -/

/-- Nothing was erased since the history `l`, when the master secret was `m`. -/
def Unerased (l : List Ev) (m : Option Bytes) (s : St) : Prop :=
  erasures s.log = erasures l ∧ (m ≠ none → s.p.master = m)

theorem Unerased.cons {l : List Ev} {m : Option Bytes} {e : Ev} (h : Unerased l m s) (he : (e == .erased) = false) :
    Unerased l m { s with log := e :: s.log } := by
  refine ⟨?_, h.2⟩
  show List.count _ _ = _
  rw [List.count_cons, he]
  exact h.1

section
variable (l : List Ev) (m : Option Bytes)
local notation "K" => Unerased l m
instance : SEnv K := ⟨fun _ _ _ _ h => h⟩
stable_instances K under SCreds SMinPin SRpIds SForce SEp SAlwaysUv SLargeBlob SPin SRetries STok SMis SKeys SU2f SLb SSp
instance : SMaster K := ⟨fun s x h => ⟨h.1, fun hm => absurd ((h.2 hm).symm.trans x.2.2) hm⟩⟩
instance : SCounter K := ⟨fun s n w h => by
  cases w
  · exact Unerased.cons (s := { s with p := { s.p with counter := n } }) h rfl
  · exact h⟩
instance : SPresence K := ⟨fun _ _ h => h.cons rfl⟩
instance : SCompare K := ⟨fun _ _ h => h.cons rfl⟩
instance : SIssued K := ⟨fun _ _ _ _ h => h.cons rfl⟩
instance : SConsumed K := ⟨fun _ h => h.cons rfl⟩
instance : SU2fPrompt K := ⟨fun _ _ h => h.cons rfl⟩
instance : SU2fConsume K := ⟨fun _ _ h => h.cons rfl⟩
instance : SU2fTouch K := ⟨fun _ _ h => h.cons rfl⟩
instance : SCounterEv K := ⟨fun _ _ _ h => h.cons rfl⟩

/-- Commands other than a reset do not erase. -/
theorem unerased_command {cmd : Command} (h : cmd ≠ .reset) (hs : K s) : K (channelCommand ch cmd s).2 := by
  cases ch with
  | vendor c => cases cmd <;> unfold channelCommand vendorChannelCommand <;> exact Pres.out (I := K) (self := by pres) _ hs
  | main c =>
    cases cmd with
    | getAssertion a => exact Pres.out (I := K) (m := getAssertion a _) _ hs
    | credMgmt a => exact Pres.out (I := K) (m := credentialManagement a _) _ hs
    | getNextAssertion => exact Pres.out (I := K) (m := getNextAssertion) _ hs
    | makeCredential a => exact Pres.out (I := K) (m := makeCredential a) _ hs
    | getInfo => exact Pres.out (I := K) (m := getInfo) _ hs
    | clientPin a => exact Pres.out (I := K) (m := do let r ← clientPinCommand a; M.pure (Response.clientPin r)) _ hs
    | reset => exact absurd rfl h
    | selection => exact Pres.out (I := K) (m := selection) _ hs
    | largeBlobs a => exact Pres.out (I := K) (m := largeBlobsCommand a) _ hs
    | config a => exact Pres.out (I := K) (m := configCommand a) _ hs
end

theorem prelude_keep {cmd : Command} : (prelude cmd ch s).p = s.p ∧ (prelude cmd ch s).log = s.log ∧
    (prelude cmd ch s).env = s.env := ⟨rfl, rfl, rfl⟩

theorem unerased_step {i : Input} (hi : i.requests ≠ [.reset]) :
    Unerased s.log s.p.master (stepM i s).2 := by
  have hs : Unerased s.log s.p.master s := ⟨rfl, fun _ => rfl⟩
  by_cases h : ∃ ch msg cmd, i = .ctap2 ch msg ∧ Command.deserialize msg = .ok cmd
  · obtain ⟨ch, msg, cmd, rfl, hd⟩ := h
    have hq : (Input.ctap2 ch msg).requests = [cmd] := by simp [Input.requests, hd]
    rw [hq] at hi
    refine stepM_msg hd ?_
    rw [processParsed_eq]
    exact unerased_command _ _ (fun h => hi (by rw [h])) hs
  · exact stepM_idle (fun ch msg cmd h1 h2 => h ⟨ch, msg, cmd, h1, h2⟩) hs

theorem requests_reset {i : Input} (hi : i.requests = [.reset]) :
    ∃ ch msg, i = .ctap2 ch msg ∧ Command.deserialize msg = .ok .reset := by
  cases i with
  | ctap2 ch msg =>
    cases hd : Command.deserialize msg with
    | ok c => simp [Input.requests, hd] at hi; exact ⟨ch, msg, rfl, by rw [hd, hi]⟩
    | error e => simp [Input.requests, hd] at hi
  | _ => cases hi

/-- What a reset does: nothing, or it erases all after a touch. -/
theorem reset_cases (hc : CredsOk s.p.creds) :
    (resetCommand s).2.p = s.p ∧ Unerased s.log none (resetCommand s).2 ∨
    (s.v.sp.clearTimer s.env.now).cmd = some .reset ∧ Erased s.p s.log (resetCommand s).2 := by
  unfold resetCommand
  simp only [bind_def, M.bind, getCommand_run]
  cases hg : guardE ((s.v.sp.clearTimer s.env.now).cmd == some .reset) .notAllowed
    { s with v := { s.v with sp := s.v.sp.clearTimer s.env.now } } with
  | mk r s1 =>
  have hp1 := keepP hg
  have hl1 : Unerased s.log none s1 := by
    have := Pres.out (I := Unerased s.log none) (m := guardE ((s.v.sp.clearTimer s.env.now).cmd == some .reset) .notAllowed)
      { s with v := { s.v with sp := s.v.sp.clearTimer s.env.now } } ⟨rfl, fun h => absurd rfl h⟩
    rw [hg] at this; exact this
  cases r with
  | ok u =>
    rw [guardE_ok] at hg
    obtain ⟨hcmd, rfl⟩ := hg
    have hcmd : (s.v.sp.clearTimer s.env.now).cmd = some .reset := by simpa using hcmd
    simp only
    cases hpr : checkPresenceE { s with v := { s.v with sp := s.v.sp.clearTimer s.env.now } } with
    | mk r s2 =>
    have hp2 := keepP hpr
    have hl2 : Unerased s.log none s2 := by
      have := Pres.out (I := Unerased s.log none) (m := checkPresenceE) _ hl1
      rw [hpr] at this; exact this
    cases r with
    | ok u =>
      obtain ⟨e, _, rfl⟩ := presenceE_ok hpr
      simp only
      have hm : Marked s.log Ev.isPresence ⟨e, s.p, { s.v with sp := s.v.sp.clearTimer s.env.now }, .presence e.now :: s.log⟩ :=
        ⟨[.presence e.now], rfl, _, List.mem_singleton.2 rfl, rfl⟩
      suffices h : ∀ s3 : St, s3.p = s.p → Marked s.log Ev.isPresence s3 → Unerased s.log none s3 →
          ((resetStorage s3).2.p = s.p ∧ Unerased s.log none (resetStorage s3).2) ∧ (∀ u, (resetStorage s3).1 ≠ .ok u) ∨ Erased s.p s.log (resetStorage s3).2 by
        rcases hrs : resetStorage ⟨e, s.p, { s.v with sp := s.v.sp.clearTimer s.env.now }, .presence e.now :: s.log⟩ with ⟨r, s4⟩
        have := h ⟨e, s.p, { s.v with sp := s.v.sp.clearTimer s.env.now }, .presence e.now :: s.log⟩ rfl hm hl2
        rw [hrs] at this
        cases r with
        | ok u =>
          rcases this with ⟨_, h⟩ | h
          · exact absurd rfl (h u)
          · refine .inr ⟨hcmd, ?_⟩
            have hu : Pres (Erased s.p s.log) (modV fun v => { v with u2f := U2fUp.new }) := Pres.u2f _
            have : Pres (Erased s.p s.log) (do
              resetClientPin
              modV fun v => { v with u2f := U2fUp.new }
              M.pure Response.reset) := by pres
            exact this.out _ h
        | _ =>
          rcases this with ⟨h, _⟩ | h
          · exact .inl h
          · exact .inr ⟨hcmd, h⟩
      intro s3 hp3 hm3 hl3
      unfold resetStorage
      simp only [bind_def, M.bind]
      rcases hw : writeP (Persist.clear NUM_PERSISTENT_KEYS) [.erased] s3 with ⟨r, s4⟩
      have hE : (s4.p = s.p ∧ Unerased s.log none s4) ∨ Erased s.p s.log s4 := by
        rcases writeP_snd (Persist.clear NUM_PERSISTENT_KEYS) [.erased] s3 with h | h <;> rw [hw] at h <;> dsimp only at h <;> subst h
        · exact .inl ⟨hp3, hl3⟩
        · refine .inr ⟨?_, hm3.cons _⟩
          show s3.p.clear _ = _
          rw [hp3, clear_eq hc]
      cases r with
      | ok u =>
        have h4 := writeP_ok hw
        subst h4
        refine .inr (writeMaster_erased ⟨?_, hm3.cons _⟩)
        show s3.p.clear _ = _
        rw [hp3, clear_eq hc]
      | _ =>
        rcases hE with h | h
        · exact .inl ⟨h, by simp⟩
        · exact .inr h
    | _ => exact .inl ⟨hp2.trans rfl, hl2⟩
  | _ => exact .inl ⟨hp1.trans rfl, hl1⟩


/-- What a successful reset does. -/
theorem resetCommand_ok {r : Response} (hc : CredsOk s.p.creds) (h : resetCommand s = (.ok r, s')) :
    (s.v.sp.clearTimer s.env.now).cmd = some .reset ∧ Erased s.p s.log s' ∧
    s'.v.pin.tok = TokenState.new ∧ s'.v.pin.mismatches = 0 ∧ s'.v.u2f = U2fUp.new := by
  unfold resetCommand at h
  obtain ⟨c, s1, h1, h⟩ := bind_ok.1 h
  rw [getCommand_run] at h1
  cases h1
  obtain ⟨_, s2, h2, h⟩ := bind_ok.1 h
  obtain ⟨hcmd, rfl⟩ := guardE_ok.1 h2
  obtain ⟨_, s3, h3, h⟩ := bind_ok.1 h
  obtain ⟨e, _, rfl⟩ := presenceE_ok h3
  obtain ⟨_, s4, h4, h⟩ := bind_ok.1 h
  obtain ⟨_, s5, h5, h⟩ := bind_ok.1 h
  obtain ⟨_, s6, h6, h⟩ := bind_ok.1 h
  obtain ⟨_, rfl⟩ := pure_ok.1 h
  have h6 := modV_ok.1 h6
  have he4 : Erased s.p s.log s4 := by
    unfold resetStorage at h4
    obtain ⟨_, s7, h7, h8⟩ := bind_ok.1 h4
    have h7 := writeP_ok h7
    have := writeMaster_erased (p := s.p) (l := s.log) (s := s7) (by
      rw [h7]
      refine ⟨?_, [.erased, .presence e.now], rfl, _, List.mem_cons_of_mem _ (List.mem_singleton.2 rfl), rfl⟩
      exact clear_eq hc)
    rw [h8] at this
    exact this
  have he5 : Erased s.p s.log s5 := by
    have := Pres.out (I := Erased s.p s.log) (m := resetClientPin) _ he4
    rw [h5] at this
    exact this
  have hp5 : s5.v.pin.tok = TokenState.new ∧ s5.v.pin.mismatches = 0 := by
    unfold resetClientPin at h5
    obtain ⟨_, _, _, h5⟩ := bind_ok.1 h5
    obtain ⟨_, _, _, h5⟩ := bind_ok.1 h5
    obtain ⟨_, _, _, h5⟩ := bind_ok.1 h5
    obtain ⟨_, _, _, h5⟩ := bind_ok.1 h5
    have h5 := modV_ok.1 h5
    rw [h5]
    exact ⟨rfl, rfl⟩
  refine ⟨by simpa using hcmd, ?_, ?_⟩
  · rw [h6]; exact he5
  · rw [h6]; exact ⟨hp5.1, hp5.2, rfl⟩

/-! ## The properties -/

/-- The outcome of a request to reset, of a device powered up at `t` that got the requests `cmds` since: nothing is
changed; or all but the attestation is erased, within 10 s, after only harmless requests and after a touch. -/
def ResetOutcome (t : Nat) (cmds : List Command) (s s' : St) : Prop :=
  s'.p = s.p ∧ erasures s'.log = erasures s.log ∨
  s'.p = .factory s.p.attestation ∧ s.env.now < t + 10000 ∧ (∀ c ∈ cmds, c.harmless = true) ∧
    HappenedSince s.log Ev.isPresence s'.log

theorem reset_time {t : Nat} (h : s.v.sp.timer = makeTimer t 10000)
    (he : Verif.Hid.Timer.isElapsed s.v.sp.timer s.env.now = false) : s.env.now < t + 10000 := by
  rw [h] at he
  have : ¬ t + 10000 ≤ s.env.now := by simpa [Verif.Hid.Timer.isElapsed, makeTimer] using he
  omega

theorem resetOutcome {t : Nat} {cmds : List Command} {o : Oracle} (h : PoweredUp P t cmds s) (hc : CredsOk s.p.creds) :
    ResetOutcome t cmds s (processParsed .reset ch (s.withOracle o)).2 := by
  rw [processParsed_eq]
  cases ch with
  | vendor c => exact .inl ⟨rfl, rfl⟩
  | main c =>
    show ResetOutcome t cmds s (resetCommand (prelude .reset (.main c) (s.withOracle o))).2
    rcases reset_cases (s := prelude .reset (.main c) (s.withOracle o)) hc with ⟨h1, h2⟩ | ⟨h1, h2⟩
    · exact .inl ⟨h1, h2.1⟩
    · obtain ⟨_, h4, _, _, h6⟩ := prelude_sp (s := s.withOracle o) h1
      obtain ⟨h7, h8⟩ := poweredUp_reset h h4
      refine .inr ⟨h2.1, ?_, h7, h2.2⟩
      exact reset_time h8 h6

theorem poweredUp_reach {t : Nat} {cmds : List Command} (h : PoweredUp P t cmds s) : Reach P true s := by
  induction h with
  | boot h ho ha => exact ha ▸ .boot _ ho h
  | step h ho ha ih => exact ha ▸ .step _ ho _ ih

section
variable (t : Nat) (cmds : List Command) (s : St)
instance : SEnv (ResetOutcome t cmds s) := ⟨fun _ _ _ _ h => h⟩
instance : SCounterEv (ResetOutcome t cmds s) := ⟨fun s1 _ _ h => h.imp
  (fun h => ⟨h.1, (Unerased.cons (m := none) ⟨h.2, fun h => absurd rfl h⟩ rfl).1⟩)
  (fun h => ⟨h.1, h.2.1, h.2.2.1, Marked.cons (s := s1) h.2.2.2 _⟩)⟩
end

/-- **C18.** In any reachable state of a running device, whatever the input and however it ends (also with loss of
power or failing storage): if anything is erased, or an existing master secret changes, then the input is a request
to reset, which came less than 10 s after power-up, after no CTAP2 requests but harmless ones, and the user touched
the device during the request. -/
theorem C18_window {t : Nat} {cmds : List Command} {o : Oracle} {i : Input} (h : PoweredUp P t cmds s)
    (he : erasures (stepM i (s.withOracle o)).2.log ≠ erasures s.log ∨
      s.p.master ≠ none ∧ (stepM i (s.withOracle o)).2.p.master ≠ s.p.master) :
    i.requests = [.reset] ∧ s.env.now < t + 10000 ∧ (∀ c ∈ cmds, c.harmless = true) ∧
      HappenedSince s.log Ev.isPresence (stepM i (s.withOracle o)).2.log := by
  by_cases hi : i.requests = [.reset]
  · obtain ⟨ch, msg, rfl, hd⟩ := requests_reset hi
    refine ⟨hi, ?_⟩
    rcases stepM_msg hd (resetOutcome (ch := ch) (o := o) h (credsOk_reach (poweredUp_reach h))) with ⟨h1, h2⟩ | h1
    · rcases he with he | ⟨_, he⟩
      · exact absurd h2 he
      · exact absurd (congrArg Persist.master h1) he
    · exact h1.2
  · obtain ⟨h1, h2⟩ := unerased_step (s := s.withOracle o) hi
    rcases he with he | ⟨hm, he⟩
    · exact absurd h1 he
    · exact absurd (h2 hm) he

/-- **C18.** A request to reset that is answered with success came in time, after harmless requests only, and the
user touched the device. -/
theorem C18_success {t : Nat} {cmds : List Command} {o : Oracle} {r : Response} (h : PoweredUp P t cmds s)
    (hr : processParsed .reset ch (s.withOracle o) = (.ok r, s')) :
    s.env.now < t + 10000 ∧ (∀ c ∈ cmds, c.harmless = true) ∧ HappenedSince s.log Ev.isPresence s'.log := by
  obtain ⟨⟨c, rfl⟩, h1⟩ := processParsed_ok hr (by simp)
  obtain ⟨h2, h3, _⟩ := resetCommand_ok (s := prelude .reset (.main c) (s.withOracle o)) (credsOk_reach (s := s) (poweredUp_reach h)) h1
  obtain ⟨_, h4, _, _, h6⟩ := prelude_sp (s := s.withOracle o) h2
  obtain ⟨h7, h8⟩ := poweredUp_reset h h4
  exact ⟨reset_time h8 h6, h7, h3.2⟩

/-- **C19.** A request to reset that is answered with success leaves nothing in the storage but the attestation; the
token is no longer valid, and no touch for U2F is remembered. -/
theorem C19_erased {o : Oracle} {r : Response} (h : Reach P true s)
    (hr : processParsed .reset ch (s.withOracle o) = (.ok r, s')) :
    s'.p = .factory s.p.attestation ∧ s'.v.pin.tok = TokenState.new ∧ s'.v.pin.mismatches = 0 ∧ s'.v.u2f = U2fUp.new := by
  obtain ⟨⟨c, rfl⟩, h1⟩ := processParsed_ok hr (by simp)
  obtain ⟨_, h3, h4⟩ := resetCommand_ok (s := prelude .reset (.main c) (s.withOracle o)) (credsOk_reach (s := s) h) h1
  exact ⟨h3.1, h4⟩

/-- **C19.** However a request to reset ends, also with loss of power or failing storage: the storage is as before, or
holds only the attestation. -/
theorem C19_atomic {o : Oracle} {i : Input} (h : Reach P true s) (hi : i.requests = [.reset]) :
    (stepM i (s.withOracle o)).2.p = s.p ∨ (stepM i (s.withOracle o)).2.p = .factory s.p.attestation := by
  obtain ⟨t, cmds, h⟩ := poweredUp_of_reach h rfl
  obtain ⟨ch, msg, rfl, hd⟩ := requests_reset hi
  rcases stepM_msg hd (resetOutcome (ch := ch) (o := o) h (credsOk_reach (poweredUp_reach h))) with h1 | h1
  · exact .inl h1.1
  · exact .inr h1.1

end Verif.Ctap

namespace Verif.Ctap.Toy
set_option maxRecDepth 100000

def reset : Input := .ctap2 ch [0x07]

/-- A device with a PIN and credentials, powered up again. -/
def rebooted : St := boot good managed

theorem reach_rebooted {P : Oracle → Prop} (h : P good) (hs : ∀ n, P (seed n)) : Reach P true rebooted :=
  reach_boot good h (reach_managed h hs) (by decide +kernel)

theorem poweredUp_rebooted {P : Oracle → Prop} (h : P good) (hs : ∀ n, P (seed n)) :
    PoweredUp P rebooted.env.now [] rebooted := .boot (reach_managed h hs) h (by decide +kernel)

/-- C18, C19: a reset right after power-up erases the PIN, the credentials and the master secret. -/
example : rebooted.stored.length = 3 ∧ rebooted.p.pin ≠ none ∧ rebooted.p.master ≠ none ∧
    reset.requests = [.reset] ∧ bytes good reset rebooted = some [0] ∧
    (step good reset rebooted).p = .factory rebooted.p.attestation ∧
    erasures (step good reset rebooted).log = erasures rebooted.log + 1 := by decide +kernel

/-- C18: refused after 10 s, without touch, and after a request for an assertion; nothing changes. -/
example : bytes good reset (step good (.wait 10000) rebooted) = some [Status.notAllowed.toByte] ∧
    bytes idle reset rebooted = some [Status.userActionTimeout.toByte] ∧
    bytes good reset (step good (assert rpA none none) rebooted) = some [Status.notAllowed.toByte] ∧
    (step idle reset rebooted).p = rebooted.p := by decide +kernel

/-- C18: information requests and U2F messages do not end the permission. -/
example : bytes good reset (step good (.ctap1 [0, 3, 0, 0, 0, 0, 0]) (step good (.ctap2 ch [4]) rebooted)) = some [0] := by
  decide +kernel

/-- C19: power loss during the erasure: before, nothing is lost; after, all is. -/
example : ((List.range 5).map fun n => decide ((step (cutAt n) reset rebooted).p = rebooted.p)) =
      [true, true, false, false, false] := by decide +kernel

end Verif.Ctap.Toy
