import Verif.Ctap.U2fUpSpec
import Verif.Ctap.PropsCounter

/-!
# C16, C17: user presence for U2F
-/
namespace Verif.Ctap
set_option linter.unusedSectionVars false
variable [Dev] {P : Oracle → Prop} {s s' : St} {ch : Channel}

/-- All touches that were used are confirmed by the history. -/
def UsedOk (log : List Ev) : Prop := ∀ pre t before, log = pre ++ .u2fConsume t :: before → Touched t before

/-- Events of U2F user presence and power-up. -/
def Ev.isUp : Ev → Bool
  | .u2fConsume _ => true
  | .u2fTouch _ => true
  | .u2fPrompt _ => true
  | .boot _ => true
  | _ => false

theorem UsedOk.cons {e : Ev} {l : List Ev} (h : UsedOk l) (he : ∀ t, e = .u2fConsume t → Touched t l) : UsedOk (e :: l) := by
  intro pre t before hb
  cases pre with
  | nil =>
    cases hb
    exact he t rfl
  | cons x pre =>
    cases hb
    exact h pre t before rfl

theorem unused_cons {e : Ev} {l : List Ev} (h : Unused l) (h1 : ∀ t, e ≠ .u2fConsume t) (h2 : ∀ t, e ≠ .boot t) : Unused (e :: l) :=
  List.forall_mem_cons.2 ⟨⟨h1, h2⟩, h⟩

/-- The invariant: what is stored about user presence is confirmed by the history. -/
structure UpOk (s : St) : Prop where
  used : UsedOk s.log
  has : ∀ d, s.v.u2f.hasUp = some d → ∃ mid t1 rest, s.log = mid ++ .u2fTouch t1 :: rest ∧ Unused mid ∧ t1 ≤ s.env.now ∧
    d = t1 + 30000 ∧ Asked t1 rest
  needs : ∀ d, s.v.u2f.needsUp = some d → s.env.now < d → ∃ mid t0 rest, s.log = mid ++ .u2fPrompt t0 :: rest ∧ Unused mid ∧
    (∀ e ∈ mid, ∀ t, e ≠ .u2fTouch t) ∧ t0 ≤ s.env.now ∧ d = t0 + 10000
  excl : ∀ d d', s.v.u2f.needsUp = some d → s.v.u2f.hasUp = some d' → d' ≤ s.env.now

theorem UpOk.cons {e : Ev} (h : UpOk s) (he : e.isUp = false) : UpOk { s with log := e :: s.log } := by
  have h1 : ∀ t, e ≠ .u2fConsume t := by rintro t rfl; cases he
  have h2 : ∀ t, e ≠ .boot t := by rintro t rfl; cases he
  have h3 : ∀ t, e ≠ .u2fTouch t := by rintro t rfl; cases he
  refine ⟨h.used.cons fun t ht => absurd ht (h1 t), fun d hd => ?_, fun d hd hl => ?_, h.excl⟩
  · obtain ⟨mid, t1, rest, a1, a2, a3⟩ := h.has d hd
    exact ⟨e :: mid, t1, rest, by simp [a1], unused_cons a2 h1 h2, a3⟩
  · obtain ⟨mid, t1, rest, a1, a2, a3, a4⟩ := h.needs d hd hl
    exact ⟨e :: mid, t1, rest, by simp [a1], unused_cons a2 h1 h2, List.forall_mem_cons.2 ⟨h3, a3⟩, a4⟩

instance : SEnv UpOk := ⟨fun s e h1 _ h => ⟨h.used, fun d hd => by
    obtain ⟨mid, t1, rest, a1, a2, a3, a4⟩ := h.has d hd
    exact ⟨mid, t1, rest, a1, a2, Nat.le_trans a3 h1, a4⟩, fun d hd hl => by
    obtain ⟨mid, t1, rest, a1, a2, a3, a4, a5⟩ := h.needs d hd (Nat.lt_of_le_of_lt h1 hl)
    exact ⟨mid, t1, rest, a1, a2, a3, Nat.le_trans a4 h1, a5⟩, fun d d' h2 h3 => Nat.le_trans (h.excl d d' h2 h3) h1⟩⟩
instance : SMaster UpOk := ⟨fun _ _ h => ⟨h.1, h.2, h.3, h.4⟩⟩
instance : SIncr UpOk := ⟨fun s n _ _ h => by
  have h' : UpOk { s with p := { s.p with counter := some ((s.p.counter.getD 1 + n) % 2 ^ 32) } } := ⟨h.1, h.2, h.3, h.4⟩
  by_cases hw : s.p.counter.getD 1 + n < 2 ^ 32
  · simp only [hw, if_true]; exact h'
  · simp only [hw, if_false]; exact h'.cons rfl⟩
instance : SCounterEv UpOk := ⟨fun _ _ _ h => h.cons rfl⟩

/-- During a CTAP2 command. -/
structure UpNew (s : St) : Prop where
  used : UsedOk s.log
  new : s.v.u2f = U2fUp.new

theorem UpNew.ok (h : UpNew s) : UpOk s :=
  ⟨h.used, (fun d hd => by rw [h.new] at hd; cases hd), (fun d hd => by rw [h.new] at hd; cases hd),
    (fun d d' hd => by rw [h.new] at hd; cases hd)⟩

theorem UpNew.cons {e : Ev} (h : UpNew s) (he : e.isUp = false) : UpNew { s with log := e :: s.log } :=
  ⟨h.used.cons (fun t ht => by subst ht; cases he), h.new⟩

instance : SEnv UpNew := ⟨fun _ _ _ _ h => ⟨h.1, h.2⟩⟩
section
local macro "keepN" : term => `(by constructor; intros; rename_i h; exact ⟨h.1, h.2⟩)
instance : SMaster UpNew := keepN
instance : SCreds UpNew := keepN
instance : SMinPin UpNew := keepN
instance : SRpIds UpNew := keepN
instance : SForce UpNew := keepN
instance : SEp UpNew := keepN
instance : SAlwaysUv UpNew := keepN
instance : SLargeBlob UpNew := keepN
instance : SPin UpNew := keepN
instance : SRetries UpNew := keepN
instance : STok UpNew := keepN
instance : SMis UpNew := keepN
instance : SKeys UpNew := keepN
instance : SSp UpNew := keepN
instance : SLb UpNew := keepN
end
instance : SPresence UpNew := ⟨fun _ _ h => h.cons rfl⟩
instance : SCompare UpNew := ⟨fun _ _ h => h.cons rfl⟩
instance : SIssued UpNew := ⟨fun _ _ _ _ h => h.cons rfl⟩
instance : SConsumed UpNew := ⟨fun _ h => h.cons rfl⟩
instance : SCounterEv UpNew := ⟨fun _ _ _ h => h.cons rfl⟩
instance : SErase UpNew := ⟨fun _ h => ⟨(h.cons (e := .erased) rfl).1, h.2⟩⟩
instance : SIncr UpNew := ⟨fun s n _ _ h => by
  have h' : UpNew { s with p := { s.p with counter := some ((s.p.counter.getD 1 + n) % 2 ^ 32) } } := ⟨h.1, h.2⟩
  by_cases hw : s.p.counter.getD 1 + n < 2 ^ 32
  · simp only [hw, if_true]; exact h'
  · simp only [hw, if_false]; exact h'.cons rfl⟩
instance : Pres UpNew (modV fun v => { v with u2f := U2fUp.new }) := ⟨fun _ h => ⟨h.1, rfl⟩⟩
instance : Pres UpNew resetCommand := by unfold resetCommand; pres

set_option synthInstance.maxHeartbeats 200000 in
set_option synthInstance.maxSize 4000 in
theorem new_command {cmd : Command} (hs : UpNew s) : UpNew (channelCommand ch cmd s).2 :=
  Pres.out (I := UpNew) (m := channelCommand ch cmd) _ hs


/-! ## U2F requests and touches -/

theorem consumeUp_eq (s : St) : consumeUp s = (.ok (s.v.u2f.consume s.env.now).1,
    { s with v := { s.v with u2f := (s.v.u2f.consume s.env.now).2 }
             log := (if (s.v.u2f.consume s.env.now).1 then .u2fConsume s.env.now else .u2fPrompt s.env.now) :: s.log }) := rfl

instance : Pres UpOk consumeUp := by
  constructor
  intro s h
  rw [consumeUp_eq]
  unfold U2fUp.consume
  cases he : Verif.Hid.Timer.isElapsed s.v.u2f.hasUp s.env.now with
  | true =>
    simp only [if_true, Bool.false_eq_true, if_false]
    refine ⟨h.used.cons (by simp), fun d hd => ?_, fun d hd _ => ?_, fun d d' _ hd => ?_⟩
    · obtain ⟨mid, t1, rest, a1, a2, a3⟩ := h.has d hd
      exact ⟨.u2fPrompt s.env.now :: mid, t1, rest, by simp [a1], unused_cons a2 (by simp) (by simp), a3⟩
    · cases hd
      exact ⟨[], s.env.now, s.log, rfl, by simp [Unused], by simp, Nat.le_refl _, rfl⟩
    · replace hd : s.v.u2f.hasUp = some d' := hd
      rw [hd] at he
      simpa [Verif.Hid.Timer.isElapsed] using he
  | false =>
    simp only [if_true, Bool.false_eq_true, if_false]
    cases hu : s.v.u2f.hasUp with
    | none => rw [hu] at he; cases he
    | some d =>
      obtain ⟨mid, t1, rest, a1, a2, a3, a4, a5⟩ := h.has d hu
      rw [hu] at he
      have hd : ¬ d ≤ s.env.now := by simpa [Verif.Hid.Timer.isElapsed] using he
      refine ⟨h.used.cons ?_, (fun d hd => by cases hd), fun d' hd' _ => ?_, (fun _ _ _ hd => by cases hd)⟩
      · intro t e
        cases e
        exact ⟨mid, t1, rest, a1, a2, a3, by omega, a5⟩
      · exact absurd (h.excl d' d hd' hu) hd

instance : Pres UpOk touchButton := by
  constructor
  intro s h
  show UpOk { s with v := { s.v with u2f := s.v.u2f.grant s.env.now }, log := .u2fTouch s.env.now :: s.log }
  unfold U2fUp.grant
  cases he : Verif.Hid.Timer.isElapsed s.v.u2f.needsUp s.env.now with
  | true =>
    simp only [if_true]
    refine ⟨h.used.cons (by simp), fun d hd => ?_, fun d hd hl => ?_, h.excl⟩
    · obtain ⟨mid, t1, rest, a1, a2, a3⟩ := h.has d hd
      exact ⟨.u2fTouch s.env.now :: mid, t1, rest, by simp [a1], unused_cons a2 (by simp) (by simp), a3⟩
    · replace hd : s.v.u2f.needsUp = some d := hd
      rw [hd] at he
      have he : d ≤ s.env.now := by simpa [Verif.Hid.Timer.isElapsed] using he
      exact absurd hl (Nat.not_lt.2 he)
  | false =>
    simp only [Bool.false_eq_true, if_false]
    cases hn : s.v.u2f.needsUp with
    | none => rw [hn] at he; cases he
    | some d =>
      rw [hn] at he
      have hd : s.env.now < d := by simpa [Verif.Hid.Timer.isElapsed] using he
      obtain ⟨mid, t0, rest, a1, a2, a3, a4, a5⟩ := h.needs d hn hd
      refine ⟨h.used.cons (by simp), fun d' hd' => ?_, (fun _ hd => by cases hd), (fun _ _ hd => by cases hd)⟩
      cases hd'
      exact ⟨[], s.env.now, s.log, rfl, by simp [Unused], Nat.le_refl _, rfl, mid, t0, rest, a1, a2, a3, a4, by omega⟩

instance (c : U2fCommand) : Pres UpOk (u2fDispatch c) := by
  unfold u2fDispatch u2fCheckUp
  pres

instance (m : Bytes) : Pres UpOk (u2fCommand m) := by
  unfold u2fCommand
  pres

theorem up_step {i : Input} (hs : UpOk s) : UpOk (stepM i s).2 := by
  cases i with
  | ctap2 ch msg =>
    cases hd : Command.deserialize msg with
    | error e => simpa only [stepM, processCommand, hd, bind_def, M.bind, M.pure] using hs
    | ok cmd =>
      refine (stepM_msg (I := UpNew) hd ?_).ok
      rw [processParsed_eq]
      exact new_command ⟨hs.used, rfl⟩
  | ctap1 msg =>
    have : Pres UpOk (stepM (.ctap1 msg)) := by unfold stepM; pres
    exact this.out _ hs
  | touch =>
    have : Pres UpOk (stepM .touch) := by unfold stepM; pres
    exact this.out _ hs
  | wait ms => exact (presWait (I := UpOk) ms).out _ hs

theorem up_reach {b : Bool} (h : Reach P b s) : UpOk s := by
  induction h with
  | factory env att =>
    exact ⟨(fun pre t before h => by cases pre <;> cases h), (fun _ h => by cases h), (fun _ h => by cases h), (fun _ _ h => by cases h)⟩
  | boot o ho h ih =>
    obtain ⟨e, _, _, ⟨ha, h⟩ | ⟨p1, p2, h⟩⟩ := bootM_cases (St.withOracle _ o)
    · rw [h]
      have h2 := SEnv.out (I := UpOk) (St.withOracle _ o) e ‹_› ‹_› ⟨ih.1, ih.2, ih.3, ih.4⟩
      exact h2
    · rw [h]
      exact ⟨ih.used.cons (by simp), (fun _ h => by cases h), (fun _ h => by cases h), (fun _ _ h => by cases h)⟩
  | step o ho i h ih => exact up_step (s := St.withOracle _ o) ⟨ih.1, ih.2, ih.3, ih.4⟩

/-- **C16**: whenever a request uses a touch, the button was touched less than 30 s ago, no touch was used since (so two
requests never use the same touch), and a request had asked for the touch less than 10 s before it. -/
theorem C16_touched {b : Bool} (h : Reach P b s) {pre before : List Ev} {t : Nat}
    (hl : s.log = pre ++ .u2fConsume t :: before) : Touched t before :=
  (up_reach h).used pre t before hl

/-- What happens after the history `l`, without user presence. -/
def After (l : List Ev) (s : St) : Prop := ∃ mid, s.log = mid ++ l ∧ ∀ e ∈ mid, e.isUp = false

theorem After.cons {l : List Ev} {e : Ev} (h : After l s) (he : e.isUp = false) : After l { s with log := e :: s.log } := by
  obtain ⟨mid, h1, h2⟩ := h
  exact ⟨e :: mid, by simp [h1], List.forall_mem_cons.2 ⟨he, h2⟩⟩

section
variable {l : List Ev}
instance : SEnv (After l) := ⟨fun _ _ _ _ h => h⟩
instance : SMaster (After l) := ⟨fun _ _ h => h⟩
instance : SIncr (After l) := ⟨fun s n _ _ h => by
  have h' : After l { s with p := { s.p with counter := some ((s.p.counter.getD 1 + n) % 2 ^ 32) } } := h
  by_cases hw : s.p.counter.getD 1 + n < 2 ^ 32
  · simp only [hw, if_true]; exact h'
  · simp only [hw, if_false]; exact h'.cons rfl⟩
instance : SCounterEv (After l) := ⟨fun _ _ _ h => h.cons rfl⟩
end

theorem after_u2f {c : U2fCommand} {r : Bytes} (h : u2fDispatch c s = (.ok (.ok r), s')) (hc : c.needsTouch = true) :
    After (.u2fConsume s.env.now :: s.log) s' := by
  cases c with
  | register ch ap =>
    simp only [u2fDispatch, bind_ok] at h
    obtain ⟨up, s1, h1, h⟩ := h
    cases up with
    | false =>
      simp only [Bool.false_eq_true, if_false, pure_ok] at h
      cases h.1
    | true =>
      simp only [if_true] at h
      have h2 : After (.u2fConsume s.env.now :: s.log) s1 := by
        rw [consumeUp_eq] at h1
        obtain ⟨h3, rfl⟩ := Prod.mk.inj h1
        rw [Res.ok.inj h3]
        exact ⟨[], rfl, by simp⟩
      have := Pres.out (I := After (.u2fConsume s.env.now :: s.log)) (m := u2fRegister ch ap) _ h2
      rwa [h] at this
  | authenticate ch ap hd f =>
    have hf : f = .enforce := by simpa [U2fCommand.needsTouch] using hc
    subst hf
    simp only [u2fDispatch, u2fCheckUp, if_true, bind_ok] at h
    obtain ⟨up, s1, h1, h⟩ := h
    cases up with
    | false =>
      simp only [Bool.false_eq_true, if_false, pure_ok] at h
      cases h.1
    | true =>
      simp only [if_true] at h
      have h2 : After (.u2fConsume s.env.now :: s.log) s1 := by
        rw [consumeUp_eq] at h1
        obtain ⟨h3, rfl⟩ := Prod.mk.inj h1
        rw [Res.ok.inj h3]
        exact ⟨[], rfl, by simp⟩
      have := Pres.out (I := After (.u2fConsume s.env.now :: s.log)) (m := u2fAuthenticate ch ap hd .enforce) _ h2
      rwa [h] at this
  | version => cases hc
  | vendor p => cases hc

theorem after_command {msg r : Bytes} {c : U2fCommand} (hm : U2fCommand.parse msg = .ok c) (hc : c.needsTouch = true)
    (h : u2fCommand msg s = (.ok (.ok r), s')) :
    ∃ t, s.env.now ≤ t ∧ t ≤ s'.env.now ∧ After (.u2fConsume t :: s.log) s' := by
  simp only [u2fCommand, bindSw_ok, orSw_ok] at h
  rcases h with ⟨al, s1, h1, h⟩ | ⟨e, _, h⟩
  · obtain ⟨_, e, he, rfl⟩ := hasAlwaysUv_ok h1
    cases al with
    | true =>
      simp only [if_true, pure_ok] at h
      cases h.1
    | false =>
      simp only [hm, Bool.false_eq_true, if_false] at h
      refine ⟨e.now, he.now, ?_, after_u2f h hc⟩
      exact (keepEnv (s := { s with env := e }) h).1
  · cases h

theorem processU2f_after {msg : Bytes} {x : Except Sw Bytes} (h : processU2f msg s = (.ok x, s')) :
    ∃ s1, u2fCommand msg s = (.ok x, s1) ∧ After s1.log s' ∧ s1.env.now ≤ s'.env.now := by
  simp only [processU2f, bind_ok] at h
  obtain ⟨r, s1, h1, u, s2, h2, h3⟩ := h
  obtain ⟨_, _, rfl⟩ := (effect_ok).1 h2
  have fin : M.pure r { s1 with env := s1.env.next } = (.ok x, s') →
      ∃ s1, u2fCommand msg s = (.ok x, s1) ∧ After s1.log s' ∧ s1.env.now ≤ s'.env.now := by
    intro h3
    rw [pure_ok] at h3
    obtain ⟨rfl, rfl⟩ := h3
    exact ⟨s1, h1, ⟨[], rfl, by simp⟩, next_now_le _⟩
  revert h3
  cases hm : U2fCommand.parse msg with
  | error e => exact fin
  | ok c =>
    cases c with
    | authenticate _ _ _ _ =>
      cases r with
      | error e => exact fin
      | ok b =>
        intro h3
        simp only [bind_ok, logE_ok, pure_ok] at h3
        obtain ⟨_, _, rfl, rfl, rfl⟩ := h3
        exact ⟨s1, h1, ⟨[_], rfl, by simp [Ev.isUp]⟩, next_now_le _⟩
    | _ => exact fin

/-- **C16**: a successful registration, and a successful authentication that enforces user presence, uses a touch. -/
theorem C16_uses {msg r : Bytes} {c : U2fCommand} (hm : U2fCommand.parse msg = .ok c) (hc : c.needsTouch = true)
    (h : processU2f msg s = (.ok (.ok r), s')) :
    ∃ mid t, s'.log = mid ++ .u2fConsume t :: s.log ∧ s.env.now ≤ t ∧ t ≤ s'.env.now ∧ Unused mid := by
  obtain ⟨s1, h1, ⟨m1, h2, h3⟩, h4⟩ := processU2f_after h
  obtain ⟨t, a1, a2, m2, a3, a4⟩ := after_command hm hc h1
  refine ⟨m1 ++ m2, t, by rw [h2, a3, List.append_assoc], a1, Nat.le_trans a2 h4, fun e he => ?_⟩
  have hu : e.isUp = false := by
    rcases List.mem_append.1 he with he | he
    · exact h3 e he
    · exact a4 e he
  exact ⟨(by rintro t rfl; cases hu), (by rintro t rfl; cases hu)⟩

/-- **C16**: all in one, for a device in any reachable state. -/
theorem C16_one_touch {msg r : Bytes} {c : U2fCommand} {o : Oracle} (ho : P o) (hr : Reach P true s)
    (hm : U2fCommand.parse msg = .ok c) (hc : c.needsTouch = true)
    (h : stepM (.ctap1 msg) (s.withOracle o) = (.ok (.ctap1 (.ok r)), s')) :
    ∃ mid t, s'.log = mid ++ .u2fConsume t :: s.log ∧ s.env.now ≤ t ∧ t ≤ s'.env.now ∧ Unused mid ∧ Touched t s.log := by
  have h' := h
  simp only [stepM, bind_ok, pure_ok] at h
  obtain ⟨x, s1, h1, h2, rfl⟩ := h
  cases h2
  obtain ⟨mid, t, a1, a2, a3, a4⟩ := C16_uses hm hc h1
  have hs := Reach.step o ho (.ctap1 msg) hr
  rw [h'] at hs
  exact ⟨mid, t, a1, a2, a3, a4, C16_touched hs a1⟩

/-- **C17** (for the modes that enforce user presence; see `Toy.C17_false`): a signed assertion with the user presence bit
used a touch. -/
theorem C17_enforced_partial {msg r c a hd : Bytes} {f : U2fFlags} {o : Oracle} (ho : P o) (hr : Reach P true s)
    (hm : U2fCommand.parse msg = .ok (.authenticate c a hd f)) (hf : f ≠ .dontEnforce)
    (h : stepM (.ctap1 msg) (s.withOracle o) = (.ok (.ctap1 (.ok r)), s')) (_ : r.headD 0 &&& 1 = 1) :
    ∃ mid t, s'.log = mid ++ .u2fConsume t :: s.log ∧ s.env.now ≤ t ∧ t ≤ s'.env.now ∧ Unused mid ∧ Touched t s.log := by
  cases f with
  | dontEnforce => exact absurd rfl hf
  | enforce => exact C16_one_touch ho hr hm rfl h
  | checkOnly =>
    exfalso
    simp only [stepM, bind_ok, pure_ok] at h
    obtain ⟨x, s1, h1, h2, rfl⟩ := h
    cases h2
    obtain ⟨s2, h3, _⟩ := processU2f_cmd h1
    obtain ⟨s3, _, _, h4⟩ := u2fCommand_auth hm h3 (.inl ⟨r, rfl⟩)
    obtain ⟨_, _, _, _, _, _, ⟨_, h5, _⟩ | ⟨h5, _⟩⟩ := u2fAuthenticate_ok h4 (.inr ⟨r, rfl⟩)
    · cases h5
    · exact h5 rfl

end Verif.Ctap

namespace Verif.Ctap.Toy
set_option maxRecDepth 100000

/-- The answer to a successful U2F request. -/
def okBytes : Res Reply → Option Bytes
  | .ok (.ctap1 (.ok r)) => some r
  | _ => none

theorem okBytes_eq {x : Res Reply} {r : Bytes} (h : okBytes x = some r) : x = .ok (.ctap1 (.ok r)) := by
  unfold okBytes at h
  split at h
  · rw [Option.some.inj h]
  · cases h

/-- **C17 is false** for "don't enforce user presence and sign": a signature with the user presence bit was made though
the button was never touched. -/
theorem C17_false : ∃ s msg r s', Reach (good = ·) true s ∧
    stepM (.ctap1 msg) (s.withOracle good) = (.ok (.ctap1 (.ok r)), s') ∧ r.headD 0 &&& 1 = 1 ∧
    (∀ e ∈ s'.log, ∀ t, e ≠ .u2fTouch t) := by
  obtain ⟨r, h1, h2⟩ : ∃ r, okBytes (stepM (u2fAuth (Dev.sha256 rpA) sealedId) (withSealed.withOracle good)).1 = some r ∧
      r.headD 0 &&& 1 = 1 := by
    have : ((okBytes (stepM (u2fAuth (Dev.sha256 rpA) sealedId) (withSealed.withOracle good)).1).map
      fun r => r.headD 0 &&& 1) = some 1 := by decide +kernel
    obtain ⟨r, h1, h2⟩ := Option.map_eq_some_iff.1 this
    exact ⟨r, h1, h2⟩
  refine ⟨withSealed, _, r, _, reach_step (P := (good = ·)) good rfl _ (reach_booted rfl) (by decide +kernel),
    Prod.ext (okBytes_eq h1) rfl, h2, ?_⟩
  have h3 : ∀ e ∈ (stepM (u2fAuth (Dev.sha256 rpA) sealedId) (withSealed.withOracle good)).2.log, e.isUp = true → e = .boot 4 := by
    decide +kernel
  rintro e he t rfl
  cases h3 _ he rfl

/-- C16: a registration asks for a touch; with the touch it succeeds once. -/
def u2fReg : Input := .ctap1 ([0, 1, 0, 0, 0, 0, 64] ++ cdh ++ Dev.sha256 rpA)
def isOk (r : Res Reply) : Bool := (okBytes r).isSome

def asked : St := step good u2fReg booted
def touched : St := step good .touch asked

example : isOk (reply good u2fReg booted) = false ∧ isOk (reply good u2fReg touched) = true ∧
    isOk (reply good u2fReg (step good u2fReg touched)) = false ∧
    isOk (reply good u2fReg (step good (.wait 29990) touched)) = true ∧
    isOk (reply good u2fReg (step good (.wait 30000) touched)) = false ∧
    isOk (reply good u2fReg (step good .touch (step good (.wait 9990) asked))) = true ∧
    isOk (reply good u2fReg (step good .touch (step good (.wait 10000) asked))) = false ∧
    isOk (reply good u2fReg (boot good touched)) = false ∧
    isOk (reply good u2fReg (step good (.ctap2 ch [4]) touched)) = false := by decide +kernel

end Verif.Ctap.Toy
