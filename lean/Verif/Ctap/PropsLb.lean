import Verif.Ctap.LbSpec
import Verif.Ctap.PropsReset
import Verif.Crypto.ShaProps

/-!
# C32, C33: the large blob array
-/
namespace Verif.Ctap
set_option linter.unusedSectionVars false
variable [Dev] {P : Oracle → Prop} {s s' : St} {ch : Channel}

theorem bind_split {α β : Type} {m : M α} {f : α → M β} {Q : Res β → St → Prop}
    (h1 : ∀ r, (∀ b, r ≠ .ok b) → Q r (m s).2) (h2 : ∀ a s1, m s = (.ok a, s1) → Q (f a s1).1 (f a s1).2) :
    Q ((m >>= f) s).1 ((m >>= f) s).2 := by
  simp only [bind_def, M.bind]
  rcases hm : m s with ⟨r, s1⟩
  rw [hm] at h1
  cases r with
  | ok a => exact h2 a s1 hm
  | err e => exact h1 _ (by simp)
  | panic => exact h1 _ (by simp)
  | crash => exact h1 _ (by simp)

/-- As `bind_split`, knowing that the first part fails. -/
theorem bind_split' {α β : Type} {m : M α} {f : α → M β} {Q : Res β → St → Prop}
    (h1 : ∀ r, (∀ b, r ≠ .ok b) → (∀ a, (m s).1 ≠ .ok a) → Q r (m s).2)
    (h2 : ∀ a s1, m s = (.ok a, s1) → Q (f a s1).1 (f a s1).2) : Q ((m >>= f) s).1 ((m >>= f) s).2 := by
  simp only [bind_def, M.bind]
  rcases hm : m s with ⟨r, s1⟩
  rw [hm] at h1
  cases r with
  | ok a => exact h2 a s1 hm
  | err e => exact h1 _ (by simp) (by simp)
  | panic => exact h1 _ (by simp) (by simp)
  | crash => exact h1 _ (by simp) (by simp)

theorem bind_run {α β : Type} {m : M α} {f : α → M β} {a : α} {s1 : St} (h : m s = (.ok a, s1)) : (m >>= f) s = f a s1 := by
  simp only [bind_def, M.bind, h]

theorem modLb_bind {β : Type} (f : LargeBlobs → LargeBlobs) (g : Unit → M β) (s : St) :
    (modLb f >>= g) s = g () { s with v := { s.v with lb := f s.v.lb } } := rfl

theorem getV_bind {β : Type} (g : Vol → M β) (s : St) : (getV >>= g) s = g s.v s := rfl

theorem whenM_split {c : Bool} {m : M Unit} {Q : Res Unit → St → Prop} (h1 : c = false → Q (.ok ()) s)
    (h2 : c = true → Q (m s).1 (m s).2) : Q (whenM c m s).1 (whenM c m s).2 := by
  cases c
  · exact h1 rfl
  · exact h2 rfl

/-! ## Uploads -/

/-- The fragments `l` were accepted; if an upload is running, the buffer holds its fragments. -/
def Buffered (l : List (Nat × Bytes)) (s : St) : Prop :=
  s.v.lb.expectedNextOffset ≠ 0 → s.v.lb.buffer.length = s.v.lb.expectedNextOffset ∧ Upload l s.v.lb.buffer

/-- The environment is `o`, the array is `x`, the buffer is `b`; the expected offset is `n`, or 0. -/
def LbKept (o : Oracle) (x : Option Bytes) (b : Bytes) (n : Nat) (s : St) : Prop :=
  s.env.o = o ∧ s.p.largeBlob = x ∧ s.v.lb.buffer = b ∧ (s.v.lb.expectedNextOffset = n ∨ s.v.lb.expectedNextOffset = 0)

section
variable (o : Oracle) (x : Option Bytes) (b : Bytes) (n : Nat)
local notation "K" => LbKept o x b n
instance : SEnv K := ⟨fun _ _ _ ho h => ⟨ho.trans h.1, h.2⟩⟩
stable_instances K under SMaster SCreds SMinPin SRpIds SForce SEp SAlwaysUv SPin SRetries STok SMis SKeys SU2f SSp SPresence SCompare SIssued
  SConsumed SU2fPrompt SU2fConsume SU2fTouch SCounterEv SCounter

theorem lbStart_kept (a : LbParams) (hs : K s) : K (lbStart a s).2 := by
  have h1 (k : Nat) : Pres K (modLb fun l => { l with expectedLength := k }) := presModV fun s hs => hs
  have h2 : Pres K (modLb fun l => { l with expectedNextOffset := 0 }) :=
    presModV fun s hs => ⟨hs.1, hs.2.1, hs.2.2.1, .inr rfl⟩
  have : Pres K (lbStart a) := by unfold lbStart; pres
  exact this.out _ hs
end

/-- What an upload request with the fragment `f` does to a state with the array `x` and accepted fragments `l`. -/
def UploadOutcome (o : Oracle) (x : Option Bytes) (l : List (Nat × Bytes)) (f : Nat × Bytes) {α : Type} (r : Res α) (s : St) : Prop :=
  (s.p.largeBlob = x ∨ (NoWriteFail o → ∃ a, r = .ok a) ∧
    ∃ b, s.p.largeBlob = some b ∧ Intact b ∧ b.length ≤ Dev.maxLargeBlob ∧ Upload (f :: l) b) ∧
  ((∃ a, r = .ok a) → Buffered (f :: l) s) ∧ ((∀ a, r ≠ .ok a) → Buffered l s)

section
variable {o : Oracle} {x : Option Bytes} {l : List (Nat × Bytes)} {f : Nat × Bytes} {α : Type} {r : Res α}

theorem LbKept.outcome {b : Bytes} {n : Nat} (h : LbKept o x b n s) (hb : n ≠ 0 → b.length = n ∧ Upload l b)
    (hr : ∀ a, r ≠ .ok a) : UploadOutcome o x l f r s := by
  refine ⟨.inl h.2.1, fun ⟨a, h⟩ => absurd h (hr a), fun _ hn => ?_⟩
  rcases h.2.2.2 with h3 | h3
  · rw [h3, h.2.2.1]; exact hb (h3 ▸ hn)
  · exact absurd h3 hn

theorem UploadOutcome.done (h : s.p.largeBlob = x) (h0 : s.v.lb.expectedNextOffset = 0) : UploadOutcome o x l f r s :=
  ⟨.inl h, fun _ h => absurd h0 h, fun _ h => absurd h0 h⟩

theorem commit_outcome {b : Bytes} (ho : s.env.o = o) (h : s.p.largeBlob = x) (h0 : s.v.lb.expectedNextOffset = 0) (hi : Intact b)
    (hb : Upload (f :: l) b) : UploadOutcome o x l f (commitLargeBlobArray b s).1 (commitLargeBlobArray b s).2 := by
  unfold commitLargeBlobArray
  refine bind_split (fun r _ => ?_) fun _ s2 h2 => ?_
  · have h1 : LbKept o x s.v.lb.buffer 0 (guardE (decide (b.length ≤ Dev.maxLargeBlob)) .internalError s).2 :=
      Pres.out (I := LbKept o x s.v.lb.buffer 0) _ ⟨ho, h, rfl, .inl h0⟩
    exact .done h1.2.1 (h1.2.2.2.elim id id)
  · obtain ⟨hc, rfl⟩ := guardE_ok.1 h2
    show UploadOutcome o x l f (writeP (fun p => { p with largeBlob := some b }) [] s).1 (writeP (fun p => { p with largeBlob := some b }) [] s).2
    unfold writeP
    split
    · exact .done h h0
    · split
      · exact ⟨.inr ⟨fun _ => ⟨_, rfl⟩, b, rfl, hi, by simpa using hc, hb⟩, fun _ h => absurd h0 h, fun _ h => absurd h0 h⟩
      · exact .done h h0
      · rename_i hf
        split
        · refine ⟨.inr ⟨fun hn => ?_, b, rfl, hi, by simpa using hc, hb⟩, fun _ h => absurd h0 h, fun _ h => absurd h0 h⟩
          rw [← ho] at hn
          rw [hn] at hf
          cases hf
        · exact .done h h0

theorem lbComplete_outcome (ho : s.env.o = o) (h : s.p.largeBlob = x) (hb : Upload (f :: l) s.v.lb.buffer) :
    UploadOutcome o x l f (lbComplete s).1 (lbComplete s).2 := by
  unfold lbComplete
  rw [modLb_bind, getV_bind]
  dsimp only
  split
  · exact .done h rfl
  · rename_i hl
    split
    · exact .done h rfl
    · rename_i hi
      have hi : Intact s.v.lb.buffer := ⟨by omega, Classical.not_not.1 hi⟩
      have hc := commit_outcome (o := o) (x := x) (l := l) (f := f)
        (s := { s with v := { s.v with lb := { s.v.lb with expectedLength := 0, expectedNextOffset := 0 } } }) ho h rfl hi hb
      have h0 : (commitLargeBlobArray s.v.lb.buffer
          { s with v := { s.v with lb := { s.v.lb with expectedLength := 0, expectedNextOffset := 0 } } }).2.v.lb.expectedNextOffset = 0 := by
        generalize hcs : commitLargeBlobArray s.v.lb.buffer { s with v := { s.v with lb := { s.v.lb with expectedLength := 0, expectedNextOffset := 0 } } } = y
        rw [keepV hcs]
      refine bind_split' (fun r hr hm => ?_) fun u s1 h1 => ?_
      · refine ⟨hc.1.imp_right fun h1 => ⟨fun hn => ?_, h1.2⟩, fun _ h => absurd h0 h, fun _ h => absurd h0 h⟩
        obtain ⟨a, ha⟩ := h1.1 hn
        exact absurd ha (hm a)
      · rw [h1] at hc h0
        exact ⟨hc.1.imp_right fun h1 => ⟨fun hn => ⟨_, rfl⟩, h1.2⟩, fun _ h => absurd h0 h, fun _ h => absurd h0 h⟩

theorem lbAppend_outcome {a : LbParams} {set : Bytes} (ho : s.env.o = o) (h : s.p.largeBlob = x) (hb : Buffered l s)
    (hn : a.offset = s.v.lb.expectedNextOffset) :
    UploadOutcome o x l (a.offset, set) (lbAppend a set s).1 (lbAppend a set s).2 := by
  unfold lbAppend
  rw [getV_bind]
  refine bind_split (fun r hr => ?_) fun _ s2 h2 => ?_
  · have hk := Pres.out (I := LbKept o x s.v.lb.buffer s.v.lb.expectedNextOffset)
      (m := guardE (decide (a.offset + set.length ≤ s.v.lb.expectedLength)) .invalidParameter) s ⟨ho, h, rfl, .inl rfl⟩
    exact hk.outcome hb hr
  obtain ⟨_, rfl⟩ := guardE_ok.1 h2
  obtain ⟨b, hw, hu⟩ : ∃ b, whenM (a.offset == 0) (modLb fun l => { l with buffer := [] }) s =
      (.ok (), { s with v := { s.v with lb := { s.v.lb with buffer := b } } }) ∧ Upload ((a.offset, set) :: l) (b ++ set) := by
    cases hz : a.offset == 0 with
    | true =>
      refine ⟨[], rfl, ?_⟩
      rw [eq_of_beq hz]
      exact .first _ _
    | false =>
      refine ⟨s.v.lb.buffer, rfl, ?_⟩
      have hz : a.offset ≠ 0 := by simpa using hz
      obtain ⟨h3, h4⟩ := hb (hn ▸ hz)
      rw [hn, ← h3]
      exact .next _ h4
  rw [bind_run hw, modLb_bind, getV_bind]
  refine whenM_split (fun _ => ⟨.inl h, fun _ _ => ⟨rfl, hu⟩, fun hr => absurd rfl (hr ())⟩) fun _ => lbComplete_outcome ho h hu

theorem lbSet_outcome {a : LbParams} {set : Bytes} (ho : s.env.o = o) (h : s.p.largeBlob = x) (hb : Buffered l s) :
    UploadOutcome o x l (a.offset, set) (lbSet a set s).1 (lbSet a set s).2 := by
  have hk : LbKept o x s.v.lb.buffer s.v.lb.expectedNextOffset s := ⟨ho, h, rfl, .inl rfl⟩
  have hB : ∀ s1, LbKept o x s.v.lb.buffer s.v.lb.expectedNextOffset s1 → Buffered l s1 := fun s1 h1 hn => by
    rcases h1.2.2.2 with h3 | h3
    · rw [h3, h1.2.2.1]; exact hb (h3 ▸ hn)
    · exact absurd h3 hn
  unfold lbSet
  refine bind_split (fun r hr => (Pres.out _ hk).outcome hb hr) fun _ s1 h1 => ?_
  obtain ⟨_, rfl⟩ := guardE_ok.1 h1
  have hk1 := lbStart_kept _ _ _ _ a hk
  refine bind_split (fun r hr => hk1.outcome hb hr) fun _ s2 h2 => ?_
  rw [h2] at hk1
  rw [getV_bind]
  refine bind_split (fun r hr => (Pres.out _ hk1).outcome hb hr) fun _ s3 h3 => ?_
  obtain ⟨hn, rfl⟩ := guardE_ok.1 h3
  have hn : a.offset = s2.v.lb.expectedNextOffset := by simpa using hn
  refine bind_split (fun r hr => (Pres.out _ hk1).outcome hb hr) fun need s3 h3 => ?_
  have hk3 := Pres.out (m := lbNeedsAuth) _ hk1
  rw [h3] at hk3
  have hn3 : a.offset = s3.v.lb.expectedNextOffset := by rw [hn, keepV h3]
  refine bind_split (fun r hr => (Pres.out _ hk3).outcome hb hr) fun _ s4 h4 => ?_
  have hk4 := Pres.out (m := whenM need (lbAuth a set)) _ hk3
  rw [h4] at hk4
  have hn4 : a.offset = s4.v.lb.expectedNextOffset := by rw [hn3, keepV h4]
  have := lbAppend_outcome (a := a) (set := set) hk4.1 hk4.2.1 (hB _ hk4) hn4
  refine bind_split' (fun r hr hm => ?_) fun _ s5 h5 => ?_
  · refine ⟨this.1.imp_right fun h1 => ⟨fun hn => ?_, h1.2⟩, fun ⟨a, h⟩ => absurd h (hr a), fun _ => this.2.2 hm⟩
    obtain ⟨a, ha⟩ := h1.1 hn
    exact absurd ha (hm a)
  · rw [h5] at this
    exact ⟨this.1.imp_right fun h1 => ⟨fun hn => ⟨_, rfl⟩, h1.2⟩, fun _ => this.2.1 ⟨_, rfl⟩, fun hr => absurd rfl (hr _)⟩
end

/-! ## Other requests -/

/-- The uploaded data is `lb`; the array is `x`, or nothing if `e`. -/
def KeepLb (e : Prop) (x : Option Bytes) (lb : LargeBlobs) (s : St) : Prop :=
  s.v.lb = lb ∧ (s.p.largeBlob = x ∨ e ∧ s.p.largeBlob = none)

section
variable (e : Prop) (x : Option Bytes) (lb : LargeBlobs)
local notation "K" => KeepLb e x lb
instance : SEnv K := ⟨fun _ _ _ _ h => h⟩
stable_instances K under SMaster SCreds SMinPin SRpIds SForce SEp SAlwaysUv SPin SRetries STok SMis SKeys SU2f SSp SPresence SCompare SIssued
  SConsumed SU2fPrompt SU2fConsume SU2fTouch SCounterEv SCounter
instance (Q : Oracle → Prop) : SOra Q K := ⟨fun _ _ _ h => h⟩
instance : SErase (KeepLb True x lb) := ⟨fun _ h => ⟨h.1, .inr ⟨trivial, rfl⟩⟩⟩

theorem keepLb_command {cmd : Command} (h : cmd.fragment = []) (hr : e → cmd = .reset) (hr' : cmd = .reset → e) (hs : K s) :
    K (channelCommand ch cmd s).2 := by
  cases ch with
  | vendor c => cases cmd <;> unfold channelCommand vendorChannelCommand <;> exact Pres.out (I := K) (self := by pres) _ hs
  | main c =>
    cases cmd with
    | getAssertion a => exact Pres.out (I := K) (m := getAssertion a _) _ hs
    | credMgmt a => exact Pres.out (I := K) (m := credentialManagement a _) _ hs
    | getNextAssertion => exact Pres.out (I := K) (m := getNextAssertion) _ hs
    | makeCredential a => exact Pres.out (I := K) (m := makeCredential a) _ hs
    | getInfo => exact Pres.out (I := K) (m := getInfo) _ hs
    | clientPin a => exact Pres.out (I := K) (m := do let r ← clientPinCommand a; M.pure (Response.clientPin r)) _ hs
    | reset =>
      have he : e = True := eq_true (hr' rfl)
      subst he
      exact Pres.out (I := KeepLb True x lb) (m := resetCommand) _ hs
    | selection => exact Pres.out (I := K) (m := selection) _ hs
    | largeBlobs a =>
      have : Pres K (largeBlobsCommand a) := by
        unfold largeBlobsCommand
        split
        · infer_instance
        · rename_i hg
          split
          · rename_i hf
            simp [Command.fragment, hg, hf] at h
          · infer_instance
      exact Pres.out (I := K) (m := largeBlobsCommand a) _ hs
    | config a => exact Pres.out (I := K) (m := configCommand a) _ hs
end

theorem fragment_cases (cmd : Command) :
    cmd.fragment = [] ∨ ∃ a set, cmd = .largeBlobs a ∧ a.get = none ∧ a.set = some set ∧ cmd.fragment = [(a.offset, set)] := by
  cases cmd with
  | largeBlobs a =>
    cases hg : a.get with
    | some n => exact .inl (by simp [Command.fragment, hg])
    | none =>
      cases hf : a.set with
      | none => exact .inl (by simp [Command.fragment, hg, hf])
      | some f => exact .inr ⟨a, f, rfl, hg, hf, by simp [Command.fragment, hg, hf]⟩
  | _ => exact .inl rfl

theorem processParsed_keep {cmd : Command} (h : cmd.fragment = []) :
    KeepLb (cmd = .reset) s.p.largeBlob s.v.lb (processParsed cmd ch s).2 := by
  rw [processParsed_eq]
  exact keepLb_command _ _ _ h id id ⟨rfl, .inl rfl⟩

theorem processParsed_upload {a : LbParams} {set : Bytes} {l : List (Nat × Bytes)} (hg : a.get = none) (hf : a.set = some set)
    (hb : Buffered l s) : UploadOutcome s.env.o s.p.largeBlob l (a.offset, set) (processParsed (.largeBlobs a) ch s).1
      (processParsed (.largeBlobs a) ch s).2 := by
  rw [processParsed_eq]
  cases ch with
  | vendor c => exact ⟨.inl rfl, fun ⟨a, h⟩ => by (cases h), fun _ => hb⟩
  | main c =>
    show UploadOutcome _ _ _ _ (largeBlobsCommand a _).1 (largeBlobsCommand a _).2
    simp only [largeBlobsCommand, hg, hf]
    exact lbSet_outcome rfl rfl hb

section
variable (l : List (Nat × Bytes))
instance : SEnv (Buffered l) := ⟨fun _ _ _ _ h => h⟩
stable_instances (Buffered l) under SMaster SCreds SMinPin SRpIds SForce SEp SAlwaysUv SPin SRetries STok SMis SKeys SU2f SSp SPresence SCompare SIssued
  SConsumed SU2fPrompt SU2fConsume SU2fTouch SCounterEv SCounter
end

/-- In a running device, the buffer holds the fragments of the upload. -/
theorem uploaded_buffered {l : List (Nat × Bytes)} (h : Uploaded P l s) : Buffered l s := by
  induction h with
  | boot h ho ha =>
    rename_i b s o
    intro hn
    obtain ⟨e, _, _, ⟨h, _⟩ | ⟨p1, p2, h⟩⟩ := bootM_cases (s.withOracle o)
    · rw [h] at ha; cases ha
    · rw [h] at hn; exact absurd rfl hn
  | step h ho ha ih =>
    rename_i l s o i
    have hb : Buffered l (s.withOracle o) := ih
    by_cases hi : ∃ ch msg cmd, i = .ctap2 ch msg ∧ Command.deserialize msg = .ok cmd
    · obtain ⟨ch, msg, cmd, rfl, hd⟩ := hi
      refine stepM_msg hd ?_
      rcases fragment_cases cmd with hc | ⟨a, set, rfl, hg, hf, hc⟩
      · have : (Input.ctap2 ch msg).accepted (s.withOracle o) = [] := by
          simp only [Input.accepted, hd, hc]
          split <;> rfl
        rw [this]
        have hk := (processParsed_keep (ch := ch) (s := s.withOracle o) hc).1
        unfold Buffered
        rw [hk]
        exact ih
      · have hk := processParsed_upload (ch := ch) (s := s.withOracle o) hg hf hb
        simp only [Input.accepted, hd, hc]
        rcases hr : processParsed (.largeBlobs a) ch (s.withOracle o) with ⟨r, s1⟩
        rw [hr] at hk
        cases r with
        | ok r => exact hk.2.1 ⟨_, rfl⟩
        | _ => exact hk.2.2 (by simp)
    · have : i.accepted (s.withOracle o) = [] := by
        unfold Input.accepted
        split
        · split
          · rename_i hd
            exact absurd ⟨_, _, _, rfl, hd⟩ hi
          · rfl
        · rfl
      rw [this]
      exact stepM_idle (fun ch msg cmd h1 h2 => hi ⟨ch, msg, cmd, h1, h2⟩) hb

theorem uploaded_reach {l : List (Nat × Bytes)} (h : Uploaded P l s) : Reach P true s := by
  induction h with
  | boot h ho ha => exact ha ▸ .boot _ ho h
  | step h ho ha ih => exact ha ▸ .step _ ho _ ih

theorem uploaded_of_reach {b : Bool} (h : Reach P b s) (hb : b = true) : ∃ l, Uploaded P l s := by
  induction h with
  | factory => cases hb
  | boot o ho h ih => exact ⟨_, .boot h ho hb⟩
  | step o ho i h ih =>
    obtain ⟨l, h'⟩ := ih rfl
    exact ⟨_, .step h' ho hb⟩

/-- What a step from the array `x` may do to the array. -/
def ArrayOutcome (x : Option Bytes) (l : List (Nat × Bytes)) (i : Input) (s : St) : Prop :=
  s.p.largeBlob = x ∨ s.p.largeBlob = none ∧ i.requests = [.reset] ∨
  ∃ b f, s.p.largeBlob = some b ∧ Intact b ∧ b.length ≤ Dev.maxLargeBlob ∧ i.fragment = [f] ∧ Upload (f :: l) b

section
variable (x : Option Bytes) (l : List (Nat × Bytes)) (i : Input)
instance : SEnv (ArrayOutcome x l i) := ⟨fun _ _ _ _ h => h⟩
stable_instances (ArrayOutcome x l i) under SMaster SCreds SMinPin SRpIds SForce SEp SAlwaysUv SPin SRetries STok SMis SKeys SU2f SSp SPresence
  SCompare SIssued SConsumed SU2fPrompt SU2fConsume SU2fTouch SCounterEv SCounter SLb
end

/-- **C32.** In a running device, whatever the input and however it ends (also with loss of power or failing storage),
the array stays the same; or it is erased by a factory reset; or the input is an upload request, and the new array is
exactly the join of its fragment with those accepted immediately before, without gaps from offset 0 on, ends with
its hash, and is not too large. -/
theorem C32_changes {l : List (Nat × Bytes)} {o : Oracle} {i : Input} (h : Uploaded P l s) :
    (stepM i (s.withOracle o)).2.p.largeBlob = s.p.largeBlob ∨
    (stepM i (s.withOracle o)).2.p.largeBlob = none ∧ i.requests = [.reset] ∨
    ∃ b f, (stepM i (s.withOracle o)).2.p.largeBlob = some b ∧ Intact b ∧ b.length ≤ Dev.maxLargeBlob ∧
      i.fragment = [f] ∧ Upload (f :: l) b := by
  suffices hs : ArrayOutcome s.p.largeBlob l i (stepM i (s.withOracle o)).2 from hs
  have hb : Buffered l (s.withOracle o) := uploaded_buffered (s := s) h
  by_cases hi : ∃ ch msg cmd, i = .ctap2 ch msg ∧ Command.deserialize msg = .ok cmd
  · obtain ⟨ch, msg, cmd, rfl, hd⟩ := hi
    have hq : (Input.ctap2 ch msg).requests = [cmd] := by simp [Input.requests, hd]
    refine stepM_msg hd ?_
    rcases fragment_cases cmd with hc | ⟨a, set, rfl, hg, hf, hc⟩
    · rcases (processParsed_keep (ch := ch) (s := s.withOracle o) hc).2 with h1 | ⟨h1, h2⟩
      · exact .inl h1
      · exact .inr (.inl ⟨h2, by rw [hq, h1]⟩)
    · rcases (processParsed_upload (ch := ch) (s := s.withOracle o) hg hf hb).1 with h1 | ⟨_, b, h1, h2, h3, h4⟩
      · exact .inl h1
      · exact .inr (.inr ⟨b, _, h1, h2, h3, by simp [Input.fragment, hq, hc], h4⟩)
  · exact stepM_idle (fun ch msg cmd h1 h2 => hi ⟨ch, msg, cmd, h1, h2⟩) (I := ArrayOutcome _ l i) (.inl rfl)

/-- **C32.** A stored array always ends with the beginning of the hash of the rest. -/
theorem C32_intact {r : Bool} {b : Bytes} (h : Reach P r s) (hb : s.p.largeBlob = some b) :
    16 ≤ b.length ∧ (Dev.sha256 (b.take (b.length - 16))).take 16 = b.drop (b.length - 16) ∧ b.length ≤ Dev.maxLargeBlob := by
  induction h generalizing b with
  | factory => cases hb
  | boot o ho h ih =>
    rename_i r s
    obtain ⟨e, _, _, ⟨_, h1⟩ | ⟨p1, p2, h1⟩⟩ := bootM_cases (s.withOracle o) <;> rw [h1] at hb <;> exact ih hb
  | step o ho i h ih =>
    obtain ⟨l, hu⟩ := uploaded_of_reach h rfl
    rcases C32_changes (o := o) (i := i) hu with h1 | ⟨h1, _⟩ | ⟨b', f, h1, h2, h3, _⟩
    · exact ih (h1 ▸ hb)
    · rw [hb] at h1; cases h1
    · rw [hb] at h1
      cases h1
      exact ⟨h2.1, h2.2, h3⟩

/-- **C32.** A request that fails (or is interrupted) leaves the array as it was, provided no write to the storage is
reported as failed. -/
theorem C32_failed {l : List (Nat × Bytes)} {a : LbParams} {o : Oracle} {r : Res Response} (h : Uploaded P l s)
    (hw : NoWriteFail o) (hr : processParsed (.largeBlobs a) ch (s.withOracle o) = (r, s')) (hf : ∀ x, r ≠ .ok x) :
    s'.p.largeBlob = s.p.largeBlob := by
  rcases fragment_cases (.largeBlobs a) with hc | ⟨a', set, ha, hg, hf', hc⟩
  · rcases (processParsed_keep (ch := ch) (s := s.withOracle o) hc).2 with h1 | ⟨h1, h2⟩
    · rw [hr] at h1; exact h1
    · cases h1
  · cases ha
    have := processParsed_upload (ch := ch) (s := s.withOracle o) hg hf' (uploaded_buffered (s := s) h)
    rw [hr] at this
    rcases this.1 with h1 | ⟨h1, _⟩
    · exact h1
    · obtain ⟨x, hx⟩ := h1 hw
      exact absurd hx (hf x)

/-- **C32.** The initial array is an empty CBOR array and the beginning of its (real) SHA-256. -/
theorem C32_initial : emptyLargeBlob = 0x80 :: (Verif.Crypto.Sha.SHA256 [0x80]).take 16 := by
  have h := Verif.Crypto.Sha.sha256_streaming 32 [[0x80]] (by decide) (by decide)
  replace h : _ = Verif.Crypto.Sha.SHA256 [0x80] := h
  rw [← h]
  decide +kernel

/-! ## Reading -/

/-- The slice of the initial array as the code takes it. -/
theorem empty_slice (e : Bytes) (offset n : Nat) :
    (if offset ≤ min e.length (offset + n) then (e.take (min e.length (offset + n))).drop offset else []) = (e.drop offset).take n := by
  split
  · rw [List.drop_take, List.take_eq_take_iff, List.length_drop]
    omega
  · rw [List.drop_eq_nil_of_le (by omega), List.take_nil]

/-- A successful request to read. -/
theorem lbGet_ok {a : LbParams} {n : Nat} {r : Response} (h : lbGet a n s = (.ok r, s')) :
    r = .largeBlobs (some ((s.largeBlobArray.drop a.offset).take n)) ∧ s'.p = s.p := by
  have hp := keepP h
  refine ⟨?_, hp⟩
  unfold lbGet at h
  obtain ⟨_, _, h1, h⟩ := bind_ok.1 h
  obtain ⟨_, rfl⟩ := guardE_ok.1 h1
  obtain ⟨b, _, h1, h⟩ := bind_ok.1 h
  obtain ⟨rfl, _⟩ := pure_ok.1 h
  unfold getLargeBlobArray at h1
  obtain ⟨p, _, h2, h1⟩ := bind_ok.1 h1
  obtain ⟨rfl, h2⟩ := readP_ok h2
  unfold St.largeBlobArray
  cases hl : s.p.largeBlob with
  | some x =>
    simp only [hl] at h1
    obtain ⟨rfl, _⟩ := pure_ok.1 h1
    rfl
  | none =>
    simp only [hl] at h1
    obtain ⟨rfl, _⟩ := pure_ok.1 h1
    congr 2
    exact empty_slice _ _ _

/-- **C33.** A successful request to read returns the part of the array at this offset of this length, cut at the end
of the array, and does not change the array. -/
theorem C33_read {a : LbParams} {n : Nat} {r : Response} (hg : a.get = some n)
    (h : processParsed (.largeBlobs a) ch s = (.ok r, s')) :
    r = .largeBlobs (some ((s.largeBlobArray.drop a.offset).take n)) ∧ s'.largeBlobArray = s.largeBlobArray := by
  obtain ⟨⟨c, rfl⟩, h1⟩ := processParsed_ok h (by simp)
  replace h1 : largeBlobsCommand a (prelude (.largeBlobs a) (.main c) s) = _ := h1
  simp only [largeBlobsCommand, hg] at h1
  obtain ⟨h2, h3⟩ := lbGet_ok h1
  exact ⟨h2, by simp only [St.largeBlobArray, h3]; rfl⟩

/-- **C33.** Parts read one after the other from the start join to the beginning of the array. -/
theorem C33_reading {read : Bytes} (h : Reading s read s') :
    read = s.largeBlobArray.take read.length ∧ s'.largeBlobArray = s.largeBlobArray := by
  induction h with
  | start => exact ⟨by simp, rfl⟩
  | read h hm hg ho hr ih =>
    rename_i read part s1 s2 n ch o msg a
    have h1 := (C33_read hg hr).1
    have hp : part = (s1.largeBlobArray.drop read.length).take n := by
      rw [ho] at h1
      exact Option.some.inj (Response.largeBlobs.inj h1)
    constructor
    · have h2 : (s.largeBlobArray.take read.length).length = read.length := by rw [← ih.1]
      rw [List.length_append, List.take_add, ← ih.1]
      congr 1
      rw [ih.2] at hp
      generalize s.largeBlobArray.drop read.length = z at hp
      rw [hp, List.length_take]
      rw [List.take_eq_take_iff]
      omega
    · have : KeepLb False s1.p.largeBlob s1.v.lb (stepM (.ctap2 ch msg) (s1.withOracle o)).2 := by
        refine stepM_msg hm ?_
        have := processParsed_keep (ch := ch) (s := s1.withOracle o) (cmd := .largeBlobs a) (by simp [Command.fragment, hg])
        exact ⟨this.1, this.2.imp_right fun h => absurd h.1 (by simp)⟩
      rw [← ih.2]
      unfold St.largeBlobArray
      rcases this.2 with h | h
      · rw [h]
      · exact h.1.elim
  | other h hk ih => exact ⟨ih.1, hk.trans ih.2⟩

/-- **C33.** After a part that is shorter than requested, all of the array was read. -/
theorem C33_complete {read part : Bytes} {a : LbParams} {n : Nat} {o : Oracle} {s1 : St} (h : Reading s read s1) (hg : a.get = some n)
    (ho : a.offset = read.length) (hr : processParsed (.largeBlobs a) ch (s1.withOracle o) = (.ok (.largeBlobs (some part)), s'))
    (hl : part.length < n) : read ++ part = s.largeBlobArray := by
  obtain ⟨h1, h2⟩ := C33_reading h
  have h3 := (C33_read hg hr).1
  have hp : part = (s1.largeBlobArray.drop read.length).take n := by
    rw [ho] at h3
    exact Option.some.inj (Response.largeBlobs.inj h3)
  rw [h2] at hp
  have h4 : (s.largeBlobArray.drop read.length).take n = s.largeBlobArray.drop read.length := by
    rw [hp, List.length_take] at hl
    exact List.take_of_length_le (by omega)
  rw [hp, h4]
  conv => lhs; lhs; rw [h1]
  exact List.take_append_drop _ _

/-- **C33.** A request to read succeeds, unless it asks for too much, the storage cannot be read or power is lost. -/
theorem C33_answered {a : LbParams} {n : Nat} {c : Bytes} (hg : a.get = some n) (hn : n + 64 ≤ Dev.maxMsgSize)
    (ho : a.offset + n < 2 ^ Dev.wordBits) (hc : ∀ k, s.env.o.cut k = false) (hr : ∀ k, s.env.o.rfail k = none) :
    (processParsed (.largeBlobs a) (.main c) s).1 = .ok (.largeBlobs (some ((s.largeBlobArray.drop a.offset).take n))) := by
  rw [processParsed_eq]
  show (largeBlobsCommand a _).1 = _
  simp only [largeBlobsCommand, hg, lbGet]
  have h1 : (decide (n ≤ maxFragment) && decide (a.offset + n < 2 ^ Dev.wordBits)) = true := by
    rw [Bool.and_eq_true]
    exact ⟨decide_eq_true (Nat.le_sub_of_add_le hn), decide_eq_true ho⟩
  rw [bind_run (guardE_ok (u := ()).2 ⟨h1, rfl⟩)]
  have h2 : readP (prelude (.largeBlobs a) (.main c) s) = (.ok s.p, { prelude (.largeBlobs a) (.main c) s with env := s.env.next }) := by
    unfold readP effect
    have h3 : (prelude (.largeBlobs a) (.main c) s).env = s.env := rfl
    simp only [h3, hc, hr]
    rfl
  unfold getLargeBlobArray St.largeBlobArray
  simp only [bind_def, M.bind, h2]
  cases s.p.largeBlob with
  | some b => rfl
  | none =>
    show Res.ok (Response.largeBlobs (some (if _ then _ else _))) = _
    rw [empty_slice]
    rfl

end Verif.Ctap

namespace Verif.Ctap.Toy
open Verif.Cbor (Value)
set_option maxRecDepth 100000

/-- A CBOR array with a string of 18 bytes, and its hash. -/
def blob : Bytes :=
  let b := [0x81, 0x52] ++ List.replicate 18 0x61
  b ++ (Dev.sha256 b).take 16

def lbRead (offset n : Nat) : Input := send 0x0C (map [(.unsigned 1, .unsigned n), (.unsigned 3, .unsigned offset)])

def lbWrite (offset : Nat) (f : Bytes) (length : List (Value × Value)) : Input :=
  send 0x0C (map ([(.unsigned 2, .bytes f), (.unsigned 3, .unsigned offset)] ++ length))

def lbWrite1 : Input := lbWrite 0 (blob.take 20) [(.unsigned 4, .unsigned 36)]
def lbWrite2 : Input := lbWrite 20 (blob.drop 20) []

def lb0 : St := boot good factory
def lb1 : St := step good lbWrite1 lb0
def lb2 : St := step good lbWrite2 lb1

theorem uploaded_lb1 {P : Oracle → Prop} (h : P good) : Uploaded P [(0, blob.take 20)] lb1 :=
  have h0 : Uploaded P [] lb0 := .boot (s := factory) (.factory _ _) h (by decide +kernel)
  have h1 := Uploaded.step (i := lbWrite1) (o := good) h0 h (by decide +kernel)
  have h2 : lbWrite1.accepted (lb0.withOracle good) = [(0, blob.take 20)] := by decide +kernel
  h2 ▸ h1

/-- C32: an upload in two parts; a wrong second part leaves the array as it was. -/
example : lb1.p.largeBlob = none ∧ lb2.p.largeBlob = some blob ∧ lbWrite2.fragment = [(20, blob.drop 20)] ∧
    bytes good (lbWrite 20 (blob.drop 20).reverse []) lb1 = some [Status.integrityFailure.toByte] ∧
    (step good (lbWrite 20 (blob.drop 20).reverse []) lb1).p.largeBlob = none ∧
    (step (cutAt 2) lbWrite2 lb1).p.largeBlob = none := by decide +kernel

example : Upload [(20, blob.drop 20), (0, blob.take 20)] blob :=
  show Upload ((List.length (blob.take 20), blob.drop 20) :: _) (blob.take 20 ++ blob.drop 20) from .next _ (.first _ _)

/-- C33: the array is read in parts of 30 bytes. -/
example : bytes good (lbRead 0 30) lb2 = some ([0, 0xA1, 0x01, 0x58, 30] ++ blob.take 30) ∧
    bytes good (lbRead 30 30) lb2 = some ([0, 0xA1, 0x01, 0x46] ++ blob.drop 30) ∧
    bytes good (lbRead 36 30) lb2 = some [0, 0xA1, 0x01, 0x40] ∧
    bytes good (lbRead 0 17) lb0 = some ([0, 0xA1, 0x01, 0x51] ++ emptyLargeBlob) := by decide +kernel

end Verif.Ctap.Toy
