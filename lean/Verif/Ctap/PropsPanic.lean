import Verif.Ctap.PanicLemmas
import Verif.Ctap.Vendor

/-!
# C54: no message crashes the command processor
-/
namespace Verif.Ctap
open Verif.Cbor (Value)
set_option linter.unusedSectionVars false

section
variable [Dev] {b0 : Bool} {P : Oracle → Prop} {s s' : St} {ch : Channel}

step_instances (Sane b0)

/-! ## Large blobs -/

/-- A running upload has announced at least 17 bytes and its buffer ends at the expected offset. -/
def LbOk (s : St) : Prop :=
  s.v.lb.expectedNextOffset = 0 ∨
    s.v.lb.expectedNextOffset = s.v.lb.buffer.length ∧ 17 ≤ s.v.lb.expectedLength

instance : SEnv LbOk := ⟨fun _ _ _ _ h => h⟩
stable_instances LbOk under SMaster SCreds SMinPin SRpIds SForce SEp SAlwaysUv SLargeBlob SPin SRetries STok SMis SKeys SU2f SSp SPresence
  SCompare SIssued SConsumed SU2fPrompt SU2fConsume SU2fTouch SCounterEv SCounter
instance : SErase LbOk := ⟨fun _ h => h⟩
instance (Q : Oracle → Prop) : SOra Q LbOk := ⟨fun _ _ _ h => h⟩

/-- What `Command::deserialize` checks about an upload (`command.rs:410-425`). -/
def Command.lbChecked : Command → Prop
  | .largeBlobs a => a.get = none → a.offset = 0 → ∃ n, a.length = some n ∧ 17 ≤ n
  | _ => True

theorem lbCheck_ok {p : LbParams} (h : p.check = .ok ()) (hg : p.get = none) (h0 : p.offset = 0) :
    ∃ n, p.length = some n ∧ 17 ≤ n := by
  unfold LbParams.check at h
  simp only [hg, h0] at h
  cases hs : p.set with
  | none => simp [hs] at h
  | some b =>
    cases hl : p.length with
    | none => simp [hs, hl] at h
    | some n => exact ⟨n, rfl, by simp [hs, hl] at h; omega⟩

theorem lbOfCbor_checked {v : Value} {p : LbParams} (h : LbParams.ofCbor v = .ok p) : p.check = .ok () := by
  simp only [LbParams.ofCbor, bind, Except.bind] at h
  repeat' split at h
  all_goals first | (cases h; done) | skip
  all_goals (rename_i hc; injection h with h; subst h; exact hc)

theorem deserialize_checked {msg : Bytes} {cmd : Command} (h : Command.deserialize msg = .ok cmd) : cmd.lbChecked := by
  cases cmd with
  | largeBlobs a =>
    intro hg h0
    cases msg with
    | nil => cases h
    | cons c rest =>
      simp only [Command.deserialize, bind, Except.bind] at h
      repeat' split at h
      all_goals first | (cases h; done) | skip
      injection h with h
      injection h with h
      subst h
      rename_i hc
      exact lbCheck_ok (lbOfCbor_checked hc) hg h0
  | _ => trivial

variable {a : LbParams} {set : Bytes}

theorem lbStart_lbOk (hc : a.offset = 0 → ∃ n, a.length = some n ∧ 17 ≤ n) (hs : LbOk s) : LbOk (lbStart a s).2 := by
  unfold lbStart
  cases h0 : a.offset == 0 with
  | false => exact hs
  | true =>
    obtain ⟨n, hl, hn⟩ := hc (eq_of_beq h0)
    have h1 : Pres LbOk (modLb fun l => { l with expectedLength := n }) :=
      presModV fun s hs => hs.imp id fun h => ⟨h.1, hn⟩
    have h2 : Pres LbOk (modLb fun l => { l with expectedNextOffset := 0 }) := presModV fun s hs => .inl rfl
    have : Pres LbOk (do
      let n ← req (some n) .invalidParameter
      modLb fun l => { l with expectedLength := n }
      guardE (decide (n ≤ Dev.maxLargeBlob)) .largeBlobStorageFull
      modLb fun l => { l with expectedNextOffset := 0 } : M Unit) := by
      show Pres LbOk (do
        modLb fun l => { l with expectedLength := n }
        guardE (decide (n ≤ Dev.maxLargeBlob)) .largeBlobStorageFull
        modLb fun l => { l with expectedNextOffset := 0 } : M Unit)
      pres
    rw [hl]
    exact this.out _ hs

/-- A successful start. -/
theorem lbStart_started (hc : a.offset = 0 → ∃ n, a.length = some n ∧ 17 ≤ n) (h : lbStart a s = (.ok (), s')) (h0 : a.offset = 0) :
    17 ≤ s'.v.lb.expectedLength := by
  obtain ⟨n, hl, hn⟩ := hc h0
  unfold lbStart at h
  simp only [h0, beq_self_eq_true, whenM, if_true, hl, bind_ok] at h
  obtain ⟨n', s1, h1, _, s2, h2, _, s3, h3, h4⟩ := h
  obtain ⟨rfl, rfl⟩ := pure_ok.1 h1
  obtain ⟨_, rfl⟩ := guardE_ok.1 h3
  have h2 := (Prod.mk.inj h2).2
  have h4 := (Prod.mk.inj h4).2
  rw [← h4, ← h2]
  exact hn

/-- The situation when a fragment is appended. -/
def Appendable (a : LbParams) (s : St) : Prop :=
  LbOk s ∧ a.offset = s.v.lb.expectedNextOffset ∧ 17 ≤ s.v.lb.expectedLength

theorem lbAppend_run (hs : Appendable a s) (set : Bytes) :
    (lbAppend a set s = (.err .invalidParameter, s)) ∨
    ∃ s1, LbOk s1 ∧ (s1.v.lb.expectedNextOffset = s1.v.lb.buffer.length ∧ 17 ≤ s1.v.lb.expectedLength) ∧ (∀ b, Sane b s → Sane b s1) ∧
      lbAppend a set s = whenM (s1.v.lb.expectedNextOffset == s1.v.lb.expectedLength) lbComplete s1 := by
  obtain ⟨h1, h2, h3⟩ := hs
  unfold lbAppend
  rw [getV_bind]
  by_cases hg : a.offset + set.length ≤ s.v.lb.expectedLength
  · right
    have hg : guardE (decide (a.offset + set.length ≤ s.v.lb.expectedLength)) .invalidParameter s = (.ok (), s) := by
      simp [hg, guardE, M.pure]
    rw [bind_run hg]
    obtain ⟨b, hw⟩ : ∃ b, whenM (a.offset == 0) (modLb fun l => { l with buffer := [] }) s =
      (.ok (), { s with v := { s.v with lb := { s.v.lb with buffer := b } } }) := by
      cases hz : a.offset == 0 with
      | true => exact ⟨[], rfl⟩
      | false => exact ⟨s.v.lb.buffer, rfl⟩
    rw [bind_run hw, modLb_bind, getV_bind]
    exact ⟨{ s with v := { s.v with lb := { s.v.lb with buffer := b ++ set, expectedNextOffset := (b ++ set).length } } },
      .inr ⟨rfl, h3⟩, ⟨rfl, h3⟩, fun _ h => h, rfl⟩
  · left
    simp [hg, guardE, fail, bind_def, M.bind]

/-- No upload is running. -/
def NoUpload (s : St) : Prop := s.v.lb.expectedNextOffset = 0
instance : SEnv NoUpload := ⟨fun _ _ _ _ h => h⟩
stable_instances NoUpload under SLargeBlob

theorem lbComplete_lbOk (s : St) : LbOk (lbComplete s).2 := by
  refine .inl ?_
  show NoUpload (lbComplete s).2
  unfold lbComplete
  rw [modLb_bind, getV_bind]
  have hb : Pres NoUpload (modLb fun l => { l with buffer := [] }) := presModV fun _ h => h
  dsimp only
  refine Pres.out (I := NoUpload) (self := ?_) _ rfl
  pres

theorem lbComplete_np (hs : Sane b0 s) (hb : 16 ≤ s.v.lb.buffer.length) : (lbComplete s).1.fine b0 := by
  unfold lbComplete
  rw [modLb_bind, getV_bind]
  dsimp only
  rw [if_neg (by omega)]
  refine NP.out (b := b0) (self := ?_) _ hs
  np

/-- The large blob state stays consistent and nothing panics. -/
def Fine {α : Type} (m : M α) (s : St) : Prop := LbOk (m s).2 ∧ ∀ b, Sane b s → (m s).1.fine b

theorem Fine.bind {α β : Type} {m : M α} {f : α → M β} (h1 : Fine m s) [hp : ∀ b, Pres (Sane b) m]
    (h2 : ∀ a s1, m s = (.ok a, s1) → Fine (f a) s1) : Fine (m >>= f) s := by
  unfold Fine at *
  have h3 := fun b => (hp b).out s
  simp only [bind_def, M.bind]
  rcases h : m s with ⟨r, s1⟩
  rw [h] at h1 h3
  cases r with
  | ok a => exact ⟨(h2 a s1 h).1, fun b hs => (h2 a s1 h).2 b (h3 b hs)⟩
  | err e => exact ⟨h1.1, fun _ _ => trivial⟩
  | panic => exact h1
  | crash => exact h1

theorem Fine.of {α : Type} {m : M α} [hp : Pres LbOk m] [hn : ∀ b, NP b m] (hs : LbOk s) : Fine m s :=
  ⟨hp.out s hs, fun b => (hn b).out s⟩

/-- A fragment is appended. -/
theorem lbAppend_fine (hs : Appendable a s) : Fine (lbAppend a set) s := by
  obtain h1 | ⟨s1, h1, h2, h3, h4⟩ := lbAppend_run hs set
  · unfold Fine; rw [h1]; exact ⟨hs.1, fun _ _ => trivial⟩
  · unfold Fine
    rw [h4]
    cases hc : s1.v.lb.expectedNextOffset == s1.v.lb.expectedLength with
    | false => exact ⟨h1, fun _ _ => trivial⟩
    | true =>
      have := eq_of_beq hc
      exact ⟨lbComplete_lbOk s1, fun b h => lbComplete_np (h3 b h) (by omega)⟩

/-- An upload request. -/
theorem lbSet_fine (hc : a.offset = 0 → ∃ n, a.length = some n ∧ 17 ≤ n) (hs : LbOk s) : Fine (lbSet a set) s := by
  unfold lbSet
  refine .bind (.of hs) fun _ s1 h1 => ?_
  obtain ⟨_, rfl⟩ := guardE_ok.1 h1
  have hst := lbStart_lbOk hc hs
  refine .bind ⟨hst, fun b => NP.out (m := lbStart a) _⟩ fun _ s2 h2 => ?_
  rw [h2] at hst
  refine .bind (.of hst) fun v s3 h3 => ?_
  obtain ⟨hv, rfl⟩ := Prod.mk.inj h3
  have hv : s2.v = v := Res.ok.inj hv
  subst hv
  have h17 : a.offset = s2.v.lb.expectedNextOffset → Appendable a s2 := fun h => ⟨hst, h, by
    rcases hst with h0 | h0
    · exact lbStart_started hc h2 (h.trans h0)
    · exact h0.2⟩
  refine .bind (.of hst) fun _ s3 h3 => ?_
  obtain ⟨hn, rfl⟩ := guardE_ok.1 h3
  have ha := h17 (by simpa using hn)
  refine .bind (.of hst) fun need s3 h3 => ?_
  have ha : Appendable a s3 := by unfold Appendable LbOk at *; rw [keepV h3]; exact ha
  have : ∀ b, NP b (whenM need (lbAuth a set)) := fun b => NP.whenE inferInstance
  refine .bind (.of ha.1) fun _ s4 h4 => ?_
  have ha : Appendable a s4 := by unfold Appendable LbOk at *; rw [keepV h4]; exact ha
  exact .bind (lbAppend_fine ha) fun _ s5 h5 => .of (by have := (lbAppend_fine (set := set) ha).1; rw [h5] at this; exact this)

theorem largeBlobs_fine (hc : Command.lbChecked (.largeBlobs a)) (hs : LbOk s) : Fine (largeBlobsCommand a) s := by
  unfold largeBlobsCommand
  split
  · exact .of hs
  · rename_i hg
    split
    · exact lbSet_fine (hc hg) hs
    · exact .of hs

theorem command_fine {cmd : Command} (hc : cmd.lbChecked) (hs : LbOk s) : Fine (channelCommand ch cmd) s := by
  cases ch with
  | vendor c =>
    have h1 : Pres LbOk (channelCommand (.vendor c) cmd) := by cases cmd <;> (unfold channelCommand vendorChannelCommand; pres)
    have h2 : ∀ b, NP b (channelCommand (.vendor c) cmd) := fun b => by cases cmd <;> (unfold channelCommand vendorChannelCommand; np)
    exact .of hs
  | main c =>
    cases cmd with
    | getAssertion a => exact Fine.of (m := getAssertion a _) hs
    | credMgmt a => exact Fine.of (m := credentialManagement a _) hs
    | getNextAssertion => exact Fine.of (m := getNextAssertion) hs
    | makeCredential a => exact Fine.of (m := makeCredential a) hs
    | getInfo => exact Fine.of (m := getInfo) hs
    | clientPin a =>
      have h2 : ∀ b, NP b (do let r ← clientPinCommand a; M.pure (Response.clientPin r)) := fun b => by np
      exact Fine.of (m := do let r ← clientPinCommand a; M.pure (Response.clientPin r)) hs
    | reset => exact Fine.of (m := resetCommand) hs
    | selection => exact Fine.of (m := selection) hs
    | largeBlobs a => exact largeBlobs_fine hc hs
    | config a => exact Fine.of (m := configCommand a) hs

theorem processParsed_fine {cmd : Command} (hc : cmd.lbChecked) (hs : LbOk s) : Fine (processParsed cmd ch) s := by
  have := command_fine (ch := ch) (s := prelude cmd ch s) hc hs
  unfold Fine
  rw [processParsed_eq]
  exact this

theorem processCommand_fine (msg : Bytes) (hs : LbOk s) : Fine (processCommand ch msg) s := by
  unfold processCommand
  cases hd : Command.deserialize msg with
  | error e => exact .of hs
  | ok cmd =>
    have h1 := processParsed_fine (ch := ch) (deserialize_checked hd) hs
    have h2 : Fine (processParsed cmd ch >>= respond) s := .bind h1 fun r s1 h3 => .of (by have := h1.1; rw [h3] at this; exact this)
    show Fine (errorByte (processParsed cmd ch >>= respond)) s
    unfold Fine at *
    simp only [errorByte]
    rcases h : (processParsed cmd ch >>= respond) s with ⟨r, s1⟩
    rw [h] at h2
    cases r with
    | err e => exact ⟨h2.1, fun _ _ => trivial⟩
    | _ => exact h2

theorem stepM_fine (i : Input) (hs : LbOk s) : Fine (stepM i) s := by
  cases i with
  | ctap2 ch msg =>
    have h1 := processCommand_fine (ch := ch) msg hs
    unfold stepM
    exact .bind h1 fun r s1 h3 => .of (by have := h1.1; rw [h3] at this; exact this)
  | ctap1 msg =>
    have : Pres LbOk (stepM (.ctap1 msg)) := by unfold stepM; pres
    have : ∀ b, NP b (stepM (.ctap1 msg)) := fun b => by unfold stepM; np
    exact .of hs
  | touch =>
    have : Pres LbOk (stepM .touch) := by unfold stepM; pres
    have : ∀ b, NP b (stepM .touch) := fun b => by unfold stepM; np
    exact .of hs
  | wait ms => exact ⟨hs, fun _ _ => trivial⟩

theorem reach_lbOk {b : Bool} (h : Reach P b s) : LbOk s := by
  have hs : ∀ i, Pres LbOk (stepM i) := fun i => ⟨fun s hs => (stepM_fine i hs).1⟩
  have hb : Pres LbOk bootM := by
    constructor
    intro s hs
    obtain ⟨e, _, _, ⟨_, h⟩ | ⟨p1, p2, h⟩⟩ := bootM_cases s
    · rw [h]; exact hs
    · rw [h]; exact .inl rfl
  exact reach_inv h (fun _ _ => .inl rfl)


/-! ## The vendor commands -/

instance (v : Value) : NP b0 (vendorEncode (some v)) := by unfold vendorEncode; dsimp only; split <;> infer_instance
instance (v : Option Value) : Pres LbOk (vendorEncode v) := by unfold vendorEncode; pres
instance (v : Option Value) : Pres (Sane b0) (vendorEncode v) := by unfold vendorEncode; pres

/-- The attestation key that the message programs, if any, is valid. -/
def ValidMaterial (msg : Bytes) : Prop :=
  ∀ rest v p att, msg = 0x40 :: rest → cborRead rest = .ok v → VendorConfigure.ofCbor v = .ok p → p.material = some att →
    ∀ m, Dev.ecdsaSign att.sk m ≠ none

theorem attestationSet_lbOk (a : Attestation) : Pres LbOk (attestationSet a) := by
  have : Pres LbOk (writeP fun p => { p with attestation := some a }) := presWriteP fun _ h => h
  unfold attestationSet; pres
instance (a : Attestation) : Pres LbOk (attestationSet a) := attestationSet_lbOk a
instance (a : Attestation) : NP b0 (attestationSet a) := by unfold attestationSet; exact NP.mapErrE inferInstance
instance (c a : Option Attestation) : Pres LbOk (vendorProgram c a) := by unfold vendorProgram; pres

theorem attestationSet_sane {a : Attestation} (h : ∀ m, Dev.ecdsaSign a.sk m ≠ none) : Pres (Sane b0) (attestationSet a) := by
  have : Pres (Sane b0) (writeP fun p => { p with attestation := some a }) :=
    presWriteP fun _ hs => ⟨hs.1, fun _ ha => by cases ha; exact h, hs.2.2⟩
  unfold attestationSet; pres

theorem vendorProgram_sane {c a : Option Attestation} (h : ∀ x, a = some x → ∀ m, Dev.ecdsaSign x.sk m ≠ none) :
    Pres (Sane b0) (vendorProgram c a) := by
  cases a with
  | none => unfold vendorProgram; pres
  | some a =>
    have := attestationSet_sane (b0 := b0) (h a rfl)
    unfold vendorProgram; pres

theorem vendorConfigure_fine {t : Tock} {p : VendorConfigure} (hs : LbOk s)
    (hm : ∀ x, p.material = some x → ∀ m, Dev.ecdsaSign x.sk m ≠ none) :
    Fine (vendorConfigure t p) s ∧ ∀ b, Pres (Sane b) (vendorConfigure t p) := by
  have h1 : ∀ b c, Pres (Sane b) (vendorProgram c p.material) := fun b c => vendorProgram_sane hm
  have h2 : ∀ b, Pres (Sane b) (vendorConfigure t p) := fun b => by unfold vendorConfigure; pres
  have h3 : ∀ b c, NP b (vendorProgram c p.material) := fun b c => by
    cases hp : p.material with
    | none => unfold vendorProgram; np
    | some a =>
      have := attestationSet_sane (b0 := b) (hm a hp)
      unfold vendorProgram; np
  have h4 : ∀ b, NP b (vendorConfigure t p) := fun b => by unfold vendorConfigure; np
  have h5 : Pres LbOk (vendorConfigure t p) := by unfold vendorConfigure; pres
  exact ⟨.of hs, h2⟩

theorem tockCbor_fine {t : Tock} {msg : Bytes} (hs : LbOk s) (h0 : msg ≠ []) (hm : ValidMaterial msg) :
    Fine (tockCbor t msg) s ∧ ∀ b, Sane b s → Sane b (tockCbor t msg s).2 := by
  cases msg with
  | nil => exact absurd rfl h0
  | cons c rest =>
    unfold tockCbor
    by_cases h1 : c = 0x40
    · simp only [h1, if_true]
      cases hv : cborRead rest with
      | error e => exact ⟨⟨hs, fun _ _ => trivial⟩, fun _ h => h⟩
      | ok v =>
        cases hp : VendorConfigure.ofCbor v with
        | error e =>
          have : (liftE (.ok v) >>= fun v => liftE (VendorConfigure.ofCbor v) >>= fun p => vendorConfigure t p >>= fun r =>
            vendorEncode (cborMapOptions [(.unsigned 1, some (cborBool r)), (.unsigned 2, some (cborBool r))]) >>= fun b =>
              M.pure (some b)) s = (.err e, s) := by
            simp [bind_def, M.bind, liftE, M.pure, hp, fail]
          unfold Fine
          rw [this]
          exact ⟨⟨hs, fun _ _ => trivial⟩, fun _ h => h⟩
        | ok p =>
          have hf := vendorConfigure_fine (t := t) (p := p) hs (fun x hx => hm rest v p x (by rw [h1]) hv hp hx)
          have he : ∀ r b, NP b (vendorEncode (cborMapOptions [(.unsigned 1, some (cborBool r)), (.unsigned 2, some (cborBool r))])) := by
            intro r b
            have : ∃ v, cborMapOptions [(.unsigned 1, some (cborBool r)), (.unsigned 2, some (cborBool r))] = some v := mapOk (by keys)
            obtain ⟨v, hv⟩ := this
            rw [hv]; infer_instance
          have : (liftE (.ok v) >>= fun v => liftE (VendorConfigure.ofCbor v) >>= fun p => vendorConfigure t p >>= fun r =>
            vendorEncode (cborMapOptions [(.unsigned 1, some (cborBool r)), (.unsigned 2, some (cborBool r))]) >>= fun b =>
              M.pure (some b)) s = (vendorConfigure t p >>= fun r =>
            vendorEncode (cborMapOptions [(.unsigned 1, some (cborBool r)), (.unsigned 2, some (cborBool r))]) >>= fun b =>
              M.pure (some b)) s := by
            simp [bind_def, M.bind, liftE, M.pure, hp]
          unfold Fine
          rw [this]
          have hf2 := hf.2
          refine ⟨Fine.bind hf.1 fun r s1 h3 => ?_, fun b hb => Pres.out (I := Sane b) (self := by pres) s hb⟩
          have hl : LbOk s1 := by have := hf.1.1; rw [h3] at this; exact this
          have hn : ∀ b, NP b (vendorEncode (cborMapOptions [(.unsigned 1, some (cborBool r)), (.unsigned 2, some (cborBool r))]) >>= fun b =>
              M.pure (some b)) := fun b => by np
          exact .of hl
    · simp only [h1, if_false]
      by_cases h2 : c = 0x42
      · simp only [h2, if_true]
        have hn : ∀ b, NP b (do
          let v ← liftE (cborRead rest)
          let p ← liftE (VendorUpgrade.ofCbor v)
          liftE (vendorUpgrade t p)
          M.pure (some [Status.ok.toByte])) := fun b => by np
        exact ⟨.of hs, fun b hb => Pres.out (I := Sane b) (self := by pres) s hb⟩
      · simp only [h2, if_false]
        by_cases h3 : c = 0x43
        · simp only [h3, if_true]
          have he : ∀ n b, NP b (vendorEncode (cborMapOptions [(.unsigned 1, some (.unsigned n))])) := by
            intro n b
            have : ∃ v, cborMapOptions [(.unsigned 1, some (.unsigned n))] = some v := mapOk (by keys)
            obtain ⟨v, hv⟩ := this
            rw [hv]; infer_instance
          have hn : ∀ b, NP b (do
            let u ← req t.upgrade .invalidCommand
            let b ← vendorEncode (cborMapOptions [(.unsigned 1, some (.unsigned u.2))])
            M.pure (some b)) := fun b => by np
          exact ⟨.of hs, fun b hb => Pres.out (I := Sane b) (self := by pres) s hb⟩
        · simp only [h3, if_false]
          exact ⟨.of hs, fun _ h => h⟩

theorem tockHook_fine {t : Tock} {msg : Bytes} (hs : LbOk s) (h0 : msg ≠ []) (hm : ValidMaterial msg) :
    Fine (tockHook t ch msg) s ∧ ∀ b, Sane b s → Sane b (tockHook t ch msg s).2 := by
  have hr : tockHook t ch msg s = (.ok none, s) ∨ tockHook t ch msg s = errorSome (tockCbor t msg) s := by
    unfold tockHook
    cases t.vendorHid <;> cases ch
    · exact .inr rfl
    · exact .inr rfl
    · exact .inl rfl
    · exact .inr rfl
  unfold Fine
  rcases hr with hr | hr <;> rw [hr]
  · exact ⟨⟨hs, fun _ _ => trivial⟩, fun _ h => h⟩
  · have := tockCbor_fine (t := t) hs h0 hm
    unfold Fine at *
    simp only [errorSome]
    rcases h : tockCbor t msg s with ⟨r, s1⟩
    rw [h] at this
    cases r with
    | err e => exact ⟨⟨this.1.1, fun _ _ => trivial⟩, this.2⟩
    | _ => exact this

/-! ## C54 -/

/-- Every keepalive message is accepted by the transport. -/
def Oracle.keepsAlive (o : Oracle) : Prop := ∀ k, o.keep k ≠ .ioError

/-- The attestation key, if there is one, can sign. -/
def St.attestationValid (s : St) : Prop := ∀ att, s.p.attestation = some att → ∀ m, Dev.ecdsaSign att.sk m ≠ none

theorem encodeResponse_nonempty {r : Response} {b : Bytes} (h : encodeResponse r s = (.ok b, s')) : b ≠ [] := by
  rintro rfl
  unfold encodeResponse at h
  cases hr : r.toCbor with
  | none => rw [hr] at h; cases h
  | some v =>
    rw [hr] at h
    cases v with
    | none => cases h
    | some v =>
      cases hw : cborWrite v <;> simp only [hw] at h <;> cases h

theorem respond_nonempty {r : Response} {b : Bytes} (h : respond r s = (.ok b, s')) : b ≠ [] := by
  simp only [respond, bind_ok, pure_ok] at h
  obtain ⟨b', s1, h1, _, s2, _, _, s3, _, rfl, _⟩ := h
  exact encodeResponse_nonempty h1

theorem processCommand_shape (msg : Bytes) (s : St) :
    (∃ b, b ≠ [] ∧ (processCommand ch msg s).1 = .ok b) ∨ (processCommand ch msg s).1 = .panic ∨
      (processCommand ch msg s).1 = .crash := by
  unfold processCommand
  cases hd : Command.deserialize msg with
  | error e => exact .inl ⟨_, by simp, rfl⟩
  | ok cmd =>
    show (∃ b, b ≠ [] ∧ (errorByte (processParsed cmd ch >>= respond) s).1 = .ok b) ∨ (errorByte (processParsed cmd ch >>= respond) s).1 = _ ∨
      (errorByte (processParsed cmd ch >>= respond) s).1 = _
    simp only [errorByte]
    rcases h : (processParsed cmd ch >>= respond) s with ⟨r, s1⟩
    cases r with
    | ok b =>
      obtain ⟨r, s2, h1, h2⟩ := bind_ok.1 h
      exact .inl ⟨b, respond_nonempty h2, rfl⟩
    | err e => exact .inl ⟨_, by simp, rfl⟩
    | panic => exact .inr (.inl rfl)
    | crash => exact .inr (.inr rfl)

/-- **C54** (library). In every reachable state, no input of whatever bytes (a CTAP2 message on any channel, a U2F message, a
touch) makes the authenticator panic, with any storage errors and power cuts, provided that keepalive messages can be sent
and the attestation key is valid. -/
theorem C54_no_panic {o : Oracle} (h : Reach P true s) (hk : o.keepsAlive) (ha : s.attestationValid) (i : Input) :
    (stepM i (s.withOracle o)).1 ≠ .panic := by
  have h1 : LbOk s := reach_lbOk h
  have h1 : LbOk (s.withOracle o) := h1
  have h2 := (stepM_fine i h1).2 false ⟨hk, ha, fun h => by cases h⟩
  intro h3
  rw [h3] at h2
  exact h2

/-- **C54** (library). While the power stays on, every CTAP2 message is answered: the response is not empty, so that it starts
with a status byte. Storage may fail at any point. -/
theorem C54_answered {o : Oracle} (h : Reach P true s) (hk : o.keepsAlive) (ha : s.attestationValid) (hc : ∀ k, o.cut k = false)
    (msg : Bytes) : ∃ b, b ≠ [] ∧ (processCommand ch msg (s.withOracle o)).1 = .ok b := by
  have h1 : LbOk s := reach_lbOk h
  have h1 : LbOk (s.withOracle o) := h1
  have h2 := (processCommand_fine (ch := ch) msg h1).2 true ⟨hk, ha, fun _ => hc⟩
  rcases processCommand_shape (ch := ch) msg (s.withOracle o) with h3 | h3 | h3
  · exact h3
  · rw [h3] at h2; exact h2.elim
  · rw [h3] at h2; cases h2

/-- **C54** (library with the vendor commands of the Tock environment), for messages that are not empty. Missing: the empty
message, which panics (`C54_empty_panics`). A message that programs an attestation key is answered too; the hypothesis
`ValidMaterial` concerns the use of that key later. -/
theorem C54_tock_partial {o : Oracle} {t : Tock} {msg : Bytes} (h : Reach P true s) (hk : o.keepsAlive) (ha : s.attestationValid)
    (hm : ValidMaterial msg) (h0 : msg ≠ []) : (tockCommand t ch msg (s.withOracle o)).1 ≠ .panic := by
  have h1 : LbOk s := reach_lbOk h
  have h1 : LbOk (s.withOracle o) := h1
  have h2 : Sane false (s.withOracle o) := ⟨hk, ha, fun h => by cases h⟩
  obtain ⟨⟨h3, h4⟩, h5⟩ := tockHook_fine (ch := ch) (t := t) h1 h0 hm
  have h4 := h4 false h2
  have h5 := h5 false h2
  simp only [tockCommand, bind_def, M.bind]
  rcases hr : tockHook t ch msg (s.withOracle o) with ⟨r, s1⟩
  rw [hr] at h3 h4 h5
  cases r with
  | ok x =>
    cases x with
    | some b => simp [clearOtherChannels, modSp, modV, M.bind, bind_def, M.pure]
    | none =>
      have := (processCommand_fine (ch := ch) msg h3).2 false h5
      intro h6
      rw [h6] at this
      exact this
  | err e => simp
  | panic => exact h4.elim
  | crash => simp

/-- **C54 is false** for the empty message on a Tock device: wherever the vendor commands are accepted (any channel
without `vendor_hid`, the vendor channel with it), an empty CTAP2 message panics, in every state. -/
theorem C54_empty_panics {t : Tock} (h : t.vendorHid = false ∨ ∃ c, ch = .vendor c) (s : St) : (tockCommand t ch [] s).1 = .panic := by
  have : tockHook t ch [] = errorSome (tockCbor t []) := by
    unfold tockHook
    rcases h with h | ⟨c, rfl⟩
    · rw [h]
    · cases t.vendorHid <;> rfl
  simp only [tockCommand, this]
  rfl

end
end Verif.Ctap

namespace Verif.Ctap.Toy
set_option maxRecDepth 100000

theorem booted_valid : St.attestationValid booted := fun _ _ _ h => by cases h

/-- Non-vacuity: the hypotheses hold for the Toy device after power-up; the empty message is answered by the library, and
panics on a Tock device. A message that is not a known command is answered there too. -/
example : (∃ b, b ≠ [] ∧ (processCommand ch [] (booted.withOracle good)).1 = .ok b) ∧
    (tockCommand { vendorHid := false, withCtap1 := true, lock := true, upgrade := none } ch [0x43] (booted.withOracle good)).1 ≠ .panic ∧
    (tockCommand { vendorHid := false, withCtap1 := true, lock := true, upgrade := none } ch [] booted).1 = .panic :=
  ⟨C54_answered (P := (good = ·)) (reach_booted rfl) (fun _ h => by cases h) booted_valid (fun _ => rfl) _,
    C54_tock_partial (P := (good = ·)) (reach_booted rfl) (fun _ h => by cases h) booted_valid (fun _ _ _ _ h => by cases h) (by simp),
    C54_empty_panics (.inl rfl) _⟩

/-- A U2F registration with the attestation programmed, which uses `unwrap` on the signature, is answered. -/
example : (stepM (.ctap1 ([0, 1, 0, 0, 0, 0, 64] ++ List.replicate 64 7 ++ [0, 0])) (booted.withOracle good)).1 ≠ .panic :=
  C54_no_panic (P := (good = ·)) (reach_booted rfl) (fun _ h => by cases h) booted_valid _

end Verif.Ctap.Toy
