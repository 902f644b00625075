import Verif.Ctap.Triple
import Verif.Ctap.GuessSpec

/-!
# The invariant for C10
-/
namespace Verif.Ctap
set_option linter.unusedSimpArgs false
set_option linter.unusedSectionVars false
variable [Dev]

/-- Guesses since the last event that satisfies `ends`. -/
def since (ends : Ev → Bool) : List Ev → Nat
  | [] => 0
  | e :: l => if ends e then 0 else (if e.isGuess then 1 else 0) + since ends l

theorem since_other {ends : Ev → Bool} {e : Ev} (h1 : e.isGuess = false) (h2 : ends e = false) (l : List Ev) :
    since ends (e :: l) = since ends l := by
  simp [since, h1, h2]

theorem count_le_since {ends : Ev → Bool} {w post : List Ev} (h : ∀ x ∈ w, ends x = false) :
    w.countP Ev.isGuess ≤ since ends (w ++ post) := by
  induction w with
  | nil => simp
  | cons e w ih =>
    have := ih fun x hx => h x (List.mem_cons_of_mem _ hx)
    have he := h e List.mem_cons_self
    rw [List.countP_cons, List.cons_append]
    simp only [since, he, Bool.false_eq_true, if_false]
    omega

theorem guessBound_cons {ends : Ev → Bool} {n : Nat} {log : List Ev} {e : Ev} (h : GuessBound ends n log)
    (he : (if e.isGuess then 1 else 0) + since ends log ≤ n) : GuessBound ends n (e :: log) := by
  intro x w hw hn
  rw [List.infix_cons_iff] at hw
  rcases hw with hw | hw
  · obtain ⟨post, hp⟩ := hw
    simp only [List.cons_append, List.cons.injEq] at hp
    obtain ⟨rfl, rfl⟩ := hp
    have := count_le_since (post := post) hn
    rw [List.countP_cons]
    omega
  · exact h x w hw hn

/-- The invariant. -/
def Inv10 (s : St) : Prop :=
  GuessBound Ev.endsGuessing Dev.maxPinRetries s.log ∧ since Ev.endsGuessing s.log + s.p.retries ≤ Dev.maxPinRetries ∧
    (s.p.pin = none → since Ev.endsGuessing s.log = 0)

theorem Inv10.other {s : St} (h : Inv10 s) {e : Ev} (h1 : e.isGuess = false) (h2 : e.endsGuessing = false) :
    Inv10 { s with log := e :: s.log } := by
  obtain ⟨ha, hb, hc⟩ := h
  refine ⟨guessBound_cons ha (by simp [h1]; omega), ?_, ?_⟩
  · rw [show ({ s with log := e :: s.log } : St).log = e :: s.log from rfl, since_other h1 h2]; exact hb
  · rw [show ({ s with log := e :: s.log } : St).log = e :: s.log from rfl, since_other h1 h2]; exact hc

instance : SEnv Inv10 := ⟨fun _ _ _ _ h => h⟩
instance (P : Oracle → Prop) : SOra P Inv10 := ⟨fun _ _ _ h => h⟩
stable_instances Inv10 under SMaster SCreds SMinPin SRpIds SForce SEp SAlwaysUv SLargeBlob STok SMis SKeys SU2f SSp SLb
instance : SPresence Inv10 := ⟨fun _ _ h => h.other rfl rfl⟩
instance : SIssued Inv10 := ⟨fun _ _ _ _ h => h.other rfl rfl⟩
instance : SConsumed Inv10 := ⟨fun _ h => h.other rfl rfl⟩
instance : SU2fPrompt Inv10 := ⟨fun _ _ h => h.other rfl rfl⟩
instance : SU2fConsume Inv10 := ⟨fun _ _ h => h.other rfl rfl⟩
instance : SU2fTouch Inv10 := ⟨fun _ _ h => h.other rfl rfl⟩
instance : SCounterEv Inv10 := ⟨fun _ _ _ h => h.other rfl rfl⟩
instance : SCounter Inv10 := ⟨fun s _ w h => by
  cases w
  · exact Inv10.other (s := { s with p := _ }) h rfl rfl
  · exact h⟩
instance : SBoot Inv10 := ⟨fun s v h => Inv10.other (s := { s with v := v }) h rfl rfl⟩
instance : SErase Inv10 := ⟨fun s h => by
  obtain ⟨ha, hb, hc⟩ := h
  exact ⟨guessBound_cons ha (by simp [Ev.isGuess]; omega), by
    simp [since, Ev.endsGuessing, Ev.isGuess, Persist.clear, NUM_PERSISTENT_KEYS, Persist.retries], by simp [since, Ev.endsGuessing, Ev.isGuess]⟩⟩

/-- Retries remain. -/
def Inv10r (s : St) : Prop := Inv10 s ∧ s.p.retries ≠ 0
instance : SEnv Inv10r := ⟨fun _ _ _ _ h => h⟩

/-- A retry is paid for, and the PIN is set. -/
def Inv10p (s : St) : Prop :=
  GuessBound Ev.endsGuessing Dev.maxPinRetries s.log ∧ since Ev.endsGuessing s.log + 1 + s.p.retries ≤ Dev.maxPinRetries ∧ s.p.pin ≠ none
instance : SEnv Inv10p := ⟨fun _ _ _ _ h => h⟩

theorem Inv10p.inv {s : St} (h : Inv10p s) : Inv10 s :=
  ⟨h.1, by have := h.2.1; omega, fun hn => absurd hn h.2.2⟩

/-- No wrong guess since the last success or erasure. -/
def Inv10z (s : St) : Prop := Inv10 s ∧ since Ev.endsGuessing s.log = 0
instance : SEnv Inv10z := ⟨fun _ _ _ _ h => h⟩
stable_instances Inv10z under SMis SKeys STok

theorem resetPinRetries_10 : Tri Inv10z resetPinRetries (fun _ => Inv10z) Inv10 := by
  refine Tri.writeP (fun s h => h.1) (fun s h => ⟨⟨h.1.1, ?_, fun _ => h.2⟩, h.2⟩) (fun s h => h.1)
  simp [h.2, Persist.retries]

theorem setPin_10 (x : Bytes) (n : Nat) : Pres Inv10 (setPin x n) :=
  presWriteP fun s h => ⟨h.1, h.2.1, by simp⟩

theorem setPin_10z (x : Bytes) (n : Nat) : Pres Inv10z (setPin x n) :=
  presWriteP fun s h => ⟨⟨h.1.1, h.1.2.1, by simp⟩, h.2⟩

theorem checkAndStore_10 (ss : SharedSecret) (e : Bytes) : Pres Inv10 (checkAndStoreNewPin ss e) := by
  have := setPin_10
  unfold checkAndStoreNewPin; pres

theorem checkAndStore_10z (ss : SharedSecret) (e : Bytes) : Pres Inv10z (checkAndStoreNewPin ss e) := by
  have := setPin_10z
  unfold checkAndStoreNewPin; pres

theorem verifyPinHashEnc_10 (pr : Proto) (ss : SharedSecret) (e : Bytes) :
    Tri Inv10r (verifyPinHashEnc pr ss e) (fun _ => Inv10) Inv10 := by
  unfold verifyPinHashEnc
  refine Tri.bind (Q := fun h s => Inv10r s ∧ (s.p.pin.map (·.1)) = h)
    ((Tri.read (P := Inv10r)).conseq (fun _ h => h) (fun _ _ h => ⟨h.1, h.2.symm⟩) fun _ h => h.1) fun h => ?_
  cases h with
  | none => exact Tri.fail fun s h => h.1.1
  | some hash =>
    refine Tri.bind (Q := fun _ s => Inv10r s ∧ s.p.pin ≠ none) (Tri.getV fun s h => ⟨h.1, fun hn => ?_⟩) fun v => ?_
    · simp [hn] at h
    refine Tri.bind (Q := fun _ s => Inv10r s ∧ s.p.pin ≠ none) (Tri.guardE (fun s h => h.1.1) fun s _ h => h) fun _ => ?_
    refine Tri.bind (Q := fun _ => Inv10p) ?_ fun _ => ?_
    · unfold decrPinRetries pinRetries
      let P : St → Prop := fun s => Inv10r s ∧ s.p.pin ≠ none
      have : SEnv P := ⟨fun _ _ _ _ h => h⟩
      refine Tri.bind (Q := fun r s => P s ∧ r = s.p.retries) ((Tri.read (P := P)).exc fun s h => h.1.1) fun r => ?_
      split
      · let P' : St → Prop := fun s => P s ∧ r = s.p.retries
        have : SEnv P' := ⟨fun _ _ _ _ h => h⟩
        refine (Tri.writeP (P := P') (Q := fun _ => Inv10p) (fun s h => h.1.1.1) (fun s h => ⟨h.1.1.1.1, ?_, h.1.2⟩)
          fun s h => h.inv)
        obtain ⟨⟨⟨⟨_, h1, _⟩, h2⟩, _⟩, h3⟩ := h
        simp [Persist.retries] at *
        omega
      · exact Tri.pure fun s h => absurd h.1.1.2 (by omega)
    split
    · exact Tri.fail fun s h => h.inv
    · rename_i dec _
      refine Tri.bind (Q := fun b s => if b = true then Inv10z s else Inv10 s) ?_ fun b => ?_
      · unfold comparePin
        refine Tri.bind (Q := fun _ s => if (hash == dec) = true then Inv10z s else Inv10 s) (Tri.logE fun s h => ?_)
          fun _ => Tri.pure fun s h => h
        obtain ⟨h1, h2, h3⟩ := h
        cases hb : hash == dec
        · refine ⟨guessBound_cons h1 (by simp [Ev.isGuess]; omega), ?_, fun hn => absurd hn h3⟩
          simp [since, Ev.endsGuessing, Ev.isGuess]; omega
        · refine ⟨⟨guessBound_cons h1 (by simp [Ev.isGuess]; omega), ?_, fun hn => absurd hn h3⟩, by simp [since, Ev.endsGuessing, Ev.isGuess]⟩
          simp [since, Ev.endsGuessing, Ev.isGuess]; omega
      · cases b
        · refine (Tri.ofPres (I := Inv10) ?_).pre fun s h => by simpa using h
          simp only [Bool.false_eq_true, if_false]
          pres
        · refine Tri.bind (resetPinRetries_10.pre fun s h => by simpa using h) fun _ => ?_
          exact (Tri.ofPres (I := Inv10z) (Pres.mis _)).conseq (fun _ h => h) (fun _ _ h => h.1) fun _ h => h.1

instance (a : PinParams) : Pres Inv10 (processSetPin a) := by
  refine Tri.toPres ?_
  unfold processSetPin
  refine Tri.bind (Tri.ofPres inferInstance) fun ka => Tri.bind (Tri.ofPres inferInstance) fun pa =>
    Tri.bind (Tri.ofPres inferInstance) fun en => ?_
  refine Tri.bind (Q := fun h s => Inv10 s ∧ h = s.p.pin.map (·.1)) Tri.read fun h => ?_
  refine Tri.bind (Q := fun _ => Inv10z) (Tri.guardE (fun s h => h.1) fun s hn h => ⟨h.1, h.1.2.2 ?_⟩) fun _ => ?_
  · cases hp : s.p.pin <;> simp_all
  refine Tri.bind (Tri.of_pres inferInstance (fun _ h => h.1) fun _ _ _ _ _ h => h) fun ss => ?_
  refine Tri.bind (Tri.of_pres inferInstance (fun _ h => h.1) fun _ _ _ _ _ h => h) fun _ => ?_
  refine Tri.bind (Tri.of_pres (checkAndStore_10z _ _) (fun _ h => h.1) fun _ _ _ _ _ h => h) fun _ => ?_
  exact resetPinRetries_10.post fun _ _ h => h.1

/-- The test that retries remain. -/
theorem retries_10 {e : Status} {β : Type} {f : M β} {Q : β → St → Prop} (h : Tri Inv10r f Q Inv10) :
    Tri Inv10 (do let r ← pinRetries; guardE (r != 0) e; f) Q Inv10 := by
  refine Tri.bind (Q := fun r s => Inv10 s ∧ r = s.p.retries) Tri.read fun r => ?_
  refine Tri.bind (Q := fun _ => Inv10r) (Tri.guardE (fun s h => h.1) fun s hn h => ⟨h.1, ?_⟩) fun _ => h
  rw [← h.2]; simpa using hn

instance (a : PinParams) : Pres Inv10 (processChangePin a) := by
  refine Tri.toPres ?_
  unfold processChangePin
  refine Tri.bind (Tri.ofPres inferInstance) fun ka => Tri.bind (Tri.ofPres inferInstance) fun pa =>
    Tri.bind (Tri.ofPres inferInstance) fun en => Tri.bind (Tri.ofPres inferInstance) fun phe => retries_10 ?_
  refine Tri.bind (Tri.of_pres inferInstance (fun _ h => h.1) fun _ _ _ _ _ h => h) fun ss => ?_
  refine Tri.bind (Tri.of_pres inferInstance (fun _ h => h.1) fun _ _ _ _ _ h => h) fun _ => ?_
  refine Tri.bind (verifyPinHashEnc_10 _ _ _) fun _ => Tri.ofPres ?_
  have := checkAndStore_10
  pres

instance (a : PinParams) : Pres Inv10 (processGetPinToken a) := by
  refine Tri.toPres ?_
  unfold processGetPinToken
  refine Tri.bind (Tri.ofPres inferInstance) fun ka => Tri.bind (Tri.ofPres inferInstance) fun pa =>
    Tri.bind (Tri.ofPres inferInstance) fun _ => retries_10 ?_
  refine Tri.bind (Tri.of_pres inferInstance (fun _ h => h.1) fun _ _ _ _ _ h => h) fun ss => ?_
  refine Tri.bind (verifyPinHashEnc_10 _ _ _) fun _ => Tri.ofPres ?_
  pres

instance (a : PinParams) : Pres Inv10 (processGetPinTokenWithPermissions a) := by
  unfold processGetPinTokenWithPermissions; pres

instance (a : PinParams) : Pres Inv10 (clientPinCommand a) := by
  unfold clientPinCommand; pres

step_instances Inv10

theorem inv10_reach {P : Oracle → Prop} {b : Bool} {s : St} (h : Reach P b s) : Inv10 s := by
  refine reach_inv h fun env att => ⟨?_, ?_, ?_⟩
  · intro e w hw; simp at hw
  · simp [since, Ev.endsGuessing, Ev.isGuess, Persist.retries]
  · simp [since, Ev.endsGuessing, Ev.isGuess]

end Verif.Ctap
