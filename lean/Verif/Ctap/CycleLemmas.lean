import Verif.Ctap.Alive
import Verif.Ctap.GuessLemmas

/-!
# The invariant for C11
-/
namespace Verif.Ctap
set_option linter.unusedSimpArgs false
set_option linter.unusedSectionVars false
variable [Dev]

/-- Reading the store does not fail. -/
def NoReadFail (o : Oracle) : Prop := ∀ k, o.rfail k = none

/-- The part that survives power cuts. -/
def J11 (s : St) : Prop := GuessBound Ev.endsCycle 3 s.log ∧ since Ev.endsCycle s.log ≤ 3

/-- The invariant of a running device. -/
def I11 (s : St) : Prop :=
  NoReadFail s.env.o ∧ J11 s ∧ (since Ev.endsCycle s.log ≤ s.v.pin.mismatches ∨ s.p.retries = 0) ∧
    (s.p.pin = none → since Ev.endsCycle s.log = 0)

theorem J11.other {s : St} (h : J11 s) {e : Ev} (h1 : e.isGuess = false) : J11 { s with log := e :: s.log } := by
  obtain ⟨ha, hb⟩ := h
  refine ⟨guessBound_cons ha (by simp [h1]; omega), ?_⟩
  simp only [since, h1]
  split <;> simp; exact hb

theorem I11.other {s : St} (h : I11 s) {e : Ev} (h1 : e.isGuess = false) (h2 : e.endsCycle = false) :
    I11 { s with log := e :: s.log } := by
  obtain ⟨hr, ha, hb, hc⟩ := h
  refine ⟨hr, ha.other h1, ?_, ?_⟩
  · rw [show ({ s with log := e :: s.log } : St).log = e :: s.log from rfl, since_other h1 h2]; exact hb
  · rw [show ({ s with log := e :: s.log } : St).log = e :: s.log from rfl, since_other h1 h2]; exact hc

instance : Weaken I11 J11 := ⟨fun _ h => h.2.1⟩
instance : SEnv I11 := ⟨fun _ _ _ ho h => ⟨by simp [ho]; exact h.1, h.2⟩⟩
instance : SOra NoReadFail I11 := ⟨fun _ _ ho h => ⟨ho, h.2⟩⟩
instance (P : Oracle → Prop) : SOra P J11 := ⟨fun _ _ _ h => h⟩
stable_instances I11 under SMaster SCreds SMinPin SRpIds SForce SEp SAlwaysUv SLargeBlob STok SKeys SU2f SSp SLb
instance : SPresence I11 := ⟨fun _ _ h => h.other rfl rfl⟩
instance : SIssued I11 := ⟨fun _ _ _ _ h => h.other rfl rfl⟩
instance : SConsumed I11 := ⟨fun _ h => h.other rfl rfl⟩
instance : SU2fPrompt I11 := ⟨fun _ _ h => h.other rfl rfl⟩
instance : SU2fConsume I11 := ⟨fun _ _ h => h.other rfl rfl⟩
instance : SU2fTouch I11 := ⟨fun _ _ h => h.other rfl rfl⟩
instance : SCounterEv I11 := ⟨fun _ _ _ h => h.other rfl rfl⟩
instance : SCounter I11 := ⟨fun s _ w h => by
  cases w
  · exact I11.other (s := { s with p := _ }) h rfl rfl
  · exact h⟩

/-- Erased, no guess since. -/
def I11z (s : St) : Prop := I11 s ∧ since Ev.endsCycle s.log = 0
instance : SEnv I11z := ⟨fun s e h ho hI => ⟨SEnv.out s e h ho hI.1, hI.2⟩⟩
stable_instances I11z under SMaster STok SKeys SU2f
instance : SMis I11z := ⟨fun s x h => ⟨⟨h.1.1, h.1.2.1, .inl (by simp [h.2]), h.1.2.2.2⟩, h.2⟩⟩

theorem resetStorage_11 : Tri I11 resetStorage (fun _ => I11z) I11 := by
  unfold resetStorage
  refine Tri.bind (Q := fun _ => I11z) (Tri.writeP (fun _ h => h) (fun s h => ?_) fun s h => h.1) fun _ => ?_
  · have : since Ev.endsCycle (Ev.erased :: s.log) = 0 := by simp [since, Ev.endsCycle, Ev.endsGuessing]
    exact ⟨⟨h.1, h.2.1.other rfl, .inl (by simp [this]), fun _ => this⟩, this⟩
  · have : Pres I11z (writeP fun p => { p with master := none }) := presWriteP fun s h => h
    exact (Tri.ofPres inferInstance).exc fun s h => h.1

instance : Pres I11 resetCommand := by
  refine Tri.toPres ?_
  unfold resetCommand
  refine Tri.bind (Tri.ofPres inferInstance) fun c => Tri.bind (Tri.ofPres inferInstance) fun _ =>
    Tri.bind (Tri.ofPres inferInstance) fun _ => Tri.bind resetStorage_11 fun _ => ?_
  refine Tri.bind ((Tri.ofPres (I := I11z) inferInstance).exc fun _ h => h.1) fun _ => ?_
  refine Tri.bind ((Tri.ofPres (I := I11z) (Pres.u2f _)).exc fun _ h => h.1) fun _ => ?_
  exact Tri.pure fun _ h => h.1

theorem resetPinRetries_11 : Tri I11z resetPinRetries (fun _ => I11z) I11 := by
  refine Tri.writeP (fun s h => h.1) (fun s h => ⟨⟨h.1.1, h.1.2.1, .inl (by simp [h.2]), fun _ => h.2⟩, h.2⟩)
    (fun s h => h.1)

theorem setPin_11 (x : Bytes) (n : Nat) : Pres I11 (setPin x n) :=
  presWriteP fun s h => ⟨h.1, h.2.1, h.2.2.1, by simp⟩

theorem setPin_11z (x : Bytes) (n : Nat) : Pres I11z (setPin x n) :=
  presWriteP fun s h => ⟨⟨h.1.1, h.1.2.1, h.1.2.2.1, by simp⟩, h.2⟩

theorem checkAndStore_11 (ss : SharedSecret) (e : Bytes) : Pres I11 (checkAndStoreNewPin ss e) := by
  have := setPin_11
  unfold checkAndStoreNewPin; pres

theorem checkAndStore_11z (ss : SharedSecret) (e : Bytes) : Pres I11z (checkAndStoreNewPin ss e) := by
  have := setPin_11z
  unfold checkAndStoreNewPin; pres

instance (a : PinParams) : Pres I11 (processSetPin a) := by
  refine Tri.toPres ?_
  unfold processSetPin
  refine Tri.bind (Tri.ofPres inferInstance) fun ka => Tri.bind (Tri.ofPres inferInstance) fun pa =>
    Tri.bind (Tri.ofPres inferInstance) fun en => ?_
  refine Tri.bind (Q := fun h s => I11 s ∧ h = s.p.pin.map (·.1)) Tri.read fun h => ?_
  refine Tri.bind (Q := fun _ => I11z) (Tri.guardE (fun s h => h.1) fun s hn h => ⟨h.1, h.1.2.2.2 ?_⟩) fun _ => ?_
  · cases hp : s.p.pin <;> simp_all
  refine Tri.bind (Tri.of_pres inferInstance (fun _ h => h.1) fun _ _ _ _ _ h => h) fun ss => ?_
  refine Tri.bind (Tri.of_pres inferInstance (fun _ h => h.1) fun _ _ _ _ _ h => h) fun _ => ?_
  refine Tri.bind (Tri.of_pres (checkAndStore_11z _ _) (fun _ h => h.1) fun _ _ _ _ _ h => h) fun _ => ?_
  exact resetPinRetries_11.post fun _ _ h => h.1

/-- Retries remain. -/
def I11r (s : St) : Prop := I11 s ∧ s.p.retries ≠ 0
instance : SEnv I11r := ⟨fun s e h ho hI => ⟨SEnv.out s e h ho hI.1, hI.2⟩⟩

/-- Ready for a comparison. -/
def I11p (s : St) : Prop :=
  NoReadFail s.env.o ∧ J11 s ∧ since Ev.endsCycle s.log ≤ s.v.pin.mismatches ∧ s.v.pin.mismatches < 3 ∧ s.p.pin ≠ none
instance : SEnv I11p := ⟨fun _ _ _ ho h => ⟨by simp [ho]; exact h.1, h.2⟩⟩

theorem I11p.inv {s : St} (h : I11p s) : I11 s := ⟨h.1, h.2.1, .inl h.2.2.1, fun hn => absurd hn h.2.2.2.2⟩
theorem I11p.both {s : St} (h : I11p s) : J11 s ∧ I11 s := ⟨h.2.1, h.inv⟩

/-- After a wrong guess. -/
def I11w (s : St) : Prop :=
  NoReadFail s.env.o ∧ J11 s ∧ since Ev.endsCycle s.log ≤ s.v.pin.mismatches + 1 ∧ s.p.pin ≠ none
instance : SEnv I11w := ⟨fun _ _ _ ho h => ⟨by simp [ho]; exact h.1, h.2⟩⟩
stable_instances I11w under SKeys

theorem I11.both {s : St} (h : I11 s) : J11 s ∧ I11 s := ⟨h.2.1, h⟩

theorem verifyPinHashEnc_11 (pr : Proto) (ss : SharedSecret) (e : Bytes) :
    HT I11r (verifyPinHashEnc pr ss e) (HT.Ok I11 J11 fun _ => I11) := by
  unfold verifyPinHashEnc
  refine HT.bindOk (Q := fun h s => I11r s ∧ (s.p.pin.map (·.1)) = h)
    (HT.ofPres (P := I11r) inferInstance (fun s h => h.1.both) ?_) fun h => ?_
  · intro s a s' hs hm hs'
    simp only [pinHash, bind_ok, pure_ok] at hm
    obtain ⟨p, s1, h1, rfl, rfl⟩ := hm
    obtain ⟨rfl, rfl⟩ := readP_ok h1
    exact ⟨hs', rfl⟩
  cases h with
  | none => exact fun s h => h.1.1.both
  | some hash =>
    refine HT.bindOk (Q := fun v s => I11r s ∧ s.p.pin ≠ none ∧ v = s.v) (fun s h => ⟨h.1, fun hn => ?_, rfl⟩) fun v => ?_
    · have hn : s.p.pin = none := hn
      simp [hn] at h
    refine HT.bindOk (Q := fun _ s => I11r s ∧ s.p.pin ≠ none ∧ s.v.pin.mismatches < 3) (fun s h => ?_) fun _ => ?_
    · by_cases hm : v.pin.mismatches < 3
      · simp only [guardE, hm, decide_true, if_true]
        exact ⟨h.1, h.2.1, (h.2.2 ▸ hm : s.v.pin.mismatches < 3)⟩
      · simp only [guardE, hm, decide_false, Bool.false_eq_true, if_false]
        exact h.1.1.both
    refine HT.bindOk (Q := fun _ => I11p) ?_ fun _ => ?_
    · refine HT.ofPres (P := I11p) ?_ (fun _ h => h.both) (fun _ _ _ _ _ h => h) |>.conseq
        (fun s h => ⟨h.1.1.1, h.1.1.2.1, ?_, h.2.2, h.2.1⟩) fun _ _ h => h
      · have : SRetries I11p := ⟨by stable⟩
        infer_instance
      · rcases h.1.1.2.2.1 with h1 | h1
        · exact h1
        · exact absurd h1 h.1.2
    split
    · exact fun s h => h.both
    · rename_i dec _
      refine HT.bindOk (Q := fun b s => if b = true then I11z s else I11w s) ?_ fun b => ?_
      · intro s h
        obtain ⟨h0, h1, h2, h3, h4⟩ := h
        show if (hash == dec) = true then I11z { s with log := .pinCompare (hash == dec) :: s.log }
          else I11w { s with log := .pinCompare (hash == dec) :: s.log }
        obtain ⟨ha, hb⟩ := h1
        have hg := guessBound_cons (e := .pinCompare (hash == dec)) ha (by simp [Ev.isGuess]; omega)
        cases hb' : hash == dec
        · rw [hb'] at hg
          refine ⟨h0, ⟨hg, ?_⟩, ?_, h4⟩
          · simp [since, Ev.endsCycle, Ev.endsGuessing, Ev.isGuess]; omega
          · simp [since, Ev.endsCycle, Ev.endsGuessing, Ev.isGuess]; omega
        · rw [hb'] at hg
          have : since Ev.endsCycle (.pinCompare true :: s.log) = 0 := by
            simp [since, Ev.endsCycle, Ev.endsGuessing]
          exact ⟨⟨h0, ⟨hg, by simp [this]⟩, .inl (by simp [this]), fun _ => this⟩, this⟩
      · cases b
        · simp only [Bool.false_eq_true, if_false]
          refine HT.bindOk (Q := fun _ => I11w) (HT.noErr inferInstance ?_ (fun _ h => h.2.1) fun _ _ _ _ _ h => h)
            fun _ => ?_
          · intro s e h
            exact HT.bind_no_err (HT.rng_no_err 32 s) (fun a s1 h e => by simp [modPin, modV]) e
          refine HT.bindOk (Q := fun r s => I11w s ∧ r = s.p.retries)
            (HT.noErr inferInstance ?_ (fun _ h => h.2.1) ?_) fun r => ?_
          · intro s e h
            exact HT.bind_no_err (HT.readP_no_err h.1) (fun a s1 h e => by simp [M.pure]) e
          · intro s a s' hs hm hs'
            simp only [pinRetries, bind_ok, pure_ok] at hm
            obtain ⟨p, s1, h1, rfl, rfl⟩ := hm
            obtain ⟨rfl, rfl⟩ := readP_ok h1
            exact ⟨hs', rfl⟩
          refine HT.bindOk (Q := fun _ => I11w) (fun s h => ?_) fun _ => ?_
          · by_cases hr : r = 0
            · simp only [guardE, hr, bne_self_eq_false, Bool.false_eq_true, if_false]
              exact I11.both ⟨h.1.1, h.1.2.1, .inr (h.2.symm.trans hr), fun hn => absurd hn h.1.2.2.2⟩
            · simp only [guardE, hr, bne_iff_ne, ne_eq, not_false_eq_true, if_true]
              exact h.1
          refine HT.bindOk (Q := fun _ => I11)
            (fun s h => ⟨h.1, h.2.1, .inl h.2.2.1, fun hn => absurd hn h.2.2.2⟩) fun _ => ?_
          exact HT.ofPres' (by pres) fun s h => h.both
        · simp only [if_true]
          refine HT.bindOk (Q := fun _ => I11z) ?_ fun _ => HT.ofPres (Pres.mis _) (fun s h => h.1.both)
            fun _ _ _ _ _ h => h.1
          refine HT.ofPres ?_ (fun s h => h.1.both) fun _ _ _ _ _ h => h
          exact presWriteP fun s h =>
            ⟨⟨h.1.1, h.1.2.1, .inl (by simp [h.2]), fun _ => h.2⟩, h.2⟩

/-- The test that retries remain. -/
theorem retries_11 {e : Status} {β : Type} {f : M β} {Q : β → St → Prop} (h : HT I11r f (HT.Ok I11 J11 Q)) :
    HT I11 (do let r ← pinRetries; guardE (r != 0) e; f) (HT.Ok I11 J11 Q) := by
  refine HT.bindOk (Q := fun r s => I11 s ∧ r = s.p.retries) (HT.ofPres inferInstance (fun s h => h.both) ?_) fun r => ?_
  · intro s a s' hs hm hs'
    simp only [pinRetries, bind_ok, pure_ok] at hm
    obtain ⟨p, s1, h1, rfl, rfl⟩ := hm
    obtain ⟨rfl, rfl⟩ := readP_ok h1
    exact ⟨hs', rfl⟩
  refine HT.bindOk (Q := fun _ => I11r) (fun s h => ?_) fun _ => h
  by_cases hr : r = 0
  · simp only [guardE, hr, bne_self_eq_false, Bool.false_eq_true, if_false]
    exact h.1.both
  · simp only [guardE, hr, bne_iff_ne, ne_eq, not_false_eq_true, if_true]
    exact ⟨h.1, (h.2 ▸ hr : s.p.retries ≠ 0)⟩

instance (a : PinParams) : PresA I11 J11 (processChangePin a) := by
  refine HT.toPresA ?_
  unfold processChangePin
  refine HT.bindOk (HT.ofPres' inferInstance fun _ h => h.both) fun ka =>
    HT.bindOk (HT.ofPres' inferInstance fun _ h => h.both) fun pa =>
    HT.bindOk (HT.ofPres' inferInstance fun _ h => h.both) fun en =>
    HT.bindOk (HT.ofPres' inferInstance fun _ h => h.both) fun phe => retries_11 ?_
  refine HT.bindOk (HT.ofPres' inferInstance fun _ h => h.1.both) fun ss => ?_
  refine HT.bindOk (HT.ofPres' inferInstance fun _ h => h.1.both) fun _ => ?_
  refine HT.bindOk (verifyPinHashEnc_11 _ _ _) fun _ => HT.ofPres ?_ (fun _ h => h.both) fun _ _ _ _ _ h => h.both
  have := checkAndStore_11
  pres

instance (a : PinParams) : PresA I11 J11 (processGetPinToken a) := by
  refine HT.toPresA ?_
  unfold processGetPinToken
  refine HT.bindOk (HT.ofPres' inferInstance fun _ h => h.both) fun ka =>
    HT.bindOk (HT.ofPres' inferInstance fun _ h => h.both) fun phe =>
    HT.bindOk (HT.ofPres' inferInstance fun _ h => h.both) fun _ => retries_11 ?_
  refine HT.bindOk (HT.ofPres' inferInstance fun _ h => h.1.both) fun ss => ?_
  refine HT.bindOk (verifyPinHashEnc_11 _ _ _) fun _ => HT.ofPres ?_ (fun _ h => h.both) fun _ _ _ _ _ h => h.both
  pres

instance (a : PinParams) : PresA I11 J11 (processGetPinTokenWithPermissions a) := by
  unfold processGetPinTokenWithPermissions; presA

instance (a : PinParams) : PresA I11 J11 (clientPinCommand a) := by
  unfold clientPinCommand; presA

step_instancesA I11 J11

theorem inv11_reach {b : Bool} {s : St} (h : Reach NoReadFail b s) : J11 s ∧ (b = true → I11 s) := by
  refine reach_invA h (fun env att => ⟨?_, ?_⟩) fun s hP hs => ?_
  · intro e w hw; simp at hw
  · simp [since]
  · obtain ⟨e, he, ho, ⟨ha, h1⟩ | ⟨p1, p2, h1⟩⟩ := bootM_cases s
    · exact ⟨by rw [h1]; exact hs, by simp [ha]⟩
    · rw [h1]
      have h2 : since Ev.endsCycle (.boot e.now :: s.log) = 0 := by simp [since, Ev.endsCycle]
      have hJ : J11 { s with log := .boot e.now :: s.log } := hs.other rfl
      exact ⟨hJ, fun _ => ⟨by rw [ho]; exact hP, hJ, .inl (by simp [h2]), fun _ => h2⟩⟩

end Verif.Ctap
