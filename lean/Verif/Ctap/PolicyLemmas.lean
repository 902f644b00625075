import Verif.Ctap.CredLemmas
import Verif.Ctap.PolicySpec

/-!
# PIN policy: lemmas
-/
namespace Verif.Ctap
set_option linter.unusedSectionVars false
variable [Dev]

/-! ## A rule for one step -/

/-- A step from a state with `I` ends with `R` if each command does. -/
theorem stepT {I R : St → Prop} (hIR : ∀ s, I s → R s) (hpre : ∀ cmd ch s, I s → I (prelude cmd ch s)) [SEnv R]
    [SCounterEv R] [Pres R touchButton] (hf : ∀ ch cmd s, I s → R (fidoCommand ch cmd s).2)
    (hu : ∀ m s, I s → R (u2fCommand m s).2) (i : Input) (s : St) (hs : I s) : R (stepM i s).2 := by
  have hc : ∀ ch cmd s, I s → R (channelCommand ch cmd s).2 := by
    intro ch cmd s hs
    cases ch with
    | main cid => exact hf _ _ _ hs
    | vendor cid => cases cmd <;> first | exact hIR _ hs | exact hf (.main []) .getInfo s hs
  cases i with
  | ctap2 ch msg =>
    have : ∀ s, I s → R (processCommand ch msg s).2 := by
      intro s hs
      unfold processCommand
      cases hd : Command.deserialize msg with
      | error e => exact hIR _ hs
      | ok cmd =>
        have key : R ((processParsed cmd ch >>= fun r => respond r) s).2 := by
          have h1 : R (processParsed cmd ch s).2 := by rw [processParsed_eq]; exact hc _ _ _ (hpre _ _ _ hs)
          exact bind_snd h1 fun r s1 h2 => (inferInstance : Pres R (respond r)).out _ (by rw [h2] at h1; exact h1)
        simp only [errorByte]
        rcases h : (processParsed cmd ch >>= fun r => respond r) s with ⟨r, s1⟩
        rw [h] at key
        cases r <;> exact key
    have h1 := this s hs
    exact bind_snd h1 fun r s1 h2 => by rw [h2] at h1; exact h1
  | ctap1 msg =>
    have key : R (processU2f msg s).2 := by
      unfold processU2f
      have h1 := hu msg s hs
      refine bind_snd h1 fun r s1 h2 => ?_
      rw [h2] at h1
      have : Pres R (do effect fun _ => .ok ()
                        match U2fCommand.parse msg, r with
                        | .ok (.authenticate _ _ _ _), .ok b => do
                          logE (.counter (Verif.Cbor.beNat ((b.drop 1).take 4)) .assertion)
                          M.pure r
                        | _, _ => M.pure r) := by pres
      exact this.out s1 h1
    exact bind_snd key fun r s1 h2 => by rw [h2] at key; exact key
  | touch =>
    have key := (inferInstance : Pres R touchButton).out s (hIR s hs)
    exact bind_snd key fun r s1 h2 => by rw [h2] at key; exact key
  | wait ms => exact (presWait (I := R) ms).out s (hIR s hs)

/-! ## New PINs -/

theorem decryptPin_ok {ss : SharedSecret} {ct pin : Bytes} (h : decryptPin ss ct = .ok pin) :
    ∃ d, ss.decrypt ct = .ok d ∧ d.length = 64 ∧ pin = d.takeWhile (· != 0) := by
  unfold decryptPin at h
  cases hd : ss.decrypt ct with
  | error e => simp [hd] at h
  | ok d =>
    simp only [hd] at h
    split at h
    · simp at h
    · rename_i hl
      simp at h hl
      exact ⟨d, rfl, hl, h.symm⟩

/-- The PIN passes the checks of `check_and_store_new_pin`. -/
theorem goodPin_of_checks {m : Nat} {pin : Bytes} (hm : 0 < m) (h : m ≤ pinChars pin) (hl : pin.length ≤ 63) :
    GoodPin m ((Dev.sha256 pin).take 16, pinChars pin) := by
  unfold pinChars at h ⊢
  cases hd : Verif.Utf8.decode pin with
  | none => simp [hd] at h; omega
  | some cs =>
    simp only [hd, Option.getD_some] at h ⊢
    obtain ⟨h1, h2⟩ := (Verif.Utf8.decode_eq_some_iff _ _).1 hd
    exact ⟨pin, cs, h1, h2, h, hl, rfl⟩

/-- What a new PIN does to a predicate. -/
theorem checkAndStore_tri {m : Nat} (hm : 0 < m) {I R : St → Prop} [SEnv I] [SEnv R] (hI : ∀ s, I s → R s ∧ s.p.minPin = m)
    (hR : ∀ s pin, I s → GoodPin m pin → R { s with p := { s.p with pin := some pin, forcePinChange := false } })
    (ss : SharedSecret) (ct : Bytes) : Tri I (checkAndStoreNewPin ss ct) (fun _ => R) R := by
  unfold checkAndStoreNewPin
  refine Tri.bind (Q := fun pin s => I s ∧ pin.length ≤ 64)
    (Tri.liftE (fun s hs => (hI s hs).1) fun s pin h hs => ⟨hs, ?_⟩) fun pin => ?_
  · obtain ⟨d, _, hd, rfl⟩ := decryptPin_ok h
    rw [← hd]
    exact (List.takeWhile_sublist _).length_le
  have : SEnv (fun s => I s ∧ pin.length ≤ 64) := ⟨fun s e h1 h2 h => ⟨SEnv.out s e h1 h2 h.1, h.2⟩⟩
  refine Tri.bind (Q := fun n s => (I s ∧ pin.length ≤ 64) ∧ n = s.p.minPin) ((Tri.read).exc fun s h => (hI s h.1).1) fun n => ?_
  refine Tri.bind (Q := fun _ s => I s ∧ pin.length ≤ 64 ∧ m ≤ pinChars pin ∧ pin.length ≠ 64)
    (Tri.guardE (fun s h => (hI s h.1.1).1) fun s hc h => ?_) fun _ => ?_
  · obtain ⟨⟨h1, h2⟩, h3⟩ := h
    have := (hI s h1).2
    simp at hc
    exact ⟨h1, h2, by omega, hc.2⟩
  · unfold setPin
    have : SEnv (fun s => I s ∧ pin.length ≤ 64 ∧ m ≤ pinChars pin ∧ pin.length ≠ 64) :=
      ⟨fun s e h1 h2 h => ⟨SEnv.out s e h1 h2 h.1, h.2⟩⟩
    refine Tri.writeP (Q := fun _ => R) (fun s h => (hI s h.1).1) (fun s h => ?_) fun s h => h
    exact hR s _ h.1 (goodPin_of_checks hm h.2.2.1 (by omega))

/-! ## C15: what a step does to the PIN -/

/-- A successful comparison. -/
def Ev.isCompareOk : Ev → Bool
  | .pinCompare true => true
  | _ => false

/-- The state before a PIN command. -/
structure Before (p0 : Option (Bytes × Nat)) (m : Nat) (l : List Ev) (s : St) : Prop where
  pin : s.p.pin = p0
  min : s.p.minPin = m
  log : Grown l s

/-- The PIN is `p0`, or has been erased, or replaced in the permitted way. -/
structure PinStep (p0 : Option (Bytes × Nat)) (m : Nat) (l : List Ev) (s : St) : Prop where
  grown : Grown l s
  pin : s.p.pin = p0 ∨ (s.p.pin = none ∧ Marked l Ev.isErased s) ∨
    ∃ pin, s.p.pin = some pin ∧ GoodPin m pin ∧ (p0 = none ∨ Marked l Ev.isCompareOk s)

section
variable (p0 : Option (Bytes × Nat)) (m : Nat) (l : List Ev)

theorem PinStep.cons {p0 : Option (Bytes × Nat)} {m : Nat} {l : List Ev} {s : St} (h : PinStep p0 m l s) (e : Ev) :
    PinStep p0 m l { s with log := e :: s.log } where
  grown := h.grown.cons e
  pin := by
    rcases h.pin with h | ⟨h, hm⟩ | ⟨pin, h1, h2, h3⟩
    · exact .inl h
    · exact .inr (.inl ⟨h, hm.cons e⟩)
    · exact .inr (.inr ⟨pin, h1, h2, h3.imp id fun h => h.cons e⟩)

theorem Before.toStep {p0 : Option (Bytes × Nat)} {m : Nat} {l : List Ev} {s : St} (h : Before p0 m l s) :
    PinStep p0 m l s := ⟨h.log, .inl h.pin⟩

instance : SEnv (PinStep p0 m l) := ⟨fun _ _ _ _ h => ⟨h.1, h.2⟩⟩
instance (P : Oracle → Prop) : SOra P (PinStep p0 m l) := ⟨fun _ _ _ h => ⟨h.1, h.2⟩⟩
section
local macro "st" : term => `(⟨fun _ _ h => ⟨h.1, h.2⟩⟩)
instance : SMaster (PinStep p0 m l) := st
instance : SCreds (PinStep p0 m l) := st
instance : SMinPin (PinStep p0 m l) := st
instance : SRpIds (PinStep p0 m l) := st
instance : SForce (PinStep p0 m l) := st
instance : SEp (PinStep p0 m l) := st
instance : SAlwaysUv (PinStep p0 m l) := st
instance : SLargeBlob (PinStep p0 m l) := st
instance : SRetries (PinStep p0 m l) := st
instance : STok (PinStep p0 m l) := st
instance : SMis (PinStep p0 m l) := st
instance : SKeys (PinStep p0 m l) := ⟨fun _ _ _ h => ⟨h.1, h.2⟩⟩
instance : SU2f (PinStep p0 m l) := st
instance : SSp (PinStep p0 m l) := st
instance : SLb (PinStep p0 m l) := st
end
instance : SPresence (PinStep p0 m l) := ⟨fun _ _ h => h.cons _⟩
instance : SCompare (PinStep p0 m l) := ⟨fun _ _ h => h.cons _⟩
instance : SIssued (PinStep p0 m l) := ⟨fun _ _ _ _ h => h.cons _⟩
instance : SConsumed (PinStep p0 m l) := ⟨fun _ h => h.cons _⟩
instance : SU2fPrompt (PinStep p0 m l) := ⟨fun _ _ h => h.cons _⟩
instance : SU2fConsume (PinStep p0 m l) := ⟨fun _ _ h => h.cons _⟩
instance : SU2fTouch (PinStep p0 m l) := ⟨fun _ _ h => h.cons _⟩
instance : SCounterEv (PinStep p0 m l) := ⟨fun _ _ _ h => h.cons _⟩
instance : SCounter (PinStep p0 m l) := ⟨fun s x w h => by
  have h' : PinStep p0 m l { s with p := { s.p with counter := x } } := ⟨h.1, h.2⟩
  cases w
  · exact h'.cons _
  · exact h'⟩
instance : SErase (PinStep p0 m l) := ⟨fun s h =>
  ⟨Grown.cons (s := { s with p := _ }) h.grown _,
   .inr (.inl ⟨rfl, Marked.new (s := { s with p := s.p.clear NUM_PERSISTENT_KEYS }) h.grown rfl⟩)⟩⟩

instance : SEnv (Before p0 m l) := ⟨fun _ _ _ _ h => ⟨h.1, h.2, h.3⟩⟩
instance : SRetries (Before p0 m l) := ⟨fun _ _ h => ⟨h.1, h.2, h.3⟩⟩
instance : SMis (Before p0 m l) := ⟨fun _ _ h => ⟨h.1, h.2, h.3⟩⟩
instance : SKeys (Before p0 m l) := ⟨fun _ _ _ h => ⟨h.1, h.2, h.3⟩⟩
instance : SCompare (Before p0 m l) := ⟨fun _ _ h => ⟨h.1, h.2, h.3.cons _⟩⟩

variable {p0 m l}

theorem pinStep_setPin (hm : 0 < m) (a : PinParams) :
    Tri (Before p0 m l) (processSetPin a) (fun _ => PinStep p0 m l) (PinStep p0 m l) := by
  unfold processSetPin
  have k : ∀ {α} {x : M α} [Pres (Before p0 m l) x], Tri (Before p0 m l) x (fun _ => Before p0 m l) (PinStep p0 m l) :=
    fun {_ _} [h : Pres _ _] => (Tri.ofPres h).exc fun _ h => h.toStep
  refine k.bind fun ka => k.bind fun param => k.bind fun enc => ?_
  refine Tri.bind (Q := fun h s => Before p0 m l s ∧ h = s.p.pin.map (·.1)) ((Tri.read).exc fun _ h => h.toStep) fun h => ?_
  refine Tri.bind (Q := fun _ s => Before p0 m l s ∧ p0 = none) (Tri.guardE (fun s h => h.1.toStep) fun s hc h => ?_) fun _ => ?_
  · obtain ⟨hb, rfl⟩ := h
    refine ⟨hb, ?_⟩
    rw [← hb.pin]
    simpa using hc
  have : SEnv (fun s => Before p0 m l s ∧ p0 = none) := ⟨fun s e h1 h2 h => ⟨SEnv.out s e h1 h2 h.1, h.2⟩⟩
  have k : ∀ {α} {x : M α} [Pres (fun s => Before p0 m l s ∧ p0 = none) x],
      Tri (fun s => Before p0 m l s ∧ p0 = none) x (fun _ s => Before p0 m l s ∧ p0 = none) (PinStep p0 m l) :=
    fun {_ _} [h : Pres _ _] => (Tri.ofPres h).exc fun _ h => h.1.toStep
  refine k.bind fun ss => k.bind fun _ => ?_
  refine Tri.bind (checkAndStore_tri hm (fun s h => ⟨h.1.toStep, h.1.min⟩) (fun s pin h hg => ?_) ss enc) fun _ => ?_
  · exact ⟨h.1.log, .inr (.inr ⟨pin, rfl, hg, .inl h.2⟩)⟩
  · exact Tri.ofPres inferInstance

/-- After a successful verification a comparison has succeeded. -/
theorem verify_marks (pr : Proto) (ss : SharedSecret) (ct : Bytes) :
    Tri (Before p0 m l) (verifyPinHashEnc pr ss ct) (fun _ s => Before p0 m l s ∧ Marked l Ev.isCompareOk s)
      (PinStep p0 m l) := by
  refine Tri.mk (fun s hs => ((inferInstance : Pres (Before p0 m l) _).out s hs).toStep) fun s a s' hs h => ?_
  refine ⟨pres_of_ok h hs, ?_⟩
  obtain ⟨hash, len, e, hp, _, hd, hle, rfl⟩ := verifyPinHashEnc_ok h
  exact Marked.new (s := { s with env := e, p := _, v := _ }) hs.log rfl

theorem pinStep_changePin (hm : 0 < m) (a : PinParams) :
    Tri (Before p0 m l) (processChangePin a) (fun _ => PinStep p0 m l) (PinStep p0 m l) := by
  unfold processChangePin
  have k : ∀ {α} {x : M α} [Pres (Before p0 m l) x], Tri (Before p0 m l) x (fun _ => Before p0 m l) (PinStep p0 m l) :=
    fun {_ _} [h : Pres _ _] => (Tri.ofPres h).exc fun _ h => h.toStep
  refine k.bind fun ka => k.bind fun param => k.bind fun enc => k.bind fun phe => k.bind fun r => k.bind fun _ =>
    k.bind fun ss => k.bind fun _ => (verify_marks _ _ _).bind fun _ => ?_
  have : SEnv (fun s => Before p0 m l s ∧ Marked l Ev.isCompareOk s) := ⟨fun s e h1 h2 h => ⟨SEnv.out s e h1 h2 h.1, h.2⟩⟩
  refine Tri.bind (checkAndStore_tri hm (fun s h => ⟨h.1.toStep, h.1.min⟩) (fun s pin h hg => ?_) ss enc) fun _ => ?_
  · exact ⟨h.1.log, .inr (.inr ⟨pin, rfl, hg, .inr h.2⟩)⟩
  · exact Tri.ofPres (by pres)

theorem pinStep_clientPin (hm : 0 < m) (a : PinParams) (s : St) (hs : Before p0 m l s) :
    PinStep p0 m l (clientPinCommand a s).2 := by
  have : Tri (Before p0 m l) (clientPinCommand a) (fun _ => PinStep p0 m l) (PinStep p0 m l) := by
    have k : ∀ {α} {x : M α} [Pres (PinStep p0 m l) x], Tri (Before p0 m l) x (fun _ => PinStep p0 m l) (PinStep p0 m l) :=
      fun {_ _} [h : Pres _ _] => (Tri.ofPres h).pre fun _ h => h.toStep
    unfold clientPinCommand
    refine Tri.bind (Q := fun _ => Before p0 m l) ((Tri.ofPres inferInstance).exc fun _ h => h.toStep) fun _ => ?_
    split
    · exact k
    · exact k
    · exact (pinStep_setPin hm a).bind fun _ => Tri.ofPres inferInstance
    · exact (pinStep_changePin hm a).bind fun _ => Tri.ofPres inferInstance
    all_goals exact k
  exact this.snd (fun _ _ h => h) (fun _ h => h) s hs

theorem pinStep_step (hm : 0 < m) (i : Input) (s : St) (hs : Before p0 m l s) : PinStep p0 m l (stepM i s).2 := by
  refine stepT (fun s h => h.toStep) (fun cmd ch s h => ⟨h.1, h.2, h.3⟩) (fun ch cmd s h => ?_) (fun msg s h => ?_) i s hs
  · cases cmd with
    | clientPin a =>
      have h1 := pinStep_clientPin hm a s h
      simp only [fidoCommand]
      exact bind_snd h1 fun r s1 h2 => by rw [h2] at h1; exact h1
    | makeCredential a => exact (inferInstance : Pres (PinStep p0 m l) (makeCredential a)).out s h.toStep
    | getAssertion a => exact (inferInstance : Pres (PinStep p0 m l) (getAssertion a ch)).out s h.toStep
    | getNextAssertion => exact (inferInstance : Pres (PinStep p0 m l) getNextAssertion).out s h.toStep
    | getInfo => exact (inferInstance : Pres (PinStep p0 m l) getInfo).out s h.toStep
    | reset => exact (inferInstance : Pres (PinStep p0 m l) resetCommand).out s h.toStep
    | credMgmt a => exact (inferInstance : Pres (PinStep p0 m l) (credentialManagement a ch)).out s h.toStep
    | selection => exact (inferInstance : Pres (PinStep p0 m l) selection).out s h.toStep
    | largeBlobs a => exact (inferInstance : Pres (PinStep p0 m l) (largeBlobsCommand a)).out s h.toStep
    | config a => exact (inferInstance : Pres (PinStep p0 m l) (configCommand a)).out s h.toStep
  · exact (inferInstance : Pres (PinStep p0 m l) (u2fCommand msg)).out s h.toStep
end

/-! ## C28: the minimum length -/

/-- What setting the minimum length preserves. -/
theorem setMinPin_pres {I : St → Prop} [SEnv I] [SRpIds I]
    (hF : ∀ s, I s → I { s with p := { s.p with forcePinChange := true } })
    (hM : ∀ s n, I s → s.p.minPin ≤ n → (∀ pin, s.p.pin = some pin → n ≤ pin.2 ∨ s.p.forcePinChange = true) →
      I { s with p := { s.p with minPinLength := some n } })
    (a : MinPinParams) : Pres I (configSetMinPin a) := by
  refine Tri.toPres ?_
  unfold configSetMinPin
  refine Tri.bind (Q := fun n s => I s ∧ n = s.p.minPin) Tri.read fun stored => ?_
  dsimp only
  generalize hnew : a.newLength.getD stored = new
  refine Tri.bind (Q := fun _ s => I s ∧ s.p.minPin ≤ new) (Tri.guardE (fun _ h => h.1) fun s hc h => ⟨h.1, ?_⟩) fun _ => ?_
  · rw [← h.2]; simpa using hc
  have : SEnv (fun s => I s ∧ s.p.minPin ≤ new) := ⟨fun s e h1 h2 h => ⟨SEnv.out s e h1 h2 h.1, h.2⟩⟩
  refine Tri.bind (Q := fun _ s => I s ∧ s.p.minPin ≤ new) ((Tri.ofPres inferInstance).exc fun _ h => h.1) fun _ => ?_
  refine Tri.bind (Q := fun o s => (I s ∧ s.p.minPin ≤ new) ∧ o = s.p.pin.map (·.2)) ((Tri.read).exc fun _ h => h.1) fun old => ?_
  refine Tri.bind (Q := fun _ s => I s ∧ s.p.minPin ≤ new ∧ (∀ pin, s.p.pin = some pin → new ≤ pin.2 ∨ s.p.forcePinChange = true))
    (Tri.whenM (fun hc => ?_) fun hc s h => ⟨h.1.1, h.1.2, fun pin hp => .inl ?_⟩) fun _ => ?_
  · unfold forcePinChange
    have : SEnv (fun s => (I s ∧ s.p.minPin ≤ new) ∧ old = s.p.pin.map (·.2)) :=
      ⟨fun s e h1 h2 h => ⟨⟨SEnv.out s e h1 h2 h.1.1, h.1.2⟩, h.2⟩⟩
    have : SEnv (fun s => I s ∧ s.p.minPin ≤ new ∧ (∀ pin, s.p.pin = some pin → new ≤ pin.2 ∨ s.p.forcePinChange = true)) :=
      ⟨fun s e h1 h2 h => ⟨SEnv.out s e h1 h2 h.1, h.2⟩⟩
    exact Tri.writeP (fun _ h => h.1.1) (fun s h => ⟨hF s h.1.1, h.1.2, fun _ _ => .inr rfl⟩) fun s h => h.1
  · have h2 := h.2
    rw [hp] at h2
    subst h2
    simp at hc
    omega
  have : SEnv (fun s => I s ∧ s.p.minPin ≤ new ∧ (∀ pin, s.p.pin = some pin → new ≤ pin.2 ∨ s.p.forcePinChange = true)) :=
    ⟨fun s e h1 h2 h => ⟨SEnv.out s e h1 h2 h.1, h.2⟩⟩
  refine Tri.bind (Q := fun _ => I) ?_ fun _ => ?_
  · unfold setMinPinLength
    exact Tri.writeP (Q := fun _ => I) (fun _ h => h.1) (fun s h => hM s new h.1 h.2.1 h.2.2) fun s h => h
  · split
    · exact Tri.pure fun _ h => h
    · exact Tri.ofPres inferInstance

/-- Stored PINs are good, and long enough unless a change is forced. -/
structure MinInv (s : St) : Prop where
  min : Dev.defaultMinPinLength ≤ s.p.minPin
  pin : ∀ pin, s.p.pin = some pin → GoodPin Dev.defaultMinPinLength pin ∧ (s.p.minPin ≤ pin.2 ∨ s.p.forcePinChange = true)

instance : SEnv MinInv := ⟨fun _ _ _ _ h => ⟨h.1, h.2⟩⟩
instance (P : Oracle → Prop) : SOra P MinInv := ⟨fun _ _ _ h => ⟨h.1, h.2⟩⟩
section
local macro "st" : term => `(⟨fun _ _ h => ⟨h.1, h.2⟩⟩)
instance : SMaster MinInv := st
instance : SCreds MinInv := st
instance : SRpIds MinInv := st
instance : SEp MinInv := st
instance : SAlwaysUv MinInv := st
instance : SLargeBlob MinInv := st
instance : SRetries MinInv := st
instance : STok MinInv := st
instance : SMis MinInv := st
instance : SKeys MinInv := ⟨fun _ _ _ h => ⟨h.1, h.2⟩⟩
instance : SU2f MinInv := st
instance : SSp MinInv := st
instance : SLb MinInv := st
instance : SPresence MinInv := st
instance : SCompare MinInv := st
instance : SIssued MinInv := ⟨fun _ _ _ _ h => ⟨h.1, h.2⟩⟩
instance : SConsumed MinInv := ⟨fun _ h => ⟨h.1, h.2⟩⟩
instance : SU2fPrompt MinInv := st
instance : SU2fConsume MinInv := st
instance : SU2fTouch MinInv := st
instance : SCounterEv MinInv := ⟨fun _ _ _ h => ⟨h.1, h.2⟩⟩
instance : SCounter MinInv := ⟨fun _ _ _ h => ⟨h.1, h.2⟩⟩
instance : SBoot MinInv := st
instance : SErase MinInv := ⟨fun _ _ => ⟨Nat.le_refl _, fun _ h => by cases h⟩⟩
end

instance (a : MinPinParams) : Pres MinInv (configSetMinPin a) :=
  setMinPin_pres (fun s h => ⟨h.1, fun pin hp => ⟨(h.2 pin hp).1, .inr rfl⟩⟩)
    (fun s n h hn hp => ⟨Nat.le_trans h.1 hn, fun pin h1 => ⟨(h.2 pin h1).1, hp pin h1⟩⟩) a

theorem default_pos : 0 < Dev.defaultMinPinLength := Nat.lt_of_lt_of_le (by decide) Dev.defaultMinPinLength_ge

theorem GoodPin.mono {m n : Nat} {pin : Bytes × Nat} (h : GoodPin n pin) (hm : m ≤ n) : GoodPin m pin := by
  obtain ⟨b, c, h1, h2, h3, h4, h5⟩ := h
  exact ⟨b, c, h1, h2, Nat.le_trans hm h3, h4, h5⟩

theorem GoodPin.le {m : Nat} {pin : Bytes × Nat} (h : GoodPin m pin) : m ≤ pin.2 := by
  obtain ⟨b, c, h1, h2, h3, h4, rfl⟩ := h
  exact h3

instance (ss : SharedSecret) (ct : Bytes) : Pres MinInv (checkAndStoreNewPin ss ct) := by
  constructor
  intro s hs
  have : SEnv (fun t => MinInv t ∧ t.p.minPin = s.p.minPin) := ⟨fun s e h1 h2 h => ⟨SEnv.out s e h1 h2 h.1, h.2⟩⟩
  refine (checkAndStore_tri (m := s.p.minPin) (I := fun t => MinInv t ∧ t.p.minPin = s.p.minPin) (R := MinInv)
    (Nat.lt_of_lt_of_le default_pos hs.min) (fun _ h => h) (fun t pin h hg => ⟨h.1.min, ?_⟩) ss ct).snd
    (fun _ _ h => h) (fun _ h => h) s ⟨hs, rfl⟩
  intro pin' hp
  cases hp
  exact ⟨hg.mono hs.min, .inl (by rw [show ({ t with p := { t.p with pin := some pin, forcePinChange := false } } : St).p.minPin = t.p.minPin from rfl, h.2]; exact hg.le)⟩

instance (a : PinParams) : Pres MinInv (processSetPin a) := by unfold processSetPin; pres
instance (a : PinParams) : Pres MinInv (processChangePin a) := by unfold processChangePin; pres
instance (a : PinParams) : Pres MinInv (clientPinCommand a) := by unfold clientPinCommand; pres
instance (a : ConfigParams) : Pres MinInv (configDispatch a) := by unfold configDispatch; pres
instance (a : ConfigParams) : Pres MinInv (configCommand a) := by unfold configCommand; pres
step_instances MinInv

theorem minInv_reach {P : Oracle → Prop} {b : Bool} {s : St} (h : Reach P b s) : MinInv s :=
  reach_inv h fun _ _ => ⟨Nat.le_refl _, fun _ h => by cases h⟩

/-- The minimum length is at least `m`, or there was a factory reset. -/
abbrev MinAtLeast (m : Nat) (l : List Ev) (s : St) : Prop := Until l Ev.isErased (fun s => m ≤ s.p.minPin) s

section
variable (m : Nat) (l : List Ev)
local notation "K" => MinAtLeast m l

theorem MinAtLeast.cons {m : Nat} {l : List Ev} {s : St} (h : MinAtLeast m l s) (e : Ev) :
    MinAtLeast m l { s with log := e :: s.log } := h.imp (fun h => h.cons e) fun h => ⟨h.1.cons e, h.2⟩

instance : SEnv K := ⟨fun _ _ _ _ h => h⟩
instance (P : Oracle → Prop) : SOra P K := ⟨fun _ _ _ h => h⟩
stable_instances K under SMaster SCreds SPin SRpIds SForce SEp SAlwaysUv SLargeBlob SMis SKeys SU2f SSp SLb STok SRetries
instance : SPresence K := ⟨fun _ _ h => MinAtLeast.cons h _⟩
instance : SCompare K := ⟨fun _ _ h => MinAtLeast.cons h _⟩
instance : SIssued K := ⟨fun _ _ _ _ h => MinAtLeast.cons h _⟩
instance : SConsumed K := ⟨fun _ h => MinAtLeast.cons h _⟩
instance : SU2fPrompt K := ⟨fun _ _ h => MinAtLeast.cons h _⟩
instance : SU2fConsume K := ⟨fun _ _ h => MinAtLeast.cons h _⟩
instance : SU2fTouch K := ⟨fun _ _ h => MinAtLeast.cons h _⟩
instance : SCounterEv K := ⟨fun _ _ _ h => MinAtLeast.cons h _⟩
instance : SCounter K := ⟨fun s x w h => by
  cases w
  · exact MinAtLeast.cons (s := { s with p := _ }) h _
  · exact h⟩
instance : SBoot K := ⟨fun s v h => MinAtLeast.cons (s := { s with v := v }) h _⟩
instance : SErase K := ⟨fun s h => .inl (Marked.new (s := { s with p := s.p.clear NUM_PERSISTENT_KEYS })
  (h.elim (fun ⟨p, h, _⟩ => ⟨p, h.symm⟩) fun h => h.1) rfl)⟩

instance (a : MinPinParams) : Pres K (configSetMinPin a) :=
  setMinPin_pres (fun s h => h) (fun s n h hn _ => h.imp id fun h => ⟨h.1, Nat.le_trans h.2 hn⟩) a
instance (a : ConfigParams) : Pres K (configDispatch a) := by unfold configDispatch; pres
instance (a : ConfigParams) : Pres K (configCommand a) := by unfold configCommand; pres
step_instances (MinAtLeast m l)
end

end Verif.Ctap
