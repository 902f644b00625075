import Verif.Ctap.TokenLemmas

/-!
# A token stays bound to its relying party
-/
namespace Verif.Ctap
set_option linter.unusedSectionVars false

/-- A token in use is bound to the relying party `r`. -/
def Bound (r : Bytes) (s : St) : Prop := s.v.pin.tok.inUse = true → s.v.pin.tok.rpId = some r

section
variable [Dev] (l : List Ev) (r : Bytes)
local notation "K" => Until l Ev.isBootOrIssued (Bound r)

theorem Bnd.cons {l : List Ev} {r : Bytes} {s : St} (h : Until l Ev.isBootOrIssued (Bound r) s) (e : Ev) :
    Until l Ev.isBootOrIssued (Bound r) { s with log := e :: s.log } :=
  h.elim (fun h => .inl (h.cons e)) fun h => .inr ⟨h.1.cons e, h.2⟩

theorem Bnd.grown {l : List Ev} {r : Bytes} {s : St} (h : Until l Ev.isBootOrIssued (Bound r) s) : Grown l s :=
  h.elim (fun ⟨p, h, _⟩ => ⟨p, h.symm⟩) fun h => h.1

instance : Weaken K (Grown l) := ⟨fun _ h => Bnd.grown h⟩
instance : SEnv K := ⟨fun _ _ _ _ h => h⟩
instance (P : Oracle → Prop) : SOra P K := ⟨fun _ _ _ h => h⟩
stable_instances K under SMaster SCreds SMinPin SRpIds SForce SEp SAlwaysUv SLargeBlob SMis SKeys SU2f SSp SLb SPin SRetries
instance : SPresence K := ⟨fun _ _ h => Bnd.cons h _⟩
instance : SCompare K := ⟨fun _ _ h => Bnd.cons h _⟩
instance : SConsumed K := ⟨fun _ h => Bnd.cons h _⟩
instance : SU2fPrompt K := ⟨fun _ _ h => Bnd.cons h _⟩
instance : SU2fConsume K := ⟨fun _ _ h => Bnd.cons h _⟩
instance : SU2fTouch K := ⟨fun _ _ h => Bnd.cons h _⟩
instance : SCounterEv K := ⟨fun _ _ _ h => Bnd.cons h _⟩
instance : SCounter K := ⟨fun s x w h => by
  cases w
  · exact Bnd.cons (s := { s with p := _ }) h _
  · exact h⟩
instance : SErase K := ⟨fun s h => Bnd.cons (s := { s with p := _ }) h _⟩

/-- Changes of the token state that keep the binding. -/
theorem bnd_modTok {f : TokenState → TokenState} (hf : ∀ t, (f t).inUse = true → t.inUse = true ∧ (t.rpId = some r → (f t).rpId = some r)) :
    Pres K (modTok f) :=
  ⟨fun s hs => hs.elim .inl fun h => .inr ⟨h.1, fun hu => (hf _ hu).2 (h.2 (hf _ hu).1)⟩⟩

instance : Pres K clearTokenFlags := by
  have := bnd_modTok l r (f := TokenState.clearFlags) fun t h => ⟨h, id⟩
  unfold clearTokenFlags; pres

instance : Pres K updateTimeouts := by
  have (t : Nat) := bnd_modTok l r (f := fun k => k.observe t) fun k h => by
    unfold TokenState.observe at h ⊢
    split at h
    · simp [TokenState.new] at h
    · rename_i hh; rw [if_neg hh]; exact ⟨h, id⟩
  unfold updateTimeouts; pres

instance (x : Bytes) : Pres K (ensureRpIdPermission x) := by
  constructor
  intro s h
  simp only [ensureRpIdPermission, bind_def, M.bind, getV]
  split
  · rename_i hn
    rcases h with h | ⟨h1, h2⟩
    · exact .inl h
    · refine .inr ⟨h1, fun hu => ?_⟩
      have := h2 hu
      simp [this] at hn
  · exact (inferInstance : Pres K (guardE _ _)).out s h

instance (u : UInt8) (a b c : Bytes) (pr : Option Proto) : Pres K (checkTokenFor u a b c pr) := by
  unfold checkTokenFor; pres
instance (a : McParams) : Pres K (mcAuth a) := by unfold mcAuth; pres
instance (a : McParams) : Pres K (makeCredential a) := by unfold makeCredential; pres
instance (a : GaParams) : Pres K (gaAuth a) := by unfold gaAuth; pres
instance (a : GaParams) : Pres K (gaPresence a) := by unfold gaPresence; pres
instance (a : GaParams) (ch : Channel) : Pres K (getAssertion a ch) := by unfold getAssertion; pres
instance : Pres K resetClientPin := by
  have : Pres K (modPin fun c => { c with mismatches := 0, tok := TokenState.new }) :=
    ⟨fun s h => h.elim .inl fun h => .inr ⟨h.1, fun hu => by simp [modPin, modV, TokenState.new] at hu⟩⟩
  unfold resetClientPin; pres
instance : Pres K resetCommand := by
  have : Pres K (modV fun v => { v with u2f := U2fUp.new }) := Pres.u2f _
  unfold resetCommand; pres

theorem bnd_w (s : St) (h : Until l Ev.isBootOrIssued (Bound r) s) :
    Grown l s ∧ Until l Ev.isBootOrIssued (Bound r) s := ⟨Bnd.grown h, h⟩

theorem bnd_getPinToken (a : PinParams) : HT K (processGetPinToken a) (HT.Ok K (Grown l) fun _ => Grown l) := by
  unfold processGetPinToken
  refine HT.bindOk (HT.ofPres' inferInstance (bnd_w l r)) fun ka => ?_
  refine HT.bindOk (HT.ofPres' inferInstance (bnd_w l r)) fun phe => ?_
  refine HT.bindOk (HT.ofPres' inferInstance (bnd_w l r)) fun _ => ?_
  refine HT.bindOk (HT.ofPres' inferInstance (bnd_w l r)) fun n => ?_
  refine HT.bindOk (HT.ofPres' inferInstance (bnd_w l r)) fun _ => ?_
  refine HT.bindOk (HT.ofPres' inferInstance (bnd_w l r)) fun ss => ?_
  refine HT.bindOk (HT.ofPres' inferInstance (bnd_w l r)) fun _ => ?_
  refine HT.bindOk (HT.ofPres' inferInstance (bnd_w l r)) fun f => ?_
  refine HT.bindOk (HT.ofPres' inferInstance (bnd_w l r)) fun _ => ?_
  refine HT.bindOk (Q := fun _ s => Grown l s ∧ s.v.pin.p1.token.length = 32)
    (HT.ofPres inferInstance (bnd_w l r) fun s _ s' _ h hs' => ⟨Bnd.grown hs', ?_⟩) fun _ => ?_
  · have := resetToken_ok h
    rw [this]; simp [ClientPin.setProto]
  refine HT.bindOk (Q := fun _ s => Grown l s ∧ s.v.pin.p1.token.length = 32 ∧ s.v.pin.p2.token.length = 32) ?_ fun _ => ?_
  · intro s hs
    have hp := (inferInstance : Pres (Grown l) (resetToken .v2)).out s hs.1
    have hne : ∀ e, (resetToken .v2 s).1 ≠ .err e := fun e => by
      unfold resetToken
      exact HT.bind_no_err (fun e => HT.rng_no_err _ _ _) (fun _ _ _ e' => by simp [modPin, modV]) e
    rcases h : resetToken .v2 s with ⟨res, s1⟩
    rw [h] at hp hne
    cases res with
    | ok u =>
      have := resetToken_ok h
      refine ⟨hp, ?_⟩
      rw [this]
      exact ⟨by simp [ClientPin.setProto, hs.2], by simp [ClientPin.setProto]⟩
    | err e => exact absurd rfl (hne e)
    | panic => exact hp
    | crash => exact hp
  intro s hs
  have key : ∀ (s1 : St) (pt : Bytes), Grown l s1 → pt.length % 16 = 0 →
      HT.Ok (Until l Ev.isBootOrIssued (Bound r)) (Grown l) (fun _ => Grown l) ((do let enc ← ss.encrypt pt; M.pure ({ token := some enc } : PinResponse)) s1).1
        ((do let enc ← ss.encrypt pt; M.pure ({ token := some enc } : PinResponse)) s1).2 := by
    intro s1 pt h1 h2
    have hn := encrypt_no_err (ss := ss) h2 s1
    have hp := (inferInstance : Pres (Grown l) (ss.encrypt pt)).out s1 h1
    simp only [bind_def, M.bind]
    rcases h : ss.encrypt pt s1 with ⟨res, s2⟩
    rw [h] at hn hp
    cases res with
    | ok c => exact hp
    | err e => exact absurd rfl (hn e)
    | panic => exact hp
    | crash => exact hp
  refine key { s with v := { s.v with pin := { s.v.pin with tok :=
      { s.v.pin.tok.beginUsing s.env.now with permissions := 0x03, rpId := none } } } } _ hs.1 ?_
  cases a.proto <;> simp [ClientPin.proto, hs.2]

theorem bnd_logIssued : HT (Grown l) logIssued (HT.Ok K (Grown l) fun _ s => Grown l s ∧ K s) := by
  intro s h
  show Grown l { s with log := .tokenIssued s.env.now s.v.pin.tok.permissions s.v.pin.tok.rpId :: s.log } ∧ Until l Ev.isBootOrIssued (Bound r) { s with log := .tokenIssued s.env.now s.v.pin.tok.permissions s.v.pin.tok.rpId :: s.log }
  exact ⟨h.cons _, .inl (Marked.new h rfl)⟩

instance (a : PinParams) : PresA K (Grown l) (clientPinCommand a) := by
  unfold clientPinCommand
  refine PresA.bindE inferInstance fun _ => ?_
  split
  · infer_instance
  · infer_instance
  · infer_instance
  · infer_instance
  · refine HT.toPresA (HT.bindOk (bnd_getPinToken l r a) fun x => HT.bindOk (bnd_logIssued l r) fun _ => ?_)
    exact fun s hs => (⟨hs.1, hs.2⟩ : Grown l s ∧ _)
  · infer_instance
  · infer_instance
  · refine HT.toPresA (HT.bindOk (Q := fun _ => Grown l) ?_ fun x => HT.bindOk (bnd_logIssued l r) fun _ => ?_)
    · unfold processGetPinTokenWithPermissions
      refine HT.bindOk (HT.ofPres' inferInstance (bnd_w l r)) fun _ => ?_
      refine HT.bindOk (HT.ofPres' inferInstance (bnd_w l r)) fun _ => ?_
      refine HT.bindOk (HT.ofPres' inferInstance (bnd_w l r)) fun _ => ?_
      refine HT.bindOk (bnd_getPinToken l r _) fun x => ?_
      intro s hs
      exact hs
    · exact fun s hs => (⟨hs.1, hs.2⟩ : Grown l s ∧ _)

step_instancesA (Until l Ev.isBootOrIssued (Bound r)) (Grown l)
end

variable [Dev]

/-- In every run, a token stays bound until another one is issued or the device is restarted. -/
theorem run_bound {P : Oracle → Prop} {r : Bytes} {s0 s : St} (h : Run P s0 true s) (hb : Bound r s0) :
    HappenedSince s0.log Ev.isBootOrIssued s.log ∨ Bound r s := by
  have := (run_invA (I := Until s0.log Ev.isBootOrIssued (Bound r)) (J := Grown s0.log) h
    (.inr ⟨List.suffix_refl _, hb⟩) ?_).2 rfl
  · exact this.imp id fun h => h.2
  · intro s _ hs
    refine ⟨(inferInstance : Pres (Grown s0.log) bootM).out s hs, fun ha => ?_⟩
    obtain ⟨e, _, _, ⟨h1, _⟩ | ⟨p1, p2, h1⟩⟩ := bootM_cases s
    · rw [h1] at ha; cases ha
    · rw [h1]; exact .inl (Marked.new (s := { s with env := e, v := _ }) hs rfl)

end Verif.Ctap
