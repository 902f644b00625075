import Verif.Ctap.CycleLemmas
import Verif.Ctap.LogLemmas

/-!
# Retries do not change after three wrong PINs
-/
namespace Verif.Ctap
set_option linter.unusedSimpArgs false
set_option linter.unusedSectionVars false
variable [Dev]

/-- No PIN verification is possible. -/
def Blocked (r : Nat) (s : St) : Prop := s.p.pin ≠ none ∧ s.p.retries = r ∧ (3 ≤ s.v.pin.mismatches ∨ r = 0)

section
variable (l : List Ev) (r : Nat)
local notation "K" => Until l Ev.isBootOrErased (Blocked r)

theorem Blk.cons {l : List Ev} {r : Nat} {s : St} (h : Until l Ev.isBootOrErased (Blocked r) s) (e : Ev) :
    Until l Ev.isBootOrErased (Blocked r) { s with log := e :: s.log } :=
  h.elim (fun h => .inl (h.cons e)) fun h => .inr ⟨h.1.cons e, h.2⟩

theorem Blk.grown {l : List Ev} {r : Nat} {s : St} (h : Until l Ev.isBootOrErased (Blocked r) s) : Grown l s :=
  h.elim (fun ⟨p, h, _⟩ => ⟨p, h.symm⟩) fun h => h.1

instance : SEnv K := ⟨fun _ _ _ _ h => h⟩
instance (P : Oracle → Prop) : SOra P K := ⟨fun _ _ _ h => h⟩
stable_instances K under SMaster SCreds SMinPin SRpIds SForce SEp SAlwaysUv SLargeBlob STok SKeys SU2f SSp SLb
instance : SPresence K := ⟨fun _ _ h => Blk.cons h _⟩
instance : SCompare K := ⟨fun _ _ h => Blk.cons h _⟩
instance : SIssued K := ⟨fun _ _ _ _ h => Blk.cons h _⟩
instance : SConsumed K := ⟨fun _ h => Blk.cons h _⟩
instance : SU2fPrompt K := ⟨fun _ _ h => Blk.cons h _⟩
instance : SU2fConsume K := ⟨fun _ _ h => Blk.cons h _⟩
instance : SU2fTouch K := ⟨fun _ _ h => Blk.cons h _⟩
instance : SCounterEv K := ⟨fun _ _ _ h => Blk.cons h _⟩
instance : SCounter K := ⟨fun s x w h => by
  cases w
  · exact Blk.cons (s := { s with p := _ }) h _
  · exact h⟩
instance : SBoot K := ⟨fun s v h => .inl (Marked.new (s := { s with v := v }) (Blk.grown (s := s) h : Grown l s) rfl)⟩

instance : Pres K (setPin x n) := presWriteP fun s h => h.elim .inl fun h => .inr ⟨h.1, by simp, h.2.2⟩
instance (ss : SharedSecret) (e : Bytes) : Pres K (checkAndStoreNewPin ss e) := by unfold checkAndStoreNewPin; pres

instance : Pres K resetCommand := by
  refine Tri.toPres ?_
  unfold resetCommand
  refine Tri.bind (Tri.ofPres inferInstance) fun c => Tri.bind (Tri.ofPres inferInstance) fun _ =>
    Tri.bind (Tri.ofPres inferInstance) fun _ => ?_
  refine Tri.bind (Q := fun _ => Marked l Ev.isBootOrErased) ?_ fun _ =>
    Tri.conseq (Tri.ofPres (I := Marked l Ev.isBootOrErased)
      (Pres.bindE inferInstance fun _ => Pres.bindE (Pres.u2f _) fun _ => inferInstance)) (fun _ h => h)
      (fun _ _ h => .inl h) fun _ h => .inl h
  unfold resetStorage
  have : Pres (Marked l Ev.isBootOrErased) (writeP fun p => { p with master := none }) := presWriteP fun s h => h
  refine Tri.bind (Q := fun _ => Marked l Ev.isBootOrErased) (Tri.writeP (fun _ h => h) (fun s h => ?_) fun s h => .inl h)
    fun _ => Tri.conseq (Tri.ofPres (I := Marked l Ev.isBootOrErased) (by pres)) (fun _ h => h) (fun _ _ h => h)
      fun _ h => .inl h
  exact Marked.new (s := { s with p := _ }) (Blk.grown (s := s) h : Grown l s) rfl

/-- A computation that fails without changes where blocked. -/
theorem presBlk {m : M α} [Pres (Marked l Ev.isBootOrErased) m]
    (hm : Tri (fun s => Grown l s ∧ Blocked r s) m (fun _ => K) K) : Pres K m :=
  ⟨fun s hs => hs.elim (fun h1 => .inl (Pres.out s h1)) fun h1 => hm.snd (fun _ _ h => h) (fun _ h => h) s h1⟩

instance : SEnv (fun s => Grown l s ∧ Blocked r s) := ⟨fun _ _ _ _ h => h⟩

instance (a : PinParams) : Pres K (processSetPin a) := by
  refine presBlk l r ?_
  unfold processSetPin
  refine Tri.bind (Tri.req (fun _ h => .inr h) fun s _ _ h => h) fun ka => ?_
  refine Tri.bind (Tri.req (fun _ h => .inr h) fun s _ _ h => h) fun pa => ?_
  refine Tri.bind (Tri.req (fun _ h => .inr h) fun s _ _ h => h) fun en => ?_
  refine Tri.bind (Tri.read.exc fun _ h => .inr h) fun h => ?_
  refine Tri.bind (Q := fun _ _ => False) (Tri.guardE (fun _ h => .inr h.1) fun s hc h => ?_) fun _ s h => h.elim
  have := h.1.2.1
  cases hp : s.p.pin <;> simp_all

theorem verify_blk (pr : Proto) (ss : SharedSecret) (e : Bytes) (h0 : r ≠ 0) :
    Tri (fun s => Grown l s ∧ Blocked r s) (verifyPinHashEnc pr ss e) (fun _ _ => False) K := by
  unfold verifyPinHashEnc
  refine Tri.bind (Q := fun _ s => Grown l s ∧ Blocked r s) (Tri.read.conseq (fun _ h => h) (fun _ _ h => h.1)
    fun _ h => .inr h) fun h => ?_
  split
  · exact Tri.fail fun s h => .inr h
  refine Tri.bind (Q := fun v s => (Grown l s ∧ Blocked r s) ∧ v = s.v) (Tri.getV fun s h => ⟨h, rfl⟩) fun v => ?_
  refine Tri.bind (Q := fun _ _ => False) (Tri.guardE (fun _ h => .inr h.1) fun s hc h => ?_) fun _ s h => h.elim
  obtain ⟨⟨_, _, _, h1 | h1⟩, rfl⟩ := h
  · simp at hc; omega
  · exact absurd h1 h0

theorem retries_blk {e : Status} {f : M β} (hf : r ≠ 0 → Tri (fun s => Grown l s ∧ Blocked r s) f (fun _ => K) K) :
    Tri (fun s => Grown l s ∧ Blocked r s) (do let r ← pinRetries; guardE (r != 0) e; f) (fun _ => K) K := by
  refine Tri.bind (Tri.read.exc fun _ h => .inr h) fun n => ?_
  by_cases hr : r = 0
  · refine Tri.bind (Q := fun _ _ => False) (Tri.guardE (fun _ h => .inr h.1) fun s hc h => ?_) fun _ s h => h.elim
    obtain ⟨⟨_, _, h1, _⟩, rfl⟩ := h
    simp [h1, hr] at hc
  · exact Tri.bind (Tri.guardE (fun _ h => .inr h.1) fun s hc h => h.1) fun _ => hf hr

instance (a : PinParams) : Pres K (processChangePin a) := by
  refine presBlk l r ?_
  unfold processChangePin
  refine Tri.bind (Tri.req (fun _ h => .inr h) fun s _ _ h => h) fun ka => ?_
  refine Tri.bind (Tri.req (fun _ h => .inr h) fun s _ _ h => h) fun pa => ?_
  refine Tri.bind (Tri.req (fun _ h => .inr h) fun s _ _ h => h) fun en => ?_
  refine Tri.bind (Tri.req (fun _ h => .inr h) fun s _ _ h => h) fun phe => retries_blk l r fun h0 => ?_
  refine Tri.bind (Tri.of_pres (by unfold getSharedSecret; pres) (fun _ h => .inr h) fun _ _ _ _ _ h => h) fun ss => ?_
  refine Tri.bind (Tri.liftE (fun _ h => .inr h) fun s _ _ h => h) fun _ => ?_
  exact Tri.bind (verify_blk l r _ _ _ h0) fun _ s h => h.elim

instance (a : PinParams) : Pres K (processGetPinToken a) := by
  refine presBlk l r ?_
  unfold processGetPinToken
  refine Tri.bind (Tri.req (fun _ h => .inr h) fun s _ _ h => h) fun ka => ?_
  refine Tri.bind (Tri.req (fun _ h => .inr h) fun s _ _ h => h) fun phe => ?_
  refine Tri.bind (Tri.guardE (fun _ h => .inr h) fun s _ h => h) fun _ => retries_blk l r fun h0 => ?_
  refine Tri.bind (Tri.of_pres (by unfold getSharedSecret; pres) (fun _ h => .inr h) fun _ _ _ _ _ h => h) fun ss => ?_
  exact Tri.bind (verify_blk l r _ _ _ h0) fun _ s h => h.elim

instance (a : PinParams) : Pres K (processGetPinTokenWithPermissions a) := by
  unfold processGetPinTokenWithPermissions; pres

instance (a : PinParams) : Pres K (clientPinCommand a) := by
  unfold clientPinCommand; pres

step_instances (Until l Ev.isBootOrErased (Blocked r))

end

theorem wrongGuesses_eq (log : List Ev) : wrongGuesses log = since Ev.endsCycle log := by
  induction log with
  | nil => rfl
  | cons e l ih =>
    simp only [wrongGuesses, since, List.takeWhile_cons] at *
    cases h : e.endsCycle
    · simp [ih, List.countP_cons]; omega
    · simp

theorem run_blocked {P : Oracle → Prop} {b : Bool} {s0 s : St} (h : Run P s0 b s) (hb : Blocked s0.p.retries s0) :
    Until s0.log Ev.isBootOrErased (Blocked s0.p.retries) s :=
  run_inv h (.inr ⟨List.suffix_refl _, hb⟩)

end Verif.Ctap
