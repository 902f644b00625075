import Verif.Ctap.Triple

/-!
# Preservation by runs that the device survives

`PresA I J m`: from a state with `I`, every run of `m` ends with `J`, and if the device survives it ends with `I`.
-/
namespace Verif.Ctap

/-- `I` is stronger than `J`. -/
class Weaken (I J : St → Prop) : Prop where
  out : ∀ s, I s → J s

instance (I : St → Prop) : Weaken I (fun _ => True) := ⟨fun _ _ => trivial⟩

class PresA (I J : St → Prop) (m : M α) : Prop where
  out : ∀ s, I s → J (m s).2 ∧ ((m s).1.alive = true → I (m s).2)

variable {I J : St → Prop}

instance (priority := low) PresA.ofPres [w : Weaken I J] {m : M α} [h : Pres I m] : PresA I J m :=
  ⟨fun s hs => ⟨w.out _ (h.out s hs), fun _ => h.out s hs⟩⟩

theorem PresA.bindE {m : M α} {f : α → M β} (h1 : PresA I J m) (h2 : ∀ a, PresA I J (f a)) :
    PresA I J (m >>= f) := by
  constructor
  intro s hs
  have := h1.out s hs
  simp only [bind_def, M.bind]
  rcases h : m s with ⟨r, s1⟩
  rw [h] at this
  cases r with
  | ok a => exact (h2 a).out s1 (this.2 rfl)
  | _ => exact this

instance {m : M α} {f : α → M β} [h1 : PresA I J m] [h2 : ∀ a, PresA I J (f a)] : PresA I J (m >>= f) :=
  PresA.bindE h1 h2

theorem PresA.iteE {c : Prop} [Decidable c] {m n : M α} (h1 : PresA I J m) (h2 : PresA I J n) :
    PresA I J (if c then m else n) := by
  split <;> assumption

theorem PresA.whenE [w : Weaken I J] {c : Bool} {m : M Unit} (h : PresA I J m) : PresA I J (whenM c m) := by
  cases c
  · exact ⟨fun s hs => ⟨w.out s hs, fun _ => hs⟩⟩
  · exact h

theorem PresA.mapErrE {g : Status → Status} {m : M α} (h : PresA I J m) : PresA I J (mapErr g m) := by
  constructor
  intro s hs
  have := h.out s hs
  simp only [mapErr]
  rcases h : m s with ⟨r, s1⟩
  rw [h] at this
  cases r <;> exact this

macro "presA" : tactic => `(tactic| repeat (first
  | infer_instance
  | with_reducible refine PresA.bindE ?_ ?_
  | with_reducible refine PresA.mapErrE ?_
  | with_reducible refine PresA.whenE ?_
  | with_reducible refine PresA.iteE ?_ ?_
  | intro _
  | split
  | dsimp only))

/-- From a triple: failures end with `J`, and with `I` if the device survives. -/
theorem PresA.ofTri {m : M α} {Q : α → St → Prop} {E : St → Prop} (h : Tri I m Q E)
    (hQ : ∀ a s, Q a s → J s ∧ I s) (hE : ∀ s, E s → J s)
    (hA : ∀ s e, I s → (m s).1 = .err e → I (m s).2) : PresA I J m := by
  constructor
  intro s hs
  obtain ⟨h1, h2⟩ := h s hs
  have hA := fun e => hA s e hs
  rcases hm : m s with ⟨r, s1⟩
  rw [hm] at h1 h2 hA
  cases r with
  | ok a => exact ⟨(hQ a _ (h1 a _ rfl)).1, fun _ => (hQ a _ (h1 a _ rfl)).2⟩
  | err e => exact ⟨hE _ (h2 (by simp)), fun _ => hA e rfl⟩
  | panic => exact ⟨hE _ (h2 (by simp)), by simp [Res.alive]⟩
  | crash => exact ⟨hE _ (h2 (by simp)), by simp [Res.alive]⟩

/-! ## Triples that distinguish all outcomes -/

/-- From a state with `P`, every run of `m` ends with `Post`. -/
def HT (P : St → Prop) (m : M α) (Post : Res α → St → Prop) : Prop := ∀ s, P s → Post (m s).1 (m s).2

namespace HT
variable {P P' : St → Prop}

theorem bind {m : M α} {f : α → M β} {R : Res α → St → Prop} {Post : Res β → St → Prop} (h1 : HT P m R)
    (h2 : ∀ a, HT (R (.ok a)) (f a) Post) (he : ∀ e s, R (.err e) s → Post (.err e) s)
    (hp : ∀ s, R .panic s → Post .panic s) (hc : ∀ s, R .crash s → Post .crash s) : HT P (m >>= f) Post := by
  intro s hs
  have := h1 s hs
  simp only [bind_def, M.bind]
  rcases h : m s with ⟨r, s1⟩
  rw [h] at this
  cases r with
  | ok a => exact h2 a s1 this
  | err e => exact he e s1 this
  | panic => exact hp s1 this
  | crash => exact hc s1 this

theorem conseq {m : M α} {Q Q' : Res α → St → Prop} (h : HT P' m Q') (hP : ∀ s, P s → P' s)
    (hQ : ∀ r s, Q' r s → Q r s) : HT P m Q := fun s hs => hQ _ _ (h s (hP s hs))

/-- The postcondition that describes preservation, with `Q` for success. -/
abbrev Ok (I J : St → Prop) (Q : α → St → Prop) : Res α → St → Prop
  | .ok a, s => Q a s
  | .err _, s => J s ∧ I s
  | .panic, s => J s
  | .crash, s => J s

/-- Bind for these postconditions. -/
theorem bindOk {m : M α} {f : α → M β} {Q : α → St → Prop} {R : β → St → Prop} (h1 : HT P m (Ok I J Q))
    (h2 : ∀ a, HT (Q a) (f a) (Ok I J R)) : HT P (m >>= f) (Ok I J R) :=
  bind h1 h2 (fun _ _ h => h) (fun _ h => h) (fun _ h => h)

theorem ofPres {m : M α} {Q : α → St → Prop} (h : Pres P m) (h1 : ∀ s, P s → J s ∧ I s)
    (h2 : ∀ s a s', P s → m s = (.ok a, s') → P s' → Q a s') : HT P m (Ok I J Q) := by
  intro s hs
  have := h.out s hs
  rcases hm : m s with ⟨r, s1⟩
  rw [hm] at this
  cases r with
  | ok a => exact h2 s a s1 hs hm this
  | err e => exact h1 _ this
  | panic => exact (h1 _ this).1
  | crash => exact (h1 _ this).1

theorem ofPres' {m : M α} (h : Pres P m) (h1 : ∀ s, P s → J s ∧ I s) : HT P m (Ok I J fun _ => P) :=
  ofPres h h1 fun _ _ _ _ _ h => h

theorem toPresA {m : M α} (h : HT I m (Ok I J fun _ s => J s ∧ I s)) : PresA I J m := by
  constructor
  intro s hs
  have := h s hs
  rcases hm : m s with ⟨r, s1⟩
  rw [hm] at this
  cases r with
  | ok a => exact ⟨this.1, fun _ => this.2⟩
  | err e => exact ⟨this.1, fun _ => this.2⟩
  | panic => exact ⟨this, by simp [Res.alive]⟩
  | crash => exact ⟨this, by simp [Res.alive]⟩

theorem ofPresA {m : M α} (h : PresA I J m) : HT I m (Ok I J fun _ s => J s ∧ I s) := by
  intro s hs
  have := h.out s hs
  rcases hm : m s with ⟨r, s1⟩
  rw [hm] at this
  cases r with
  | ok a => exact ⟨this.1, this.2 rfl⟩
  | err e => exact ⟨this.1, this.2 rfl⟩
  | panic => exact this.1
  | crash => exact this.1

/-- A failure cannot be an error. -/
theorem noErr {m : M α} {Q : α → St → Prop} (h : Pres P m) (hn : ∀ s e, P s → (m s).1 ≠ .err e)
    (h1 : ∀ s, P s → J s) (h2 : ∀ s a s', P s → m s = (.ok a, s') → P s' → Q a s') : HT P m (Ok I J Q) := by
  intro s hs
  have := h.out s hs
  have hn := fun e => hn s e hs
  rcases hm : m s with ⟨r, s1⟩
  rw [hm] at this hn
  cases r with
  | ok a => exact h2 s a s1 hs hm this
  | err e => exact absurd rfl (hn e)
  | panic => exact h1 _ this
  | crash => exact h1 _ this

theorem rng_no_err (n : Nat) (s : St) (e : Status) : (rng n s).1 ≠ .err e := by
  intro h; rcases rng_res n s with h1 | ⟨b, h1⟩ <;> rw [h1] at h <;> simp at h

theorem readP_no_err {s : St} (h : ∀ k, s.env.o.rfail k = none) (e : Status) : (readP s).1 ≠ .err e := by
  simp only [readP, effect]
  split <;> simp [h]

theorem bind_no_err {m : M α} {f : α → M β} {s : St} (h1 : ∀ e, (m s).1 ≠ .err e)
    (h2 : ∀ a s1, m s = (.ok a, s1) → ∀ e, (f a s1).1 ≠ .err e) (e : Status) : ((m >>= f) s).1 ≠ .err e := by
  simp only [bind_def, M.bind]
  rcases h : m s with ⟨r, s1⟩
  rw [h] at h1
  cases r with
  | ok a => exact h2 a s1 h e
  | err e' => exact absurd rfl (h1 e')
  | _ => simp

end HT

variable [Dev]

instance [∀ a, PresA I J (makeCredential a)] [∀ a ch, PresA I J (getAssertion a ch)] [PresA I J getNextAssertion]
    [PresA I J getInfo] [∀ a, PresA I J (clientPinCommand a)] [PresA I J resetCommand]
    [∀ a ch, PresA I J (credentialManagement a ch)] [PresA I J selection] [∀ a, PresA I J (largeBlobsCommand a)]
    [∀ a, PresA I J (configCommand a)] [Weaken I J] (ch : Channel) (c : Command) :
    PresA I J (fidoCommand ch c) := by
  unfold fidoCommand; presA

instance [PresA I J getInfo] [Weaken I J] (c : Command) : PresA I J (vendorChannelCommand c) := by
  unfold vendorChannelCommand; presA

instance [PresA I J getInfo] [Weaken I J] [∀ ch c, PresA I J (fidoCommand ch c)] (ch : Channel) (c : Command) :
    PresA I J (channelCommand ch c) := by unfold channelCommand; presA

instance [Weaken I J] [PresA I J updateTimeouts] [∀ ch, PresA I J (clearOtherChannels ch)] [PresA I J getCommand]
    [PresA I J (modSp fun _ => StatefulPerm.cleared)] [∀ ch c, PresA I J (channelCommand ch c)] (ch : Channel)
    (c : Command) : PresA I J (processParsed c ch) := by unfold processParsed; presA

instance {m : M Bytes} [h : PresA I J m] : PresA I J (errorByte m) := by
  constructor
  intro s hs
  have := h.out s hs
  simp only [errorByte]
  rcases h : m s with ⟨r, s1⟩
  rw [h] at this
  cases r <;> exact this

instance [Weaken I J] [∀ c ch, PresA I J (processParsed c ch)] [∀ r, PresA I J (respond r)] (ch : Channel) (m : Bytes) :
    PresA I J (processCommand ch m) := by unfold processCommand; presA

instance [SEnv I] [Weaken I J] [∀ m, PresA I J (u2fCommand m)] [SCounterEv I] (m : Bytes) :
    PresA I J (processU2f m) := by
  unfold processU2f; presA

instance [SEnv I] [Weaken I J] [∀ ch m, PresA I J (processCommand ch m)] [∀ m, PresA I J (processU2f m)]
    [PresA I J touchButton] (i : Input) : PresA I J (stepM i) := by
  cases i with
  | wait ms => have := presWait (I := I) ms; infer_instance
  | _ => unfold stepM; presA

/-- The state machine preserves `I` (while running) and `J`, since its commands do. -/
syntax "step_instancesA" term:max term:max : command
macro_rules
  | `(step_instancesA $t $u) => do
    let cmds ← #[`(command| instance (ch : Channel) (c : Command) : PresA $t $u (fidoCommand ch c) := inferInstance),
      `(command| instance (ch : Channel) (c : Command) : PresA $t $u (channelCommand ch c) := inferInstance),
      `(command| instance (ch : Channel) (c : Command) : PresA $t $u (processParsed c ch) := inferInstance),
      `(command| instance (ch : Channel) (m : Bytes) : PresA $t $u (processCommand ch m) := inferInstance),
      `(command| instance (m : Bytes) : PresA $t $u (processU2f m) := inferInstance),
      `(command| instance (i : Input) : PresA $t $u (stepM i) := inferInstance)].mapM id
    return Lean.mkNullNode cmds

/-- Invariants of running devices, with `J` for all. -/
theorem reach_invA {P : Oracle → Prop} {b : Bool} {s : St} (hr : Reach P b s) [hO : SOra P I]
    (h0 : ∀ env att, J { env := env, p := { attestation := att }, v := Vol.off, log := [] }) [w : Weaken I J]
    (hb : ∀ s, P s.env.o → J s → J (bootM s).2 ∧ ((bootM s).1.alive = true → I (bootM s).2))
    [hJ : SOra P J]
    [hs : ∀ i, PresA I J (stepM i)] : J s ∧ (b = true → I s) := by
  induction hr with
  | factory env att => exact ⟨h0 env att, by simp⟩
  | boot o ho h ih => exact hb _ ho (hJ.out _ _ ho ih.1)
  | step o ho i h ih => exact (hs i).out _ (hO.out _ _ ho (ih.2 rfl))

/-- Runs of a device from a given running state. -/
inductive Run (P : Oracle → Prop) (s0 : St) : Bool → St → Prop
  | refl : Run P s0 true s0
  | boot {b : Bool} {s : St} (o : Oracle) (ho : P o) (h : Run P s0 b s) :
      Run P s0 (bootM (s.withOracle o)).1.alive (bootM (s.withOracle o)).2
  | step {s : St} (o : Oracle) (ho : P o) (i : Input) (h : Run P s0 true s) :
      Run P s0 (stepM i (s.withOracle o)).1.alive (stepM i (s.withOracle o)).2

theorem run_inv {P : Oracle → Prop} {b : Bool} {s0 s : St} (hr : Run P s0 b s) [hO : SOra P I]
    (h0 : I s0) [hb : Pres I bootM] [hs : ∀ i, Pres I (stepM i)] : I s := by
  induction hr with
  | refl => exact h0
  | boot o ho h ih => exact hb.out _ (hO.out _ _ ho ih)
  | step o ho i h ih => exact (hs i).out _ (hO.out _ _ ho ih)

theorem run_invA {P : Oracle → Prop} {b : Bool} {s0 s : St} (hr : Run P s0 b s) [hO : SOra P I]
    (h0 : I s0) [w : Weaken I J]
    (hb : ∀ s, P s.env.o → J s → J (bootM s).2 ∧ ((bootM s).1.alive = true → I (bootM s).2))
    [hJ : SOra P J]
    [hs : ∀ i, PresA I J (stepM i)] : J s ∧ (b = true → I s) := by
  induction hr with
  | refl => exact ⟨w.out _ h0, fun _ => h0⟩
  | boot o ho h ih => exact hb _ ho (hJ.out _ _ ho ih.1)
  | step o ho i h ih => exact (hs i).out _ (hO.out _ _ ho (ih.2 rfl))

end Verif.Ctap
