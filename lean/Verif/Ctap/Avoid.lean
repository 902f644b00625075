import Verif.Ctap.Frame

/-!
# Outcomes that a computation avoids

`Av H b m`: from states that satisfy `H`, the computation `m` does not end with the outcome `b` (an error, a panic or a
power cut).
-/
namespace Verif.Ctap
set_option linter.unusedSectionVars false

/-- Outcomes other than success. -/
inductive Out
  | err (e : Status)
  | panic
  | crash
deriving DecidableEq, Repr

def Res.out : Res α → Option Out
  | .ok _ => none
  | .err e => some (.err e)
  | .panic => some .panic
  | .crash => some .crash

class Av (H : St → Prop) (b : Out) (m : M α) : Prop where
  out : ∀ s, H s → (m s).1.out ≠ some b

/-- The environment does not cause the outcome `b`. -/
class AvEnv (H : St → Prop) (b : Out) : Prop where
  read : ∀ s e, H s → s.env.o.rfail s.env.k = some e → Out.err e.toStatus ≠ b
  refused : ∀ s e, H s → s.env.o.wfail s.env.k = some (.refused e) → Out.err e.toStatus ≠ b
  broken : ∀ s e a, H s → s.env.o.wfail s.env.k = some (.broken e a) → Out.err e.toStatus ≠ b
  cut : ∀ s, H s → s.env.o.cut s.env.k = true → Out.crash ≠ b

section
variable {H : St → Prop} {b : Out}

theorem Av.bindE {m : M α} {f : α → M β} (hp : Pres H m) (h1 : Av H b m) (h2 : ∀ a, Av H b (f a)) :
    Av H b (m >>= f) := by
  constructor
  intro s hs
  have h3 := hp.out s hs
  have h4 := h1.out s hs
  simp only [bind_def, M.bind]
  rcases h : m s with ⟨r, s1⟩
  rw [h] at h3 h4
  cases r
  · exact (h2 _).out _ h3
  all_goals exact h4

theorem Av.fail {e : Status} (h : Out.err e ≠ b) : Av H b (fail e : M α) :=
  ⟨fun _ _ h' => h (Option.some.inj h')⟩
theorem Av.panicM (h : Out.panic ≠ b) : Av H b (panicM : M α) :=
  ⟨fun _ _ h' => h (Option.some.inj h')⟩
theorem Av.guardE {c : Bool} {e : Status} (h : Out.err e ≠ b) : Av H b (guardE c e) := by
  cases c
  · exact Av.fail h
  · exact ⟨fun _ _ => by simp [Verif.Ctap.guardE, M.pure, Res.out]⟩
theorem Av.req {o : Option α} {e : Status} (h : Out.err e ≠ b) : Av H b (req o e) := by
  cases o
  · exact Av.fail h
  · exact ⟨fun _ _ => by simp [Verif.Ctap.req, M.pure, Res.out]⟩
theorem Av.liftE {x : Except Status α} (h : ∀ e, x = .error e → Out.err e ≠ b) : Av H b (liftE x) := by
  cases x with
  | error e => exact Av.fail (h e rfl)
  | ok a => exact ⟨fun _ _ => by simp [Verif.Ctap.liftE, M.pure, Res.out]⟩

instance (a : α) : Av H b (M.pure a) := ⟨fun _ _ => by simp [M.pure, Res.out]⟩
instance : Av H b getV := ⟨fun _ _ => by simp [getV, Res.out]⟩
instance : Av H b clock := ⟨fun _ _ => by simp [clock, Res.out]⟩
instance (f : Vol → Vol) : Av H b (modV f) := ⟨fun _ _ => by simp [modV, Res.out]⟩
instance (f : ClientPin → ClientPin) : Av H b (modPin f) := ⟨fun _ _ => by simp [modPin, modV, Res.out]⟩
instance (f : TokenState → TokenState) : Av H b (modTok f) := ⟨fun _ _ => by simp [modTok, modPin, modV, Res.out]⟩
instance (f : StatefulPerm → StatefulPerm) : Av H b (modSp f) := ⟨fun _ _ => by simp [modSp, modV, Res.out]⟩
instance (e : Ev) : Av H b (logE e) := ⟨fun _ _ => by simp [logE, Res.out]⟩

theorem Av.effect [hE : AvEnv H b] {f : St → Res α} (hf : ∀ s, H s → (f s).out ≠ some b) : Av H b (effect f) := by
  constructor
  intro s hs
  simp only [Verif.Ctap.effect]
  by_cases h : s.env.o.cut s.env.k = true
  · simp only [h, if_true, Res.out]
    exact fun h' => hE.cut s hs h (Option.some.inj h')
  · simp only [h]
    exact hf s hs

instance [hE : AvEnv H b] : Av H b readP := Av.effect fun s hs => by
  cases h : s.env.o.rfail s.env.k with
  | none => simp [Res.out]
  | some e => exact fun h' => hE.read s e hs h (Option.some.inj h')

instance [AvEnv H b] (n : Nat) : Av H b (rng n) := Av.effect fun s _ => by simp [Res.out]

instance avWriteP [hE : AvEnv H b] (f : Persist → Persist) (evs : List Ev) : Av H b (writeP f evs) := by
  constructor
  intro s hs
  simp only [writeP]
  by_cases h : s.env.o.cut s.env.k = true
  · simp only [h, if_true, Res.out]
    exact fun h' => hE.cut s hs h (Option.some.inj h')
  · simp only [h]
    cases hw : s.env.o.wfail s.env.k with
    | none => simp [Res.out]
    | some w =>
      cases w with
      | refused e => exact fun h' => hE.refused s e hs hw (Option.some.inj h')
      | broken e a => exact fun h' => hE.broken s e a hs hw (Option.some.inj h')

theorem Av.whenE {c : Bool} {m : M Unit} (h : Av H b m) : Av H b (whenM c m) := by
  cases c
  · exact ⟨fun _ _ => by simp [whenM, M.pure, Res.out]⟩
  · exact h
theorem Av.iteE {c : Prop} [Decidable c] {m n : M α} (h1 : Av H b m) (h2 : Av H b n) :
    Av H b (if c then m else n) := by
  split <;> assumption

/-- An error that is replaced by a harmless one; panics and power cuts stay. -/
theorem Av.mapErrE {f : Status → Status} {m : M α} (hf : ∀ e, Out.err (f e) ≠ b)
    (hm : (∀ e, b ≠ .err e) → Av H b m) : Av H b (mapErr f m) := by
  constructor
  intro s hs
  simp only [mapErr]
  rcases h : m s with ⟨r, s1⟩
  cases r with
  | ok a => simp [Res.out]
  | err e => exact fun h' => hf e (Option.some.inj h')
  | panic =>
    intro h'
    have hb : Out.panic = b := Option.some.inj h'
    have := (hm fun e he => by rw [← hb] at he; cases he).out s hs
    rw [h] at this
    exact this h'
  | crash =>
    intro h'
    have hb : Out.crash = b := Option.some.inj h'
    have := (hm fun e he => by rw [← hb] at he; cases he).out s hs
    rw [h] at this
    exact this h'

/-- A U2F error is a value. -/
theorem Av.orSwE {m : M α} {sw : Sw} (hm : (∀ e, b ≠ .err e) → Av H b m) : Av H b (orSw m sw) := by
  constructor
  intro s hs
  simp only [orSw]
  rcases h : m s with ⟨r, s1⟩
  cases r with
  | ok a => simp [Res.out]
  | err e => simp [Res.out]
  | panic =>
    intro h'
    have hb : Out.panic = b := Option.some.inj h'
    have := (hm fun e he => by rw [← hb] at he; cases he).out s hs
    rw [h] at this
    exact this h'
  | crash =>
    intro h'
    have hb : Out.crash = b := Option.some.inj h'
    have := (hm fun e he => by rw [← hb] at he; cases he).out s hs
    rw [h] at this
    exact this h'

theorem Av.bindSwE {m : M (Except Sw α)} {f : α → M (Except Sw β)} (hp : Pres H m) (h1 : Av H b m)
    (h2 : ∀ a, Av H b (f a)) : Av H b (bindSw m f) := by
  unfold bindSw
  refine Av.bindE hp h1 fun r => ?_
  cases r
  · infer_instance
  · exact h2 _

end

/-- The rule application for `Av`. -/
macro "av" : tactic => `(tactic| repeat (first
  | assumption
  | infer_instance
  | with_reducible refine Av.bindE ?_ ?_ ?_
  | (with_reducible refine Av.mapErrE ?_ ?_)
  | with_reducible refine Av.whenE ?_
  | with_reducible refine Av.iteE ?_ ?_
  | with_reducible refine Av.bindSwE ?_ ?_ ?_
  | with_reducible refine Av.orSwE ?_
  | with_reducible refine Av.fail ?_
  | with_reducible refine Av.panicM ?_
  | with_reducible refine Av.guardE ?_
  | with_reducible refine Av.req ?_
  | with_reducible refine Av.liftE ?_
  | decide
  | intro _
  | split
  | dsimp only))

/-- A bind that ends with an error. -/
theorem bind_err {m : M α} {f : α → M β} {s s' : St} {e : Status} :
    (m >>= f) s = (.err e, s') ↔ m s = (.err e, s') ∨ ∃ a s1, m s = (.ok a, s1) ∧ f a s1 = (.err e, s') := by
  simp only [bind_def, M.bind]
  rcases h : m s with ⟨r, s1⟩
  cases r with
  | ok a => exact ⟨fun h => .inr ⟨a, s1, rfl, h⟩, fun h => by
      rcases h with h | ⟨_, _, h1, h2⟩
      · cases h
      · cases h1; exact h2⟩
  | err x => simp
  | panic => simp
  | crash => simp

theorem Av.elim {H : St → Prop} {e : Status} {m : M α} (h : Av H (.err e) m) {s s' : St} (hs : H s)
    (hm : m s = (.err e, s')) : False := h.out s hs (by rw [hm]; rfl)

/-- No condition on the state. -/
def AnySt : St → Prop := fun _ => True

instance (m : M α) : Pres AnySt m := ⟨fun _ _ => trivial⟩

/-- Errors that the store never reports. -/
theorem avEnvAny {e : Status} (h : ∀ x : StoreErr, x.toStatus ≠ e) : AvEnv AnySt (.err e) where
  read _ x _ _ h' := h x (Out.err.inj h')
  refused _ x _ _ h' := h x (Out.err.inj h')
  broken _ x _ _ _ h' := h x (Out.err.inj h')
  cut _ _ _ h' := by cases h'

instance : AvEnv AnySt (.err .noCredentials) := avEnvAny fun x => by cases x <;> decide
instance : AvEnv AnySt (.err .credentialExcluded) := avEnvAny fun x => by cases x <;> decide
instance : AvEnv AnySt (.err .notAllowed) := avEnvAny fun x => by cases x <;> decide

end Verif.Ctap
