import Verif.Ctap.Step

/-!
# Reasoning about computations: inversion, preservation of predicates
-/
namespace Verif.Ctap

/-! ## Inversion of successful runs -/

theorem bind_def (m : M α) (f : α → M β) : (m >>= f) = M.bind m f := rfl

theorem bind_ok {m : M α} {f : α → M β} {s s' : St} {b : β} :
    (m >>= f) s = (.ok b, s') ↔ ∃ a s1, m s = (.ok a, s1) ∧ f a s1 = (.ok b, s') := by
  simp only [bind_def, M.bind]
  rcases h : m s with ⟨r, s1⟩
  cases r
  · constructor
    · intro h; exact ⟨_, _, rfl, h⟩
    · rintro ⟨a, s2, h1, h2⟩
      simp only [Prod.mk.injEq, Res.ok.injEq] at h1
      obtain ⟨rfl, rfl⟩ := h1
      exact h2
  all_goals simp

theorem pure_ok {a b : α} {s s' : St} : M.pure a s = (.ok b, s') ↔ a = b ∧ s = s' := by
  simp [M.pure]

theorem fail_ok {e : Status} {b : α} {s s' : St} : (fail e : M α) s = (.ok b, s') ↔ False := by
  simp [fail]

theorem panicM_ok {b : α} {s s' : St} : (panicM : M α) s = (.ok b, s') ↔ False := by
  simp [panicM]

theorem guardE_ok {c : Bool} {e : Status} {u : Unit} {s s' : St} :
    guardE c e s = (.ok u, s') ↔ c = true ∧ s = s' := by
  cases c <;> simp [guardE, M.pure, fail]

theorem req_ok {o : Option α} {e : Status} {a : α} {s s' : St} :
    req o e s = (.ok a, s') ↔ o = some a ∧ s = s' := by
  cases o <;> simp [req, M.pure, fail]

theorem liftE_ok {x : Except Status α} {a : α} {s s' : St} :
    liftE x s = (.ok a, s') ↔ x = .ok a ∧ s = s' := by
  cases x <;> simp [liftE, M.pure, fail]

theorem mapErr_ok {f : Status → Status} {m : M α} {a : α} {s s' : St} :
    mapErr f m s = (.ok a, s') ↔ m s = (.ok a, s') := by
  simp only [mapErr]
  rcases h : m s with ⟨r, s1⟩
  cases r <;> simp

theorem mapErr_snd {f : Status → Status} {m : M α} {s : St} : (mapErr f m s).2 = (m s).2 := by
  simp only [mapErr]
  rcases h : m s with ⟨r, s1⟩
  cases r <;> simp

theorem getV_ok {v : Vol} {s s' : St} : getV s = (.ok v, s') ↔ v = s.v ∧ s' = s := by
  simp [getV, eq_comm]

theorem clock_ok {t : Nat} {s s' : St} : clock s = (.ok t, s') ↔ t = s.env.now ∧ s' = s := by
  simp [clock, eq_comm]

theorem modV_ok {f : Vol → Vol} {u : Unit} {s s' : St} :
    modV f s = (.ok u, s') ↔ s' = { s with v := f s.v } := by
  simp [modV, eq_comm]

theorem logE_ok {e : Ev} {u : Unit} {s s' : St} :
    logE e s = (.ok u, s') ↔ s' = { s with log := e :: s.log } := by
  simp [logE, eq_comm]

theorem effect_ok {f : St → Res α} {a : α} {s s' : St} :
    effect f s = (.ok a, s') ↔ s.env.o.cut s.env.k = false ∧ f s = .ok a ∧ s' = { s with env := s.env.next } := by
  simp only [effect]
  by_cases h : s.env.o.cut s.env.k = true
  · simp [h]
  · simp only [h, Bool.not_eq_true] at *
    simp [eq_comm]

theorem readP_ok {p : Persist} {s s' : St} (h : readP s = (.ok p, s')) :
    p = s.p ∧ s' = { s with env := s.env.next } := by
  rw [readP, effect_ok] at h
  obtain ⟨_, h2, h3⟩ := h
  cases h4 : s.env.o.rfail s.env.k <;> simp [h4] at h2
  exact ⟨h2.symm, h3⟩

theorem writeP_ok {f : Persist → Persist} {evs : List Ev} {u : Unit} {s s' : St}
    (h : writeP f evs s = (.ok u, s')) :
    s' = { env := s.env.next, p := f s.p, v := s.v, log := evs ++ s.log } := by
  simp only [writeP] at h
  split at h
  · simp at h
  · split at h <;> simp at h
    exact h.symm

/-- All outcomes of a write. -/
theorem writeP_snd (f : Persist → Persist) (evs : List Ev) (s : St) :
    (writeP f evs s).2 = { s with env := s.env.next } ∨
    (writeP f evs s).2 = { env := s.env.next, p := f s.p, v := s.v, log := evs ++ s.log } := by
  simp only [writeP]
  split
  · exact .inl rfl
  · split
    · exact .inr rfl
    · exact .inl rfl
    · rename_i e a _
      cases a
      · exact .inl rfl
      · exact .inr rfl

theorem effect_snd (f : St → Res α) (s : St) : (effect f s).2 = { s with env := s.env.next } := by
  simp only [effect]
  split <;> rfl

theorem rng_ok {n : Nat} {b : Bytes} {s s' : St} (h : rng n s = (.ok b, s')) :
    b = (List.range n).map (s.env.o.rnd s.env.k) ∧ s' = { s with env := s.env.next } := by
  rw [rng, effect_ok] at h
  simp at h
  exact ⟨h.2.1.symm, h.2.2⟩

theorem rng_length {n : Nat} {b : Bytes} {s s' : St} (h : rng n s = (.ok b, s')) : b.length = n := by
  rw [(rng_ok h).1]; simp

theorem whenM_ok {c : Bool} {m : M Unit} {u : Unit} {s s' : St} :
    whenM c m s = (.ok u, s') ↔ (c = true ∧ m s = (.ok u, s')) ∨ (c = false ∧ s = s') := by
  cases c <;> simp [whenM, M.pure]

theorem next_now_le (e : Env) : e.now ≤ e.next.now := Nat.le_add_right _ _

/-! ## Preservation -/

/-- `m` preserves `I`, whatever its outcome. -/
class Pres (I : St → Prop) (m : M α) : Prop where
  out : ∀ s, I s → I (m s).2

instance Pres.bind {I : St → Prop} {m : M α} {f : α → M β} [h1 : Pres I m] [h2 : ∀ a, Pres I (f a)] :
    Pres I (m >>= f) := by
  constructor
  intro s hs
  have := h1.out s hs
  simp only [bind_def, M.bind]
  rcases h : m s with ⟨r, s1⟩
  rw [h] at this
  cases r
  · exact (h2 _).out _ this
  all_goals exact this

/-- The state after a bind. -/
theorem bind_snd {m : M α} {f : α → M β} {s : St} {Q : St → Prop} (h1 : Q (m s).2)
    (h2 : ∀ a s1, m s = (.ok a, s1) → Q (f a s1).2) : Q ((m >>= f) s).2 := by
  simp only [bind_def, M.bind]
  rcases h : m s with ⟨r, s1⟩
  rw [h] at h1
  cases r
  · exact h2 _ _ h
  all_goals exact h1

/-- Bind, where the continuation may use that the first part succeeded. -/
theorem Pres.bind' {I : St → Prop} {m : M α} {f : α → M β} (h1 : Pres I m)
    (h2 : ∀ s a s1, I s → m s = (.ok a, s1) → I s1 → I (f a s1).2) : Pres I (m >>= f) :=
  ⟨fun s hs => bind_snd (h1.out s hs) fun a s1 h => h2 s a s1 hs h (by have := h1.out s hs; rwa [h] at this)⟩

instance {I : St → Prop} (a : α) : Pres I (M.pure a) := ⟨fun _ h => h⟩
instance {I : St → Prop} (e : Status) : Pres I (fail e : M α) := ⟨fun _ h => h⟩
instance {I : St → Prop} : Pres I (panicM : M α) := ⟨fun _ h => h⟩
instance {I : St → Prop} : Pres I getV := ⟨fun _ h => h⟩
instance {I : St → Prop} : Pres I clock := ⟨fun _ h => h⟩
instance {I : St → Prop} (c : Bool) (e : Status) : Pres I (guardE c e) :=
  ⟨fun s h => by cases c <;> exact h⟩
instance {I : St → Prop} (o : Option α) (e : Status) : Pres I (req o e) :=
  ⟨fun s h => by cases o <;> exact h⟩
instance {I : St → Prop} (x : Except Status α) : Pres I (liftE x) :=
  ⟨fun s h => by cases x <;> exact h⟩
instance {I : St → Prop} {f : Status → Status} {m : M α} [h : Pres I m] : Pres I (mapErr f m) :=
  ⟨fun s hs => by rw [mapErr_snd]; exact h.out s hs⟩
instance {I : St → Prop} {c : Bool} {m : M Unit} [h : Pres I m] : Pres I (whenM c m) :=
  ⟨fun s hs => by cases c; exact hs; exact h.out s hs⟩
instance {I : St → Prop} {c : Prop} [Decidable c] {m n : M α} [h1 : Pres I m] [h2 : Pres I n] :
    Pres I (if c then m else n) := by
  split <;> assumption

theorem Pres.bindE {I : St → Prop} {m : M α} {f : α → M β} (_ : Pres I m) (_ : ∀ a, Pres I (f a)) :
    Pres I (m >>= f) := inferInstance
theorem Pres.mapErrE {I : St → Prop} {f : Status → Status} {m : M α} (_ : Pres I m) : Pres I (mapErr f m) :=
  inferInstance
theorem Pres.whenE {I : St → Prop} {c : Bool} {m : M Unit} (_ : Pres I m) : Pres I (whenM c m) := inferInstance
theorem Pres.iteE {I : St → Prop} {c : Prop} [Decidable c] {m n : M α} (_ : Pres I m) (_ : Pres I n) :
    Pres I (if c then m else n) := inferInstance

theorem orSw_snd (m : M α) (sw : Sw) (s : St) : (orSw m sw s).2 = (m s).2 := by
  simp only [orSw]
  rcases h : m s with ⟨r, s1⟩
  cases r <;> rfl

instance {I : St → Prop} {m : M α} {sw : Sw} [h : Pres I m] : Pres I (orSw m sw) :=
  ⟨fun s hs => by rw [orSw_snd]; exact h.out s hs⟩

theorem Pres.orSwE {I : St → Prop} {m : M α} {sw : Sw} (_ : Pres I m) : Pres I (orSw m sw) := inferInstance

theorem Pres.bindSwE {I : St → Prop} {m : M (Except Sw α)} {f : α → M (Except Sw β)} (h1 : Pres I m)
    (h2 : ∀ a, Pres I (f a)) : Pres I (bindSw m f) := by
  unfold bindSw
  refine Pres.bindE h1 fun r => ?_
  split
  · exact h2 _
  · infer_instance

instance {I : St → Prop} {m : M (Except Sw α)} {f : α → M (Except Sw β)} [h1 : Pres I m] [h2 : ∀ a, Pres I (f a)] :
    Pres I (bindSw m f) := Pres.bindSwE h1 h2

/-- The rule application for `Pres`: instances, and case distinctions. -/
macro "pres" : tactic => `(tactic| repeat (first
  | infer_instance
  | with_reducible refine Pres.bindE ?_ ?_
  | with_reducible refine Pres.mapErrE ?_
  | with_reducible refine Pres.whenE ?_
  | with_reducible refine Pres.iteE ?_ ?_
  | with_reducible refine Pres.bindSwE ?_ ?_
  | with_reducible refine Pres.orSwE ?_
  | intro _
  | split
  | dsimp only))

/-! ## Stability of a predicate under the elementary changes -/

class SEnv (I : St → Prop) : Prop where
  out : ∀ s e, s.env.now ≤ e.now → e.o = s.env.o → I s → I { s with env := e }
class SOra (P : Oracle → Prop) (I : St → Prop) : Prop where
  out : ∀ s o, P o → I s → I (s.withOracle o)
class SPresence (I : St → Prop) : Prop where
  out : ∀ s t, I s → I { s with log := .presence t :: s.log }
class SCompare (I : St → Prop) : Prop where
  out : ∀ s b, I s → I { s with log := .pinCompare b :: s.log }
class SIssued (I : St → Prop) : Prop where
  out : ∀ s t p r, I s → I { s with log := .tokenIssued t p r :: s.log }
class SConsumed (I : St → Prop) : Prop where
  out : ∀ s, I s → I { s with log := .tokenConsumed :: s.log }
class SU2fPrompt (I : St → Prop) : Prop where
  out : ∀ s t, I s → I { s with log := .u2fPrompt t :: s.log }
class SU2fConsume (I : St → Prop) : Prop where
  out : ∀ s t, I s → I { s with log := .u2fConsume t :: s.log }
class SU2fTouch (I : St → Prop) : Prop where
  out : ∀ s t, I s → I { s with log := .u2fTouch t :: s.log }
class SCounterEv (I : St → Prop) : Prop where
  out : ∀ s n b, I s → I { s with log := .counter n b :: s.log }
/-- New master keys for a state without. -/
def FreshMaster (s : St) : Type := { b : Bytes // b.length = 128 ∧ s.p.master = none }
class SMaster (I : St → Prop) : Prop where
  out : ∀ s (x : FreshMaster s), I s → I { s with p := { s.p with master := some x.1 } }
class SCreds (I : St → Prop) : Prop where
  out : ∀ s x, I s → I { s with p := { s.p with creds := x } }
class SCounter (I : St → Prop) : Prop where
  out : ∀ s x (w : Bool), I s → I { s with p := { s.p with counter := x }, log := (if w then [] else [.wrapped]) ++ s.log }
/-- Stability under an increment of the counter. -/
class SIncr (I : St → Prop) : Prop where
  out : ∀ s n, 0 < n → n ≤ 8 → I s → I { s with
    p := { s.p with counter := some ((s.p.counter.getD 1 + n) % 2 ^ 32) }
    log := (if s.p.counter.getD 1 + n < 2 ^ 32 then [] else [.wrapped]) ++ s.log }
instance (priority := low) {I : St → Prop} [h : SCounter I] : SIncr I := ⟨fun s n _ _ hs => by
  have := h.out s (some ((s.p.counter.getD 1 + n) % 2 ^ 32)) (decide (s.p.counter.getD 1 + n < 2 ^ 32)) hs
  simpa using this⟩
class SPin (I : St → Prop) : Prop where
  out : ∀ s x f, I s → I { s with p := { s.p with pin := x, forcePinChange := f } }
class SRetries (I : St → Prop) : Prop where
  out : ∀ s x, I s → I { s with p := { s.p with pinRetries := x } }
class SMinPin (I : St → Prop) : Prop where
  out : ∀ s x, I s → I { s with p := { s.p with minPinLength := x } }
class SRpIds (I : St → Prop) : Prop where
  out : ∀ s x, I s → I { s with p := { s.p with minPinRpIds := x } }
class SForce (I : St → Prop) : Prop where
  out : ∀ s x, I s → I { s with p := { s.p with forcePinChange := x } }
class SEp (I : St → Prop) : Prop where
  out : ∀ s x, I s → I { s with p := { s.p with enterprise := x } }
class SAlwaysUv (I : St → Prop) : Prop where
  out : ∀ s x, I s → I { s with p := { s.p with alwaysUv := x } }
class SLargeBlob (I : St → Prop) : Prop where
  out : ∀ s x, I s → I { s with p := { s.p with largeBlob := x } }
class SErase (I : St → Prop) : Prop where
  out : ∀ s, I s → I { s with p := s.p.clear NUM_PERSISTENT_KEYS, log := .erased :: s.log }
class STok (I : St → Prop) : Prop where
  out : ∀ s x, I s → I { s with v := { s.v with pin := { s.v.pin with tok := x } } }
class SMis (I : St → Prop) : Prop where
  out : ∀ s x, I s → I { s with v := { s.v with pin := { s.v.pin with mismatches := x } } }
class SKeys (I : St → Prop) : Prop where
  out : ∀ s x y, I s → I { s with v := { s.v with pin := { s.v.pin with p1 := x, p2 := y } } }
class SU2f (I : St → Prop) : Prop where
  out : ∀ s x, I s → I { s with v := { s.v with u2f := x } }
class SSp (I : St → Prop) : Prop where
  out : ∀ s x, I s → I { s with v := { s.v with sp := x } }
/-- The next step of a stateful command. -/
inductive Stateful.Next : Stateful → Stateful → Prop
  | assertion (i : AssertionInput) (l : List Nat) (k : Nat) : Next (.getAssertion i (l ++ [k])) (.getAssertion i l)
  | rp (i : Nat) : Next (.enumerateRps i) (.enumerateRps (i + 1))
  | credential (l : List Nat) (k : Nat) : Next (.enumerateCredentials (l ++ [k])) (.enumerateCredentials l)
/-- Stability under the end and the progress of stateful commands. -/
class SSpGo (I : St → Prop) : Prop where
  drop : ∀ s, I s → I { s with v := { s.v with sp := { timer := none, cmd := none, channel := none } } }
  next : ∀ s c c', s.v.sp.cmd = some c → c.Next c' → I s → I { s with v := { s.v with sp := { s.v.sp with cmd := some c' } } }
/-- Stability under the start of stateful commands. -/
class SSpSet (I : St → Prop) : Prop where
  out : ∀ s c ch, c ≠ .reset → I s →
    I { s with v := { s.v with sp := { timer := makeTimer s.env.now 30000, cmd := some c, channel := some ch } } }
instance (priority := low) {I : St → Prop} [h : SSp I] : SSpGo I := ⟨fun s hs => h.out s _ hs, fun s _ _ _ _ hs => h.out s _ hs⟩
instance (priority := low) {I : St → Prop} [h : SSp I] : SSpSet I := ⟨fun s _ _ _ hs => h.out s _ hs⟩
/-- Stability under the start of an enumeration by credential management. -/
class SSpEnum (I : St → Prop) : Prop where
  out : ∀ s c ch, ((∃ i, c = .enumerateRps i) ∨ ∃ l, c = .enumerateCredentials l) → I s →
    I { s with v := { s.v with sp := { timer := makeTimer s.env.now 30000, cmd := some c, channel := some ch } } }
instance (priority := low) {I : St → Prop} [h : SSpSet I] : SSpEnum I := ⟨fun s c ch hc hs => h.out s c ch (by
  rintro rfl; rcases hc with ⟨_, h⟩ | ⟨_, h⟩ <;> cases h) hs⟩
class SLb (I : St → Prop) : Prop where
  out : ∀ s x, I s → I { s with v := { s.v with lb := x } }
class SBoot (I : St → Prop) : Prop where
  out : ∀ s v, I s → I { s with v := v, log := .boot s.env.now :: s.log }

/-- Stability because `I` does not mention the changed part. -/
macro "stable" : tactic => `(tactic| first
  | (intro _ h; exact h)
  | (intro _ _ h; exact h)
  | (intro _ _ _ h; exact h)
  | (intro _ _ _ _ h; exact h))

/-- `stable_instances I under C₁ C₂ …`: the predicate `I` is stable under the changes `Cᵢ`, which it does not
mention. -/
syntax "stable_instances" term "under" ident* : command
macro_rules
  | `(stable_instances $t under $ids*) => do
    let cmds ← ids.mapM fun i => `(command| instance : $i $t := ⟨by stable⟩)
    return Lean.mkNullNode cmds

instance presEffect {I : St → Prop} [hE : SEnv I] (f : St → Res α) : Pres I (effect f) :=
  ⟨fun s h => by rw [effect_snd]; exact hE.out s _ (next_now_le _) rfl h⟩

instance presReadP {I : St → Prop} [SEnv I] : Pres I readP := presEffect _

instance presRng {I : St → Prop} [SEnv I] (n : Nat) : Pres I (rng n) := presEffect _

theorem presWriteP {I : St → Prop} {f : Persist → Persist} {evs : List Ev} [hE : SEnv I]
    (hf : ∀ s, I s → I { s with p := f s.p, log := evs ++ s.log }) : Pres I (writeP f evs) := by
  constructor
  intro s h
  rcases writeP_snd f evs s with h' | h' <;> rw [h']
  · exact hE.out s _ (next_now_le _) rfl h
  · exact hE.out { s with p := f s.p, log := evs ++ s.log } _ (next_now_le _) rfl (hf s h)

theorem presModV {I : St → Prop} {f : Vol → Vol} (hf : ∀ s, I s → I { s with v := f s.v }) : Pres I (modV f) :=
  ⟨fun s h => hf s h⟩

theorem presLogE {I : St → Prop} {e : Ev} (hf : ∀ s, I s → I { s with log := e :: s.log }) : Pres I (logE e) :=
  ⟨fun s h => hf s h⟩

end Verif.Ctap
