import Verif.Ctap.BlindSpec
import Verif.Ctap.Frame

/-!
# Reasoning about two runs on devices that differ in hidden credentials
-/
namespace Verif.Ctap
set_option linter.unusedSectionVars false
variable [Dev]

/-! ## The relation between the states -/

/-- The lists of credentials agree on visible ones, and on the slots `K`, which are those of visible ones and maybe more. -/
structure Compat (H : Cred → Prop) (K : List Nat) (l1 l2 : List (Nat × Cred)) : Prop where
  visible : ∀ k c, ¬ H c → ((k, c) ∈ l1 ↔ (k, c) ∈ l2)
  wf1 : Orderly l1
  wf2 : Orderly l2
  look : ∀ k ∈ K, ∀ c, (k, c) ∈ l1 ↔ (k, c) ∈ l2
  full : ∀ k c, (k, c) ∈ l1 → ¬ H c → k ∈ K

/-- The slots of a login that is under way are among `K`. -/
def Held (K : List Nat) (v : Vol) : Prop := ∀ inp keys, v.sp.cmd = some (.getAssertion inp keys) → ∀ k ∈ keys, k ∈ K

structure Rel (H : Cred → Prop) (K : List Nat) (s1 s2 : St) : Prop where
  env : s2.env = s1.env
  vol : s2.v = s1.v
  data : s2.p = { s1.p with creds := s2.p.creds }
  creds : Compat H K s1.p.creds s2.p.creds
  held : Held K s1.v

/-! ## The relation between computations -/

def RelRes (V : α → β → Prop) : Res α → Res β → Prop
  | .ok a, .ok b => V a b
  | .err e, .err e' => e = e'
  | .panic, .panic => True
  | .crash, .crash => True
  | _, _ => False

theorem RelRes.eq {r1 r2 : Res α} (h : RelRes Eq r1 r2) : r1 = r2 := by
  cases r1 <;> cases r2 <;> simp_all [RelRes]

theorem RelRes.refl {V : α → α → Prop} (h : ∀ a, V a a) (r : Res α) : RelRes V r r := by
  cases r <;> simp_all [RelRes]

/-- The computations, from related states, have related results and end in related states. -/
def Sim (H : Cred → Prop) (K : List Nat) (V : α → β → Prop) (m1 : M α) (m2 : M β) : Prop :=
  ∀ s1 s2, Rel H K s1 s2 → RelRes V (m1 s1).1 (m2 s2).1 ∧ Rel H K (m1 s1).2 (m2 s2).2

/-- The computation does not depend on hidden credentials. -/
class Same (H : Cred → Prop) (K : List Nat) (m : M α) : Prop where
  out : Sim H K Eq m m

variable {H : Cred → Prop} {K : List Nat}

theorem Sim.bind {V : α → β → Prop} {W : γ → δ → Prop} {m1 : M α} {m2 : M β} {f : α → M γ} {g : β → M δ}
    (h1 : Sim H K V m1 m2) (h2 : ∀ a b, V a b → Sim H K W (f a) (g b)) : Sim H K W (m1 >>= f) (m2 >>= g) := by
  intro s1 s2 hs
  obtain ⟨h3, h4⟩ := h1 s1 s2 hs
  simp only [bind_def, M.bind]
  rcases e1 : m1 s1 with ⟨r1, t1⟩
  rcases e2 : m2 s2 with ⟨r2, t2⟩
  rw [e1, e2] at h3 h4
  cases r1 <;> cases r2 <;> simp only [RelRes] at h3
  · exact h2 _ _ h3 _ _ h4
  · exact ⟨h3, h4⟩
  · exact ⟨trivial, h4⟩
  · exact ⟨trivial, h4⟩

theorem Sim.mono {V W : α → β → Prop} {m1 : M α} {m2 : M β} (h : Sim H K V m1 m2) (hV : ∀ a b, V a b → W a b) :
    Sim H K W m1 m2 := by
  intro s1 s2 hs
  obtain ⟨h3, h4⟩ := h s1 s2 hs
  refine ⟨?_, h4⟩
  cases e1 : (m1 s1).1 <;> cases e2 : (m2 s2).1 <;> simp only [e1, e2, RelRes] at h3 ⊢
  · exact hV _ _ h3
  · exact h3

theorem Sim.pure {V : α → β → Prop} {a : α} {b : β} (h : V a b) : Sim H K V (M.pure a) (M.pure b) :=
  fun _ _ hs => ⟨h, hs⟩

theorem Same.bindE {m : M α} {f : α → M β} (h1 : Same H K m) (h2 : ∀ a, Same H K (f a)) : Same H K (m >>= f) :=
  ⟨Sim.bind h1.out fun a b h => by subst h; exact (h2 a).out⟩

instance Same.bind {m : M α} {f : α → M β} [h1 : Same H K m] [h2 : ∀ a, Same H K (f a)] : Same H K (m >>= f) :=
  Same.bindE h1 h2

instance (a : α) : Same H K (M.pure a) := ⟨Sim.pure rfl⟩
instance (e : Status) : Same H K (fail e : M α) := ⟨fun _ _ h => ⟨rfl, h⟩⟩
instance : Same H K (panicM : M α) := ⟨fun _ _ h => ⟨trivial, h⟩⟩
instance (c : Bool) (e : Status) : Same H K (guardE c e) := by
  cases c
  · exact (inferInstance : Same H K (fail e : M Unit))
  · exact (inferInstance : Same H K (M.pure ()))
instance (o : Option α) (e : Status) : Same H K (req o e) := by cases o <;> (unfold req; dsimp only; infer_instance)
instance (x : Except Status α) : Same H K (liftE x) := by cases x <;> (unfold liftE; dsimp only; infer_instance)
instance : Same H K getV := ⟨fun _ _ h => ⟨h.vol.symm, h⟩⟩
instance : Same H K clock := ⟨fun s1 s2 h => ⟨by show s1.env.now = s2.env.now; rw [h.env], h⟩⟩
instance (e : Ev) : Same H K (logE e) := ⟨fun _ _ h => ⟨rfl, ⟨h.env, h.vol, h.data, h.creds, h.held⟩⟩⟩

theorem Same.mapErrE {f : Status → Status} {m : M α} (h : Same H K m) : Same H K (mapErr f m) := by
  constructor
  intro s1 s2 hs
  obtain ⟨h3, h4⟩ := h.out s1 s2 hs
  simp only [mapErr]
  rcases e1 : m s1 with ⟨r1, t1⟩
  rcases e2 : m s2 with ⟨r2, t2⟩
  rw [e1, e2] at h3 h4
  cases h3.eq
  cases r1 <;> exact ⟨RelRes.refl (fun _ => rfl) _, h4⟩
instance {f : Status → Status} {m : M α} [h : Same H K m] : Same H K (mapErr f m) := Same.mapErrE h

theorem Same.whenE {c : Bool} {m : M Unit} (h : Same H K m) : Same H K (whenM c m) := by
  cases c
  · exact (inferInstance : Same H K (M.pure ()))
  · exact h
instance {c : Bool} {m : M Unit} [h : Same H K m] : Same H K (whenM c m) := Same.whenE h

theorem Same.iteE {c : Prop} [Decidable c] {m n : M α} (_ : Same H K m) (_ : Same H K n) :
    Same H K (if c then m else n) := by split <;> assumption
instance {c : Prop} [Decidable c] {m n : M α} [h1 : Same H K m] [h2 : Same H K n] :
    Same H K (if c then m else n) := Same.iteE h1 h2

theorem Same.orSwE {m : M α} {sw : Sw} (h : Same H K m) : Same H K (orSw m sw) := by
  constructor
  intro s1 s2 hs
  obtain ⟨h3, h4⟩ := h.out s1 s2 hs
  simp only [orSw]
  rcases e1 : m s1 with ⟨r1, t1⟩
  rcases e2 : m s2 with ⟨r2, t2⟩
  rw [e1, e2] at h3 h4
  cases h3.eq
  cases r1 <;> exact ⟨RelRes.refl (fun _ => rfl) _, h4⟩
instance {m : M α} {sw : Sw} [h : Same H K m] : Same H K (orSw m sw) := Same.orSwE h

theorem Same.bindSwE {m : M (Except Sw α)} {f : α → M (Except Sw β)} (h1 : Same H K m)
    (h2 : ∀ a, Same H K (f a)) : Same H K (bindSw m f) := by
  unfold bindSw
  refine Same.bindE h1 fun r => ?_
  split
  · exact h2 _
  · infer_instance
instance {m : M (Except Sw α)} {f : α → M (Except Sw β)} [h1 : Same H K m] [h2 : ∀ a, Same H K (f a)] :
    Same H K (bindSw m f) := Same.bindSwE h1 h2

/-! ## Effects -/

theorem Rel.next {s1 s2 : St} (h : Rel H K s1 s2) :
    Rel H K { s1 with env := s1.env.next } { s2 with env := s2.env.next } :=
  ⟨by show s2.env.next = s1.env.next; rw [h.env], h.vol, h.data, h.creds, h.held⟩

theorem Sim.effect {V : α → β → Prop} {f : St → Res α} {g : St → Res β}
    (h : ∀ s1 s2, Rel H K s1 s2 → RelRes V (f s1) (g s2)) : Sim H K V (effect f) (effect g) := by
  intro s1 s2 hs
  have h1 := hs.next
  have h2 : s2.env.o.cut s2.env.k = s1.env.o.cut s1.env.k := by rw [hs.env]
  simp only [Ctap.effect, h2]
  split
  · exact ⟨trivial, h1⟩
  · exact ⟨h _ _ hs, h1⟩

theorem Same.effectE {f : St → Res α} (h : ∀ s1 s2 : St, s2.env = s1.env → f s2 = f s1) : Same H K (effect f) :=
  ⟨Sim.effect fun s1 s2 hs => by rw [h s1 s2 hs.env]; exact RelRes.refl (fun _ => rfl) _⟩

instance (n : Nat) : Same H K (rng n) := by
  unfold rng
  refine Same.effectE fun s1 s2 h => ?_
  rw [h]

instance : Same H K (effect fun s => Res.ok (s.env.o.wait s.env.k)) := Same.effectE fun s1 s2 h => by rw [h]
instance : Same H K (effect fun s => Res.ok (s.env.o.keep s.env.k)) := Same.effectE fun s1 s2 h => by rw [h]
instance (a : α) : Same H K (effect fun _ => Res.ok a) := Same.effectE fun _ _ _ => rfl

/-- What is read differs in the credentials. -/
theorem Sim.read : Sim H K (fun p1 p2 => p2 = { p1 with creds := p2.creds } ∧ Compat H K p1.creds p2.creds) readP readP := by
  unfold readP
  refine Sim.effect fun s1 s2 hs => ?_
  rw [hs.env]
  cases s1.env.o.rfail s1.env.k with
  | some e => exact rfl
  | none => exact ⟨hs.data, hs.creds⟩

theorem Same.readE {f : Persist → M α} (h1 : ∀ (p : Persist) (l : List (Nat × Cred)), f { p with creds := l } = f p)
    (h2 : ∀ p, Same H K (f p)) : Same H K (readP >>= f) :=
  ⟨Sim.bind Sim.read fun p1 p2 ⟨h, _⟩ => by
    have : f p2 = f p1 := by rw [h]; exact h1 _ _
    rw [this]; exact (h2 p1).out⟩

theorem Sim.write {f : Persist → Persist} {evs : List Ev}
    (h : ∀ p1 p2 : Persist, p2 = { p1 with creds := p2.creds } → Compat H K p1.creds p2.creds →
      f p2 = { f p1 with creds := (f p2).creds } ∧ Compat H K (f p1).creds (f p2).creds) :
    Sim H K Eq (writeP f evs) (writeP f evs) := by
  intro s1 s2 hs
  have h1 := hs.next
  have h2 : s2.env.o.cut s2.env.k = s1.env.o.cut s1.env.k := by rw [hs.env]
  have h3 : s2.env.o.wfail s2.env.k = s1.env.o.wfail s1.env.k := by rw [hs.env]
  obtain ⟨h4, h5⟩ := h _ _ hs.data hs.creds
  have h6 : Rel H K { s1 with env := s1.env.next, p := f s1.p, log := evs ++ s1.log }
      { s2 with env := s2.env.next, p := f s2.p, log := evs ++ s2.log } := ⟨h1.env, h1.vol, h4, h5, h1.held⟩
  simp only [writeP, h2, h3]
  split
  · exact ⟨trivial, h1⟩
  · split
    · exact ⟨rfl, h6⟩
    · exact ⟨rfl, h1⟩
    · rename_i e a _
      cases a
      · exact ⟨rfl, h1⟩
      · exact ⟨rfl, h6⟩

theorem Same.writeE {f : Persist → Persist} {evs : List Ev}
    (h : ∀ (p : Persist) (l : List (Nat × Cred)), f { p with creds := l } = { f p with creds := l } ∧ (f p).creds = p.creds) :
    Same H K (writeP f evs) := by
  constructor
  refine Sim.write fun p1 p2 hp hc => ?_
  have h1 := (h p1 p2.creds).1
  rw [← hp] at h1
  rw [h1, (h p1 p1.creds).2]
  exact ⟨rfl, hc⟩

theorem Same.modVE {f : Vol → Vol} (h : ∀ v, Held K v → Held K (f v)) : Same H K (modV f) :=
  ⟨fun s1 s2 hs => ⟨rfl, ⟨hs.env, by show f s2.v = f s1.v; rw [hs.vol], hs.data, hs.creds, h _ hs.held⟩⟩⟩

theorem Same.modPin (f : ClientPin → ClientPin) : Same H K (modPin f) := by
  unfold Ctap.modPin; exact Same.modVE fun v h => h
instance (f : ClientPin → ClientPin) : Same H K (Ctap.modPin f) := Same.modPin f
instance (f : TokenState → TokenState) : Same H K (modTok f) := by unfold modTok; infer_instance
instance (f : LargeBlobs → LargeBlobs) : Same H K (modLb f) := by unfold modLb; exact Same.modVE fun v h => h
theorem Same.u2f (f : Vol → U2fUp) : Same H K (modV fun v => { v with u2f := f v }) := Same.modVE fun _ h => h
theorem Same.modSpE {f : StatefulPerm → StatefulPerm} (h : ∀ sp inp keys, (f sp).cmd = some (.getAssertion inp keys) →
    sp.cmd = some (.getAssertion inp keys)) : Same H K (modSp f) := by
  unfold modSp
  exact Same.modVE fun v hv inp keys hc => hv inp keys (h _ _ _ hc)

/-- The rule application for `Same`. -/
macro "same" : tactic => `(tactic| repeat (first
  | infer_instance
  | with_reducible refine Same.readE ?_ ?_
  | with_reducible refine Same.bindE ?_ ?_
  | with_reducible refine Same.mapErrE ?_
  | with_reducible refine Same.whenE ?_
  | with_reducible refine Same.iteE ?_ ?_
  | with_reducible refine Same.bindSwE ?_ ?_
  | with_reducible refine Same.orSwE ?_
  | ((with_reducible refine Same.writeE ?_); exact fun _ _ => ⟨rfl, rfl⟩)
  | (intro _ _; rfl)
  | intro _
  | split
  | dsimp only))

end Verif.Ctap
