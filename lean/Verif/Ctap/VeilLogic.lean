import Verif.Ctap.VeilSpec
import Verif.Ctap.BlindLogic

/-!
# Reasoning about two runs on devices that differ in the hash of the PIN
-/
namespace Verif.Ctap
set_option linter.unusedSectionVars false
variable [Dev]

/-- The states differ only in the hash of the PIN. -/
structure PRel (s1 s2 : St) : Prop where
  env : s2.env = s1.env
  vol : s2.v = s1.v
  data : s2.p = { s1.p with pin := s2.p.pin }
  pin : s2.p.pin.map (·.2) = s1.p.pin.map (·.2)

/-- A right guess was made on the way from `s` to `t`. -/
def Guessed (s t : St) : Prop := HappenedSince s.log Ev.isRightGuess t.log

theorem Guessed.more {s t u : St} (h : Guessed s t) (hg : t.log <:+ u.log) : Guessed s u := by
  obtain ⟨pre, h1, e, h2, h3⟩ := h
  obtain ⟨new, h4⟩ := hg
  exact ⟨new ++ pre, by rw [← h4, h1, List.append_assoc], e, List.mem_append_right _ h2, h3⟩

theorem Guessed.before {s t u : St} (hg : s.log <:+ t.log) (h : Guessed t u) : Guessed s u := by
  obtain ⟨pre, h1, e, h2, h3⟩ := h
  obtain ⟨new, h4⟩ := hg
  exact ⟨pre ++ new, by rw [h1, ← h4, List.append_assoc], e, List.mem_append_left _ h2, h3⟩

/-- The computations, from related states, have related results and end in related states, or a right guess was
made. -/
def PSim (V : α → β → Prop) (m1 : M α) (m2 : M β) : Prop :=
  ∀ s1 s2, PRel s1 s2 → (RelRes V (m1 s1).1 (m2 s2).1 ∧ PRel (m1 s1).2 (m2 s2).2) ∨
    Guessed s1 (m1 s1).2 ∨ Guessed s2 (m2 s2).2

/-- The computation does not depend on the PIN unless a right guess is made. -/
class PSame (m : M α) : Prop where
  out : PSim Eq m m
  grows : ∀ s, s.log <:+ (m s).2.log

theorem grows_bind {m : M α} {f : α → M β} (h1 : ∀ s, s.log <:+ (m s).2.log) (h2 : ∀ a s, s.log <:+ (f a s).2.log) (s : St) :
    s.log <:+ ((m >>= f) s).2.log := by
  have h3 := h1 s
  simp only [bind_def, M.bind]
  rcases e1 : m s with ⟨r1, t1⟩
  rw [e1] at h3
  cases r1
  · exact h3.trans (h2 _ _)
  · exact h3
  · exact h3
  · exact h3

theorem PSim.bind {V : α → β → Prop} {W : γ → δ → Prop} {m1 : M α} {m2 : M β} {f : α → M γ} {g : β → M δ}
    (h1 : PSim V m1 m2) (h2 : ∀ a b, V a b → PSim W (f a) (g b)) (g1 : ∀ s, s.log <:+ (m1 s).2.log)
    (g2 : ∀ s, s.log <:+ (m2 s).2.log) (g3 : ∀ a s, s.log <:+ (f a s).2.log) (g4 : ∀ a s, s.log <:+ (g a s).2.log) :
    PSim W (m1 >>= f) (m2 >>= g) := by
  intro s1 s2 hs
  have h3 := h1 s1 s2 hs
  have k1 := g1 s1
  have k2 := g2 s2
  simp only [bind_def, M.bind]
  rcases e1 : m1 s1 with ⟨r1, t1⟩
  rcases e2 : m2 s2 with ⟨r2, t2⟩
  rw [e1, e2] at h3
  rw [e1] at k1
  rw [e2] at k2
  rcases h3 with ⟨h3, h4⟩ | h3 | h3
  · cases r1 <;> cases r2 <;> simp only [RelRes] at h3
    · rcases h2 _ _ h3 _ _ h4 with h5 | h5 | h5
      · exact .inl h5
      · exact .inr (.inl (h5.before k1))
      · exact .inr (.inr (h5.before k2))
    · exact .inl ⟨h3, h4⟩
    · exact .inl ⟨trivial, h4⟩
    · exact .inl ⟨trivial, h4⟩
  · refine .inr (.inl ?_)
    cases r1
    · exact h3.more (g3 _ _)
    · exact h3
    · exact h3
    · exact h3
  · refine .inr (.inr ?_)
    cases r2
    · exact h3.more (g4 _ _)
    · exact h3
    · exact h3
    · exact h3

theorem PSim.pure {V : α → β → Prop} {a : α} {b : β} (h : V a b) : PSim V (M.pure a) (M.pure b) :=
  fun _ _ hs => .inl ⟨h, hs⟩

theorem PSame.bindE {m : M α} {f : α → M β} (h1 : PSame m) (h2 : ∀ a, PSame (f a)) : PSame (m >>= f) :=
  ⟨PSim.bind h1.out (fun a b h => by subst h; exact (h2 a).out) h1.grows h1.grows (fun a => (h2 a).grows)
    fun a => (h2 a).grows, grows_bind h1.grows fun a => (h2 a).grows⟩

instance PSame.bind {m : M α} {f : α → M β} [h1 : PSame m] [h2 : ∀ a, PSame (f a)] : PSame (m >>= f) := PSame.bindE h1 h2

instance (a : α) : PSame (M.pure a) := ⟨PSim.pure rfl, fun _ => List.suffix_refl _⟩
instance (e : Status) : PSame (fail e : M α) := ⟨fun _ _ h => .inl ⟨rfl, h⟩, fun _ => List.suffix_refl _⟩
instance : PSame (panicM : M α) := ⟨fun _ _ h => .inl ⟨trivial, h⟩, fun _ => List.suffix_refl _⟩
instance (c : Bool) (e : Status) : PSame (guardE c e) := by
  cases c
  · exact (inferInstance : PSame (fail e : M Unit))
  · exact (inferInstance : PSame (M.pure ()))
instance (o : Option α) (e : Status) : PSame (req o e) := by cases o <;> (unfold req; dsimp only; infer_instance)
instance (x : Except Status α) : PSame (liftE x) := by cases x <;> (unfold liftE; dsimp only; infer_instance)
instance : PSame getV := ⟨fun _ _ h => .inl ⟨h.vol.symm, h⟩, fun _ => List.suffix_refl _⟩
instance : PSame clock :=
  ⟨fun s1 s2 h => .inl ⟨by show s1.env.now = s2.env.now; rw [h.env], h⟩, fun _ => List.suffix_refl _⟩
instance (e : Ev) : PSame (logE e) :=
  ⟨fun _ _ h => .inl ⟨rfl, ⟨h.env, h.vol, h.data, h.pin⟩⟩, fun _ => List.suffix_cons _ _⟩

theorem PSame.mapErrE {f : Status → Status} {m : M α} (h : PSame m) : PSame (mapErr f m) := by
  have hl : ∀ s, (mapErr f m s).2 = (m s).2 := by
    intro s; simp only [mapErr]; rcases e1 : m s with ⟨r1, t1⟩; cases r1 <;> rfl
  constructor
  · intro s1 s2 hs
    rw [hl, hl]
    refine (h.out s1 s2 hs).imp (fun h3 => ⟨?_, h3.2⟩) id
    have h4 := h3.1.eq
    simp only [mapErr]
    rcases e1 : m s1 with ⟨r1, t1⟩
    rcases e2 : m s2 with ⟨r2, t2⟩
    rw [e1, e2] at h4
    cases h4
    cases r1 <;> exact RelRes.refl (fun _ => rfl) _
  · intro s; rw [hl]; exact h.grows s
instance {f : Status → Status} {m : M α} [h : PSame m] : PSame (mapErr f m) := PSame.mapErrE h

theorem PSame.whenE {c : Bool} {m : M Unit} (h : PSame m) : PSame (whenM c m) := by
  cases c
  · exact (inferInstance : PSame (M.pure ()))
  · exact h
instance {c : Bool} {m : M Unit} [h : PSame m] : PSame (whenM c m) := PSame.whenE h

theorem PSame.iteE {c : Prop} [Decidable c] {m n : M α} (_ : PSame m) (_ : PSame n) :
    PSame (if c then m else n) := by split <;> assumption
instance {c : Prop} [Decidable c] {m n : M α} [h1 : PSame m] [h2 : PSame n] : PSame (if c then m else n) :=
  PSame.iteE h1 h2

theorem PSame.orSwE {m : M α} {sw : Sw} (h : PSame m) : PSame (orSw m sw) := by
  have hl : ∀ s, (orSw m sw s).2 = (m s).2 := by
    intro s; simp only [orSw]; rcases e1 : m s with ⟨r1, t1⟩; cases r1 <;> rfl
  constructor
  · intro s1 s2 hs
    rw [hl, hl]
    refine (h.out s1 s2 hs).imp (fun h3 => ⟨?_, h3.2⟩) id
    have h4 := h3.1.eq
    simp only [orSw]
    rcases e1 : m s1 with ⟨r1, t1⟩
    rcases e2 : m s2 with ⟨r2, t2⟩
    rw [e1, e2] at h4
    cases h4
    cases r1 <;> exact RelRes.refl (fun _ => rfl) _
  · intro s; rw [hl]; exact h.grows s
instance {m : M α} {sw : Sw} [h : PSame m] : PSame (orSw m sw) := PSame.orSwE h

theorem PSame.bindSwE {m : M (Except Sw α)} {f : α → M (Except Sw β)} (h1 : PSame m) (h2 : ∀ a, PSame (f a)) :
    PSame (bindSw m f) := by
  unfold bindSw
  refine PSame.bindE h1 fun r => ?_
  split
  · exact h2 _
  · infer_instance
instance {m : M (Except Sw α)} {f : α → M (Except Sw β)} [h1 : PSame m] [h2 : ∀ a, PSame (f a)] : PSame (bindSw m f) :=
  PSame.bindSwE h1 h2

/-! ## Effects -/

theorem PRel.next {s1 s2 : St} (h : PRel s1 s2) : PRel { s1 with env := s1.env.next } { s2 with env := s2.env.next } :=
  ⟨by show s2.env.next = s1.env.next; rw [h.env], h.vol, h.data, h.pin⟩

theorem effect_grows (f : St → Res α) (s : St) : s.log <:+ (effect f s).2.log := by
  simp only [Ctap.effect]
  split <;> exact List.suffix_refl _

theorem PSim.effect {V : α → β → Prop} {f : St → Res α} {g : St → Res β}
    (h : ∀ s1 s2, PRel s1 s2 → RelRes V (f s1) (g s2)) : PSim V (effect f) (effect g) := by
  intro s1 s2 hs
  have h1 := hs.next
  have h2 : s2.env.o.cut s2.env.k = s1.env.o.cut s1.env.k := by rw [hs.env]
  left
  simp only [Ctap.effect, h2]
  split
  · exact ⟨trivial, h1⟩
  · exact ⟨h _ _ hs, h1⟩

theorem PSame.effectE {f : St → Res α} (h : ∀ s1 s2 : St, s2.env = s1.env → f s2 = f s1) : PSame (effect f) :=
  ⟨PSim.effect fun s1 s2 hs => by rw [h s1 s2 hs.env]; exact RelRes.refl (fun _ => rfl) _, effect_grows f⟩

instance (n : Nat) : PSame (rng n) := by
  unfold rng
  refine PSame.effectE fun s1 s2 h => ?_
  rw [h]

instance : PSame (effect fun s => Res.ok (s.env.o.wait s.env.k)) := PSame.effectE fun s1 s2 h => by rw [h]
instance : PSame (effect fun s => Res.ok (s.env.o.keep s.env.k)) := PSame.effectE fun s1 s2 h => by rw [h]
instance (a : α) : PSame (effect fun _ => Res.ok a) := PSame.effectE fun _ _ _ => rfl

/-- What is read differs in the hash of the PIN. -/
theorem PSim.read : PSim (fun p1 p2 => p2 = { p1 with pin := p2.pin } ∧ p2.pin.map (·.2) = p1.pin.map (·.2)) readP readP := by
  unfold readP
  refine PSim.effect fun s1 s2 hs => ?_
  rw [hs.env]
  cases s1.env.o.rfail s1.env.k with
  | some e => exact rfl
  | none => exact ⟨hs.data, hs.pin⟩

theorem PSame.readE {f : Persist → M α} (h1 : ∀ (p : Persist) (x : Option (Bytes × Nat)), f { p with pin := x } = f p)
    (h2 : ∀ p, PSame (f p)) : PSame (readP >>= f) :=
  ⟨PSim.bind PSim.read (fun p1 p2 ⟨h, _⟩ => by
    have : f p2 = f p1 := by rw [h]; exact h1 _ _
    rw [this]; exact (h2 p1).out) (effect_grows _) (effect_grows _) (fun p => (h2 p).grows) fun p => (h2 p).grows,
    grows_bind (effect_grows _) fun p => (h2 p).grows⟩

theorem write_grows (f : Persist → Persist) (evs : List Ev) (s : St) : s.log <:+ (writeP f evs s).2.log := by
  simp only [writeP]
  split
  · exact List.suffix_refl _
  · split
    · exact List.suffix_append _ _
    · exact List.suffix_refl _
    · rename_i e a _
      cases a
      · exact List.suffix_refl _
      · exact List.suffix_append _ _

theorem PSame.write {f : Persist → Persist} {evs : List Ev}
    (h : ∀ p1 p2 : Persist, p2 = { p1 with pin := p2.pin } → p2.pin.map (·.2) = p1.pin.map (·.2) →
      f p2 = { f p1 with pin := (f p2).pin } ∧ (f p2).pin.map (·.2) = (f p1).pin.map (·.2)) :
    PSame (writeP f evs) := by
  refine ⟨fun s1 s2 hs => ?_, write_grows f evs⟩
  have h1 := hs.next
  have h2 : s2.env.o.cut s2.env.k = s1.env.o.cut s1.env.k := by rw [hs.env]
  have h3 : s2.env.o.wfail s2.env.k = s1.env.o.wfail s1.env.k := by rw [hs.env]
  obtain ⟨h4, h5⟩ := h _ _ hs.data hs.pin
  have h6 : PRel { s1 with env := s1.env.next, p := f s1.p, log := evs ++ s1.log }
      { s2 with env := s2.env.next, p := f s2.p, log := evs ++ s2.log } := ⟨h1.env, h1.vol, h4, h5⟩
  left
  simp only [writeP, h2, h3]
  split
  · exact ⟨trivial, h1⟩
  · split
    · exact ⟨rfl, h6⟩
    · exact ⟨rfl, h1⟩
    · rename_i e a _
      cases a
      · exact ⟨rfl, h1⟩
      · exact ⟨rfl, h6⟩

theorem PSame.writeE {f : Persist → Persist} {evs : List Ev}
    (h : ∀ (p : Persist) (x : Option (Bytes × Nat)), f { p with pin := x } = { f p with pin := x } ∧ (f p).pin = p.pin) :
    PSame (writeP f evs) := by
  refine PSame.write fun p1 p2 hp hc => ?_
  have h1 := (h p1 p2.pin).1
  rw [← hp] at h1
  rw [h1, (h p1 p1.pin).2]
  exact ⟨rfl, hc⟩

/-- A write whose effect on the PIN is to replace it. -/
theorem PSame.replaceE {f : Persist → Persist} {evs : List Ev}
    (h : ∀ (p : Persist) (x : Option (Bytes × Nat)), f { p with pin := x } = f p) : PSame (writeP f evs) := by
  refine PSame.write fun p1 p2 hp hc => ?_
  have : f p2 = f p1 := by rw [hp]; exact h _ _
  rw [this]
  exact ⟨rfl, rfl⟩

instance (f : Vol → Vol) : PSame (modV f) :=
  ⟨fun s1 s2 hs => .inl ⟨rfl, ⟨hs.env, by show f s2.v = f s1.v; rw [hs.vol], hs.data, hs.pin⟩⟩, fun _ => List.suffix_refl _⟩
instance (f : ClientPin → ClientPin) : PSame (modPin f) := by unfold modPin; infer_instance
instance (f : TokenState → TokenState) : PSame (modTok f) := by unfold modTok; infer_instance
instance (f : LargeBlobs → LargeBlobs) : PSame (modLb f) := by unfold modLb; infer_instance
instance (f : StatefulPerm → StatefulPerm) : PSame (modSp f) := by unfold modSp; infer_instance

/-- What is read of the PIN: whether there is one. -/
theorem PSim.pinHash : PSim (fun a b : Option Bytes => b.isSome = a.isSome) pinHash pinHash := by
  unfold Ctap.pinHash
  refine PSim.bind PSim.read (fun p1 p2 ⟨_, h⟩ => PSim.pure ?_) (effect_grows _) (effect_grows _)
    (fun _ _ => List.suffix_refl _) fun _ _ => List.suffix_refl _
  revert h
  cases p1.pin <;> cases p2.pin <;> simp

theorem pinHash_grows (s : St) : s.log <:+ (pinHash s).2.log := by
  unfold Ctap.pinHash
  exact grows_bind (effect_grows _) (fun _ _ => List.suffix_refl _) s

theorem PSame.pinHashE {f : Option Bytes → M α} (h1 : ∀ x y, f (some x) = f (some y)) (h2 : ∀ a, PSame (f a)) :
    PSame (pinHash >>= f) :=
  ⟨PSim.bind PSim.pinHash (fun a b h => by
    have : f b = f a := by
      cases a <;> cases b <;> first | rfl | exact h1 _ _ | cases h
    rw [this]; exact (h2 a).out) pinHash_grows pinHash_grows (fun p => (h2 p).grows) fun p => (h2 p).grows,
    grows_bind pinHash_grows fun p => (h2 p).grows⟩

/-- The rule application for `PSame`. -/
macro "psame" : tactic => `(tactic| repeat (first
  | infer_instance
  | ((with_reducible refine PSame.pinHashE ?_ ?_); exact fun _ _ => rfl)
  | with_reducible refine PSame.readE ?_ ?_
  | with_reducible refine PSame.bindE ?_ ?_
  | with_reducible refine PSame.mapErrE ?_
  | with_reducible refine PSame.whenE ?_
  | with_reducible refine PSame.iteE ?_ ?_
  | with_reducible refine PSame.bindSwE ?_ ?_
  | with_reducible refine PSame.orSwE ?_
  | ((with_reducible refine PSame.writeE ?_); exact fun _ _ => ⟨rfl, rfl⟩)
  | ((with_reducible refine PSame.replaceE ?_); exact fun _ _ => rfl)
  | (intro _ _; rfl)
  | intro _
  | split
  | dsimp only))

end Verif.Ctap
