import Verif.Disk.Spec
import Verif.Disk.Tame
import Verif.Store.Props
import Verif.Store.PropsFragment

/-!
# Computations on the store that correspond to computations on the data
-/
namespace Verif.Disk
open Verif.Ctap (Dev Cred Status Res Persist Attestation StoreErr WFail Oracle readP writeP rng)
open Verif.Store (Format KV Contains Reopen Held Op)
variable [Dev] {F : Format} {α β α' β' : Type}

omit [Dev] in
theorem bind_eq (d : M α) (g : α → M β) (x : St) : (d >>= g) x =
    match d x with
    | (.ok a, x') => g a x'
    | (.err e, x') => (.err e, x')
    | (.panic, x') => (.panic, x')
    | (.crash, x') => (.crash, x') := rfl

/-- A computation on the store does what a computation on the data does in some environment. `P` is about the data before, `R` about the
results and the data after. -/
def Sim (F : Format) (P : Persist → Prop) (d : M α) (f : Ctap.M β) (R : α → β → Persist → Prop) : Prop :=
  ∀ (x : St) (t : Ctap.St), Keeps F x t.p → P t.p →
    (∀ a x', d x = (.ok a, x') → ∃ o b t', f (plug t o) = (.ok b, t') ∧ Keeps F x' t'.p ∧ R a b t'.p) ∧
    (∀ e x', d x = (.err e, x') → ∃ o t', f (plug t o) = (.err e, t') ∧ Keeps F x' t'.p) ∧
    (∀ x' y, d x = (.crash, x') → Reopen F x'.st.fl y.st → ∃ o, Keeps F y (f (plug t o)).2.p) ∧
    ∀ x', d x ≠ (.panic, x')

/-- An environment in which nothing happens. -/
def calm : Oracle where
  cut _ := false
  rfail _ := none
  wfail _ := none
  adv _ := 0
  rnd _ _ := 0
  wait _ := .touched
  keep _ := .ok
  shuffle _ l := l
  shuffle_perm _ _ := .refl _

/-- Power is lost at the next interaction. -/
def dead : Oracle := { calm with cut := fun _ => true }

theorem plug_p (t : Ctap.St) (o : Oracle) : (plug t o).p = t.p := rfl
theorem plug_plug (t : Ctap.St) (o o' : Oracle) : plug (plug t o) o' = plug t o' := rfl
theorem plug_k (t : Ctap.St) (o : Oracle) : (plug t o).env.k = t.env.k := rfl
theorem plug_o (t : Ctap.St) (o : Oracle) : (plug t o).env.o = o := rfl

/-- A run continues as another one: the environment of the first, then that of the second. -/
theorem continue_run {f : Ctap.M α} [hf : Tame f] {t : Ctap.St} {o : Oracle} {r : Res α} {t' : Ctap.St} (h : f (plug t o) = (r, t')) (o2 : Oracle) :
    f (plug t (splice o o2 t'.env.k)) = (r, plug t' (splice o o2 t'.env.k)) := by
  have h1 := hf.loc (plug t o) (splice o o2 t'.env.k) (by
    rw [h]
    exact splice_left o o2 _ _)
  rw [plug_plug, h] at h1
  exact h1

theorem restart {g : Ctap.M β} [hg : Tame g] (t' : Ctap.St) (o o2 : Oracle) :
    g (plug t' (splice o o2 t'.env.k)) = ((g (plug t' o2)).1, plug (g (plug t' o2)).2 (splice o o2 t'.env.k)) := by
  have h1 := hg.loc (plug t' o2) (splice o o2 t'.env.k) (splice_right o o2 _ _)
  exact h1

theorem Keeps.reopen (hF : F.supported) {x y : St} {p : Persist} (h : Keeps F x p) (ho : Reopen F x.st.fl y.st) : Keeps F y p := by
  obtain ⟨h1, m, h2, h3⟩ := h
  exact ⟨.cycle h1 ho, m, Store.C45_reopen hF h1 h2 ho, h3⟩

theorem Sim.bind {P : Persist → Prop} {d : M α} {f : Ctap.M β} {R : α → β → Persist → Prop} {g : α → M α'} {k : β → Ctap.M β'}
    {R' : α' → β' → Persist → Prop} (h : Sim F P d f R) (h' : ∀ a b, Sim F (R a b) (g a) (k b) R') (hf : Tame f := by tame)
    (hk : ∀ b, Tame (k b) := by tame) :
    Sim F P (d >>= g) (f >>= k) R' := by
  intro x t hx hp
  obtain ⟨h1, h2, h3, h4⟩ := h x t hx hp
  rw [bind_eq]
  have hbind : ∀ {o b t'}, f (plug t o) = (.ok b, t') → ∀ o2, (f >>= k) (plug t (splice o o2 t'.env.k)) =
      ((k b (plug t' o2)).1, plug (k b (plug t' o2)).2 (splice o o2 t'.env.k)) := by
    intro o b t' hf' o2
    rw [Ctap.bind_def]
    simp only [Ctap.M.bind]
    rw [continue_run hf' o2]
    exact restart t' o o2
  rcases hd : d x with ⟨r, x1⟩
  cases r with
  | ok a =>
    obtain ⟨o, b, t', e1, e2, e3⟩ := h1 a x1 hd
    obtain ⟨g1, g2, g3, g4⟩ := h' a b x1 t' e2 e3
    refine ⟨fun a' x' e => ?_, fun e x' he => ?_, fun x' y he ho => ?_, g4⟩
    · obtain ⟨o2, b', t2, q1, q2, q3⟩ := g1 a' x' e
      have := hbind e1 o2
      rw [q1] at this
      exact ⟨_, b', _, this, q2, q3⟩
    · obtain ⟨o2, t2, q1, q2⟩ := g2 e x' he
      have := hbind e1 o2
      rw [q1] at this
      exact ⟨_, _, this, q2⟩
    · obtain ⟨o2, q1⟩ := g3 x' y he ho
      refine ⟨splice o o2 t'.env.k, ?_⟩
      rw [hbind e1 o2]
      exact q1
  | err e =>
    refine ⟨fun _ _ h => (nomatch h), fun e' x' he => ?_, fun _ _ h => (nomatch h), fun _ h => (nomatch h)⟩
    simp only [Prod.mk.injEq, Res.err.injEq] at he
    obtain ⟨rfl, rfl⟩ := he
    obtain ⟨o, t', e1, e2⟩ := h2 e x1 hd
    refine ⟨o, t', ?_, e2⟩
    rw [Ctap.bind_def]
    simp only [Ctap.M.bind]
    rw [e1]
  | panic => exact absurd hd (h4 x1)
  | crash =>
    refine ⟨fun _ _ h => (nomatch h), fun _ _ h => (nomatch h), fun x' y he ho => ?_, fun _ h => (nomatch h)⟩
    simp only [Prod.mk.injEq, true_and] at he
    subst he
    obtain ⟨o, q⟩ := h3 x1 y hd ho
    rcases hfo : f (plug t o) with ⟨r, t'⟩
    rw [hfo] at q
    cases r with
    | ok b =>
      refine ⟨splice o dead t'.env.k, ?_⟩
      rw [hbind hfo dead]
      have := ((hk b).halt (plug t' dead) rfl).1
      simp only [plug_p] at this ⊢
      rw [this]
      exact q
    | _ =>
      refine ⟨o, ?_⟩
      rw [Ctap.bind_def]
      simp only [Ctap.M.bind]
      rw [hfo]
      exact q

theorem Sim.weaken {P P' : Persist → Prop} {d : M α} {f : Ctap.M β} {R R' : α → β → Persist → Prop} (h : Sim F P d f R)
    (hP : ∀ p, P' p → P p) (hR : ∀ a b p, R a b p → R' a b p) : Sim F P' d f R' := by
  intro x t hx hp
  obtain ⟨h1, h2, h3, h4⟩ := h x t hx (hP _ hp)
  refine ⟨fun a x' e => ?_, h2, h3, h4⟩
  obtain ⟨o, b, t', e1, e2, e3⟩ := h1 a x' e
  exact ⟨o, b, t', e1, e2, hR _ _ _ e3⟩

/-- What holds of the data before can be used. -/
theorem Sim.given {P : Persist → Prop} {Q : Prop} {d : M α} {f : Ctap.M β} {R : α → β → Persist → Prop} (hQ : ∀ p, P p → Q)
    (h : Q → Sim F P d f R) : Sim F P d f R := fun x t hx hp => h (hQ _ hp) x t hx hp

/-- Holds of the data that the store keeps. -/
theorem Sim.holds {P : Persist → Prop} {d : M α} {f : Ctap.M β} {R : α → β → Persist → Prop}
    (h : Sim F (fun p => P p ∧ ∃ m, Holds m p) d f R) : Sim F P d f R :=
  fun x t hx hp => h x t hx ⟨hp, hx.2.imp fun _ h => h.2⟩

theorem Sim.pure {P : Persist → Prop} {R : α → β → Persist → Prop} {a : α} {b : β} (h : ∀ p, P p → R a b p) :
    Sim F P (M.pure a) (Ctap.M.pure b) R := by
  intro x t hx hp
  refine ⟨fun a' x' e => ?_, fun _ _ h => (nomatch h), fun _ _ h => (nomatch h), fun _ h => (nomatch h)⟩
  cases e
  exact ⟨calm, b, plug t calm, rfl, hx, h _ hp⟩

theorem Sim.fail {P : Persist → Prop} {R : α → β → Persist → Prop} (e : Status) : Sim F P (fail e) (Ctap.fail e) R := by
  intro x t hx hp
  refine ⟨fun a' x' e => (nomatch e), fun e' x' he => ?_, fun _ _ h => (nomatch h), fun _ h => (nomatch h)⟩
  cases he
  exact ⟨calm, plug t calm, rfl, hx⟩

theorem Sim.guard {P : Persist → Prop} (c : Bool) (e : Status) : Sim F P (guardE c e) (Ctap.guardE c e) fun _ _ p => P p ∧ c = true := by
  cases c with
  | true => exact Sim.pure fun p hp => ⟨hp, rfl⟩
  | false => exact Sim.fail e

theorem Sim.req {P : Persist → Prop} {R : α → β → Persist → Prop} {o : Option α} {o' : Option β} (e : Status) (hn : o = none ↔ o' = none)
    (h : ∀ a b, o = some a → o' = some b → ∀ p, P p → R a b p) : Sim F P (req o e) (Ctap.req o' e) R := by
  cases o with
  | none => rw [hn.1 rfl]; exact Sim.fail e
  | some a =>
    cases o' with
    | none => exact absurd (hn.2 rfl) (by simp)
    | some b => exact Sim.pure (h a b rfl rfl)

theorem Sim.liftE {P : Persist → Prop} (r : Except Status α) : Sim F P (liftE r) (Ctap.liftE r) fun a b p => P p ∧ a = b ∧ r = .ok a := by
  cases r with
  | ok a => exact Sim.pure fun p hp => ⟨hp, rfl, rfl⟩
  | error e => exact Sim.fail e

theorem Sim.mapErr {P : Persist → Prop} {R : α → β → Persist → Prop} {d : M α} {f : Ctap.M β} (g : Status → Status) (h : Sim F P d f R) :
    Sim F P (mapErr g d) (Ctap.mapErr g f) R := by
  intro x t hx hp
  obtain ⟨h1, h2, h3, h4⟩ := h x t hx hp
  simp only [Disk.mapErr, Ctap.mapErr]
  rcases hd : d x with ⟨r, x1⟩
  cases r with
  | ok a =>
    refine ⟨fun a' x' e => ?_, fun _ _ h => (nomatch h), fun _ _ h => (nomatch h), fun _ h => (nomatch h)⟩
    cases e
    obtain ⟨o, b, t', e1, e2, e3⟩ := h1 _ _ hd
    exact ⟨o, b, t', by rw [e1], e2, e3⟩
  | err e =>
    refine ⟨fun _ _ h => (nomatch h), fun e' x' he => ?_, fun _ _ h => (nomatch h), fun _ h => (nomatch h)⟩
    simp only [Prod.mk.injEq, Res.err.injEq] at he
    obtain ⟨rfl, rfl⟩ := he
    obtain ⟨o, t', e1, e2⟩ := h2 _ _ hd
    exact ⟨o, t', by rw [e1], e2⟩
  | panic => exact absurd hd (h4 x1)
  | crash =>
    refine ⟨fun _ _ h => (nomatch h), fun _ _ h => (nomatch h), fun x' y he ho => ?_, fun _ h => (nomatch h)⟩
    simp only [Prod.mk.injEq, true_and] at he
    subst he
    obtain ⟨o, q⟩ := h3 x1 y hd ho
    refine ⟨o, ?_⟩
    rcases hfo : f (plug t o) with ⟨r, t'⟩
    rw [hfo] at q
    cases r <;> exact q

/-- Drawing random bytes. -/
theorem Sim.draw {P : Persist → Prop} (n : Nat) : Sim F P (draw n) (rng n) fun a b p => P p ∧ a = b ∧ a.length = n := by
  intro x t hx hp
  refine ⟨fun a' x' e => ?_, fun _ _ h => (nomatch h), fun _ _ h => (nomatch h), fun _ h => (nomatch h)⟩
  simp only [Disk.draw, Prod.mk.injEq, Res.ok.injEq] at e
  obtain ⟨rfl, rfl⟩ := e
  exact ⟨{ calm with rnd := fun _ => x.rnd x.n }, _, _, rfl, hx, hp, rfl, by simp⟩

/-- Reading an entry. -/
theorem Sim.find (P : Persist → Prop) (key : Nat) :
    Sim F P (find F key) readP fun a b p => P p ∧ b = p ∧ ∃ m, Holds m p ∧ a = m key := by
  intro x t hx hp
  obtain ⟨h1, m, h2, h3⟩ := hx
  have h4 : Disk.find F key x = (.ok (m key), x) := by
    simp only [Disk.find, onStore, h2 key]
  rw [h4]
  refine ⟨fun a' x' e => ?_, fun _ _ h => (nomatch h), fun _ _ h => (nomatch h), fun _ h => (nomatch h)⟩
  cases e
  exact ⟨calm, _, _, rfl, ⟨h1, m, h2, h3⟩, hp, rfl, m, h3, rfl⟩

omit [Dev] in
/-- The status of an error of the store is that of an error of the model. -/
theorem statusOf_refused {op : Op} {m : KV} {u : Nat} {e : Store.Err} (h : op.Refused F m u e) : ∃ e', statusOf e = some (StoreErr.toStatus e') := by
  cases e with
  | invalidArgument => exact ⟨.invalidArgument, rfl⟩
  | noCapacity => exact ⟨.noCapacity, rfl⟩
  | noLifetime => exact ⟨.noLifetime, rfl⟩
  | invalidStorage => exact absurd h id
  | panic => exact absurd h id

/-- Writing entries, in a state. -/
theorem write_at (hF : F.supported) {d : Store.M Unit} (op : Op) (g : Persist → Persist) (evs : List Ctap.Ev) {x : St} {t : Ctap.St} {m : KV}
    (h1 : Store.Reach F x.st) (h2 : Contains F x.st m) (h3 : Holds m t.p) (h4 : Holds (op.apply m) (g t.p)) (hd : d x.st = op.run F x.st) :
    (∀ a x', onStore d x = (.ok a, x') → ∃ o b t', writeP g evs (plug t o) = (.ok b, t') ∧ Keeps F x' t'.p ∧ t'.p = g t.p) ∧
    (∀ e x', onStore d x = (.err e, x') → ∃ o t', writeP g evs (plug t o) = (.err e, t') ∧ Keeps F x' t'.p) ∧
    (∀ x' y, onStore d x = (.crash, x') → Reopen F x'.st.fl y.st → ∃ o, Keeps F y (writeP g evs (plug t o)).2.p) ∧
    ∀ x', onStore d x ≠ (.panic, x') := by
  simp only [onStore]
  rw [hd]
  rcases hr : op.run F x.st with ⟨r, s'⟩
  cases r with
  | ok a =>
    refine ⟨fun a' x' e => ?_, fun _ _ h => (nomatch h), fun _ _ h => (nomatch h), fun _ h => (nomatch h)⟩
    cases e
    exact ⟨calm, (), _, rfl, ⟨.ok op h1 hr, _, (Store.C44_ok hF h1 h2 op hr).2, h4⟩, rfl⟩
  | err e =>
    obtain ⟨q1, u, _, q2⟩ := Store.C44_err hF h1 h2 op hr
    obtain ⟨e', q3⟩ := statusOf_refused q2
    simp only [q3]
    refine ⟨fun _ _ h => (nomatch h), fun e1 x' he => ?_, fun _ _ h => (nomatch h), fun _ h => (nomatch h)⟩
    cases he
    exact ⟨{ calm with wfail := fun _ => some (.refused e') }, _, rfl, .err op h1 hr, m, q1, h3⟩
  | crash =>
    refine ⟨fun _ _ h => (nomatch h), fun _ _ h => (nomatch h), fun x' y he ho => ?_, fun _ h => (nomatch h)⟩
    simp only [Prod.mk.injEq, true_and] at he
    subst he
    rcases Store.C45_atomic hF h1 h2 op hr ho with q | q
    · exact ⟨dead, .crash op h1 hr ho, m, q, h3⟩
    · exact ⟨calm, .crash op h1 hr ho, _, q, h4⟩

/-- Writing entries. -/
theorem Sim.write {P : Persist → Prop} (hF : F.supported) (op : Op) (g : Persist → Persist) (evs : List Ctap.Ev)
    (h : ∀ m p, Holds m p → P p → Holds (op.apply m) (g p)) :
    Sim F P (onStore (op.run F)) (writeP g evs) fun _ _ p' => ∃ p, P p ∧ p' = g p := by
  intro x t hx hp
  obtain ⟨h1, m, h2, h3⟩ := hx
  obtain ⟨q1, q2, q3, q4⟩ := write_at hF op g evs h1 h2 h3 (h m t.p h3 hp) rfl
  refine ⟨fun a x' e => ?_, q2, q3, q4⟩
  obtain ⟨o, b, t', e1, e2, e3⟩ := q1 a x' e
  exact ⟨o, b, t', e1, e2, t.p, hp, e3⟩

end Verif.Disk
