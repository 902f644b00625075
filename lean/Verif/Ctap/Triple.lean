import Verif.Ctap.Frame

/-!
# Hoare triples for computations

`Tri P m Q E`: from a state with `P`, a successful run of `m` ends with `Q`, any other run ends with `E`.
-/
namespace Verif.Ctap

def Tri (P : St → Prop) (m : M α) (Q : α → St → Prop) (E : St → Prop) : Prop :=
  ∀ s, P s → (∀ a s', m s = (.ok a, s') → Q a s') ∧ ((∀ a s', m s ≠ (.ok a, s')) → E (m s).2)

namespace Tri
variable {P P' E E' : St → Prop} {m : M α} {f : α → M β} {Q Q' : α → St → Prop} {R : β → St → Prop}

theorem bind (h1 : Tri P m Q E) (h2 : ∀ a, Tri (Q a) (f a) R E) : Tri P (m >>= f) R E := by
  intro s hs
  obtain ⟨ha, hb⟩ := h1 s hs
  simp only [bind_def, M.bind]
  rcases h : m s with ⟨r, s1⟩
  rw [h] at ha hb
  cases r with
  | ok a => exact h2 a s1 (ha a s1 rfl)
  | err e => exact ⟨by simp, fun _ => hb (by simp)⟩
  | panic => exact ⟨by simp, fun _ => hb (by simp)⟩
  | crash => exact ⟨by simp, fun _ => hb (by simp)⟩

theorem mk (h : ∀ s, P s → E (m s).2) (h1 : ∀ s a s', P s → m s = (.ok a, s') → Q a s') : Tri P m Q E :=
  fun s hs => ⟨fun a s' hm => h1 s a s' hs hm, fun _ => h s hs⟩

theorem pure {a : α} (h : ∀ s, P s → Q a s) : Tri P (M.pure a) Q E :=
  fun s hs => ⟨by rintro _ _ h1; rw [pure_ok] at h1; obtain ⟨rfl, rfl⟩ := h1; exact h s hs,
    fun h1 => absurd rfl (h1 a s)⟩

theorem fail {e : Status} (h : ∀ s, P s → E s) : Tri P (fail e : M α) Q E :=
  fun s hs => ⟨by rintro _ _ h1; rw [fail_ok] at h1; exact h1.elim, fun _ => h s hs⟩

theorem conseq (h : Tri P' m Q' E') (hP : ∀ s, P s → P' s) (hQ : ∀ a s, Q' a s → Q a s) (hE : ∀ s, E' s → E s) :
    Tri P m Q E :=
  fun s hs => ⟨fun a s' hm => hQ _ _ ((h s (hP s hs)).1 a s' hm), fun hn => hE _ ((h s (hP s hs)).2 hn)⟩

theorem pre (h : Tri P' m Q E) (hP : ∀ s, P s → P' s) : Tri P m Q E := h.conseq hP (fun _ _ => id) (fun _ => id)
theorem post (h : Tri P m Q' E) (hQ : ∀ a s, Q' a s → Q a s) : Tri P m Q E := h.conseq (fun _ => id) hQ (fun _ => id)
theorem exc (h : Tri P m Q E') (hE : ∀ s, E' s → E s) : Tri P m Q E := h.conseq (fun _ => id) (fun _ _ => id) hE

/-- A preserved predicate, with the value described by the success case. -/
theorem of_pres (h : Pres P m) (hE : ∀ s, P s → E s) (hQ : ∀ s a s', P s → m s = (.ok a, s') → P s' → Q a s') :
    Tri P m Q E :=
  fun s hs => ⟨fun a s' hm => hQ s a s' hs hm (by have := h.out s hs; rwa [hm] at this), fun _ => hE _ (h.out s hs)⟩

/-- The state after any run, when both postconditions imply `I`. -/
theorem snd {I : St → Prop} (h : Tri P m Q E) (hQ : ∀ a s, Q a s → I s) (hE : ∀ s, E s → I s) (s : St) (hs : P s) :
    I (m s).2 := by
  obtain ⟨h1, h2⟩ := h s hs
  rcases hm : m s with ⟨r, s1⟩
  rw [hm] at h1 h2
  cases r with
  | ok a => exact hQ a _ (h1 a _ rfl)
  | _ => exact hE _ (h2 (by simp))

theorem toPres {I : St → Prop} (h : Tri I m (fun _ => I) I) : Pres I m :=
  ⟨h.snd (fun _ _ => id) (fun _ => id)⟩

theorem ofPres {I : St → Prop} (h : Pres I m) : Tri I m (fun _ => I) I := of_pres h (fun _ => id) fun _ _ _ _ _ => id

theorem guardE {c : Bool} {e : Status} {Q : Unit → St → Prop} (h : ∀ s, P s → E s) (h1 : ∀ s, c = true → P s → Q () s) :
    Tri P (guardE c e) Q E :=
  mk (fun s hs => by cases c <;> exact h s hs)
    (fun s a s' hs hm => by obtain ⟨hc, rfl⟩ := guardE_ok.1 hm; exact h1 _ hc hs)

theorem req {o : Option α} {e : Status} (h : ∀ s, P s → E s) (h1 : ∀ s a, o = some a → P s → Q a s) :
    Tri P (req o e) Q E :=
  mk (fun s hs => by cases o <;> exact h s hs)
    (fun s a s' hs hm => by obtain ⟨hc, rfl⟩ := req_ok.1 hm; exact h1 _ _ hc hs)

theorem liftE {x : Except Status α} (h : ∀ s, P s → E s) (h1 : ∀ s a, x = .ok a → P s → Q a s) :
    Tri P (liftE x) Q E :=
  mk (fun s hs => by cases x <;> exact h s hs)
    (fun s a s' hs hm => by obtain ⟨hc, rfl⟩ := liftE_ok.1 hm; exact h1 _ _ hc hs)

theorem getV {Q : Vol → St → Prop} (h : ∀ s, P s → Q s.v s) : Tri P getV Q E :=
  fun s hs => ⟨by rintro _ _ h1; rw [getV_ok] at h1; obtain ⟨rfl, rfl⟩ := h1; exact h _ hs,
    fun h1 => absurd rfl (h1 s.v s)⟩

theorem clock {Q : Nat → St → Prop} (h : ∀ s, P s → Q s.env.now s) : Tri P clock Q E :=
  fun s hs => ⟨by rintro _ _ h1; rw [clock_ok] at h1; obtain ⟨rfl, rfl⟩ := h1; exact h _ hs,
    fun h1 => absurd rfl (h1 s.env.now s)⟩

theorem modV {f : Vol → Vol} {Q : Unit → St → Prop} (h : ∀ s, P s → Q () { s with v := f s.v }) :
    Tri P (modV f) Q E :=
  fun s hs => ⟨by rintro _ _ h1; rw [modV_ok] at h1; obtain rfl := h1; exact h _ hs,
    fun h1 => absurd rfl (h1 () _)⟩

theorem logE {e : Ev} {Q : Unit → St → Prop} (h : ∀ s, P s → Q () { s with log := e :: s.log }) :
    Tri P (logE e) Q E :=
  fun s hs => ⟨by rintro _ _ h1; rw [logE_ok] at h1; obtain rfl := h1; exact h _ hs,
    fun h1 => absurd rfl (h1 () _)⟩

theorem readP [hE : SEnv P] {Q : Persist → St → Prop} (h : ∀ s, P s → E s) (h1 : ∀ s, P s → Q s.p s) :
    Tri P readP (fun p s => P s ∧ p = s.p ∧ Q p s) E := by
  refine of_pres inferInstance h fun s a s' hs hm hs' => ?_
  obtain ⟨rfl, rfl⟩ := readP_ok hm
  exact ⟨hs', rfl, h1 _ hs'⟩

theorem rng [hE : SEnv P] {n : Nat} (h : ∀ s, P s → E s) :
    Tri P (rng n) (fun b s => P s ∧ b.length = n) E :=
  of_pres inferInstance h fun _ _ _ _ hm hs' => ⟨hs', rng_length hm⟩

theorem writeP [hE : SEnv P] {g : Persist → Persist} {evs : List Ev} {Q : Unit → St → Prop} [hQ : SEnv (Q ())]
    (h : ∀ s, P s → E s) (h1 : ∀ s, P s → Q () { s with p := g s.p, log := evs ++ s.log })
    (h2 : ∀ s, Q () s → E s) : Tri P (writeP g evs) Q E := by
  refine mk (fun s hs => ?_) fun s a s' hs hm => ?_
  · rcases writeP_snd g evs s with h' | h' <;> rw [h']
    · exact h _ (hE.out s _ (next_now_le _) rfl hs)
    · exact h2 _ (hQ.out _ _ (next_now_le _) rfl (h1 s hs))
  · rw [writeP_ok hm]
    exact hQ.out { s with p := g s.p, log := evs ++ s.log } _ (next_now_le _) rfl (h1 s hs)

/-- Reading a part of the persistent data. -/
theorem read {P : St → Prop} [SEnv P] {g : Persist → α} :
    Tri P (do let p ← Verif.Ctap.readP; M.pure (g p)) (fun a s => P s ∧ a = g s.p) P :=
  (Tri.readP (Q := fun _ _ => True) (fun _ h => h) fun _ _ => trivial).bind fun p =>
    Tri.pure fun s h => ⟨h.1, by rw [h.2.1]⟩

theorem whenM {c : Bool} {m : M Unit} {Q : Unit → St → Prop} (h : c = true → Tri P m Q E)
    (h1 : c = false → ∀ s, P s → Q () s) : Tri P (whenM c m) Q E := by
  cases c
  · exact pure (h1 rfl)
  · exact h rfl

theorem mapErr {g : Status → Status} (h : Tri P m Q E) : Tri P (mapErr g m) Q E := by
  intro s hs
  obtain ⟨h1, h2⟩ := h s hs
  refine ⟨fun a s' hm => h1 a s' (mapErr_ok.1 hm), fun hn => ?_⟩
  rw [mapErr_snd]
  exact h2 fun a s' hm => hn a s' (mapErr_ok.2 hm)

end Tri
end Verif.Ctap
