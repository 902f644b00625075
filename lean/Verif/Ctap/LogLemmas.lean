import Verif.Ctap.Alive
import Verif.Ctap.GuessSpec

/-!
# The history only grows
-/
namespace Verif.Ctap
set_option linter.unusedSectionVars false
variable [Dev]

/-- The history extends `l`. -/
def Grown (l : List Ev) (s : St) : Prop := l <:+ s.log

section
variable (l : List Ev)
theorem Grown.cons {l : List Ev} {s : St} (h : Grown l s) (e : Ev) : Grown l { s with log := e :: s.log } :=
  List.IsSuffix.trans h (List.suffix_cons _ _)

instance : SEnv (Grown l) := ⟨fun _ _ _ _ h => h⟩
instance (P : Oracle → Prop) : SOra P (Grown l) := ⟨fun _ _ _ h => h⟩
stable_instances (Grown l) under SMaster SCreds SMinPin SRpIds SForce SEp SAlwaysUv SLargeBlob STok SMis SKeys SU2f SSp
  SLb SPin SRetries
instance : SPresence (Grown l) := ⟨fun _ _ h => h.cons _⟩
instance : SCompare (Grown l) := ⟨fun _ _ h => h.cons _⟩
instance : SIssued (Grown l) := ⟨fun _ _ _ _ h => h.cons _⟩
instance : SConsumed (Grown l) := ⟨fun _ h => h.cons _⟩
instance : SU2fPrompt (Grown l) := ⟨fun _ _ h => h.cons _⟩
instance : SU2fConsume (Grown l) := ⟨fun _ _ h => h.cons _⟩
instance : SU2fTouch (Grown l) := ⟨fun _ _ h => h.cons _⟩
instance : SCounterEv (Grown l) := ⟨fun _ _ _ h => h.cons _⟩
instance : SCounter (Grown l) := ⟨fun s x w h => by
  cases w
  · exact Grown.cons (s := { s with p := _ }) h _
  · exact h⟩
instance : SBoot (Grown l) := ⟨fun s v h => Grown.cons (s := { s with v := v }) h _⟩
instance : SErase (Grown l) := ⟨fun s h => Grown.cons (s := { s with p := _ }) h _⟩

step_instances (Grown l)
end

/-- The events after `l`. -/
def newEvents (l log : List Ev) : List Ev := log.take (log.length - l.length)

theorem newEvents_append (l pre : List Ev) : newEvents l (pre ++ l) = pre := by simp [newEvents]

theorem Grown.eq {l : List Ev} {s : St} (h : Grown l s) : s.log = newEvents l s.log ++ l := by
  obtain ⟨pre, hp⟩ := h
  rw [← hp, newEvents_append]

theorem grown_of_pres {l : List Ev} {m : M α} [h : Pres (Grown l) m] (s : St) (hs : s.log = l) :
    l <:+ (m s).2.log := h.out s (hs ▸ List.suffix_refl _)

theorem run_grown {P : Oracle → Prop} {b : Bool} {s0 s : St} (h : Run P s0 b s) : s0.log <:+ s.log :=
  run_inv (I := Grown s0.log) h (List.suffix_refl _)


/-- An event with `q` happened after `l`. -/
def Marked (l : List Ev) (q : Ev → Bool) (s : St) : Prop := HappenedSince l q s.log

section
variable (l : List Ev) (q : Ev → Bool)
theorem Marked.cons {l : List Ev} {q : Ev → Bool} {s : St} (h : Marked l q s) (e : Ev) :
    Marked l q { s with log := e :: s.log } := by
  obtain ⟨pre, h1, x, h2, h3⟩ := h
  exact ⟨e :: pre, by simp [h1], x, List.mem_cons_of_mem _ h2, h3⟩

theorem Marked.new {l : List Ev} {q : Ev → Bool} {s : St} (h : Grown l s) {e : Ev} (he : q e = true) :
    Marked l q { s with log := e :: s.log } := by
  obtain ⟨pre, h1⟩ := h
  exact ⟨e :: pre, by simp [h1], e, List.mem_cons_self, he⟩

instance : SEnv (Marked l q) := ⟨fun _ _ _ _ h => h⟩
instance (P : Oracle → Prop) : SOra P (Marked l q) := ⟨fun _ _ _ h => h⟩
stable_instances (Marked l q) under SMaster SCreds SMinPin SRpIds SForce SEp SAlwaysUv SLargeBlob STok SMis SKeys SU2f
  SSp SLb SPin SRetries
instance : SPresence (Marked l q) := ⟨fun _ _ h => h.cons _⟩
instance : SCompare (Marked l q) := ⟨fun _ _ h => h.cons _⟩
instance : SIssued (Marked l q) := ⟨fun _ _ _ _ h => h.cons _⟩
instance : SConsumed (Marked l q) := ⟨fun _ h => h.cons _⟩
instance : SU2fPrompt (Marked l q) := ⟨fun _ _ h => h.cons _⟩
instance : SU2fConsume (Marked l q) := ⟨fun _ _ h => h.cons _⟩
instance : SU2fTouch (Marked l q) := ⟨fun _ _ h => h.cons _⟩
instance : SCounterEv (Marked l q) := ⟨fun _ _ _ h => h.cons _⟩
instance : SCounter (Marked l q) := ⟨fun s x w h => by
  cases w
  · exact Marked.cons (s := { s with p := _ }) h _
  · exact h⟩
instance : SBoot (Marked l q) := ⟨fun s v h => Marked.cons (s := { s with v := v }) h _⟩
instance : SErase (Marked l q) := ⟨fun s h => Marked.cons (s := { s with p := _ }) h _⟩

step_instances (Marked l q)
end

/-- A predicate that needs to be preserved only until an event with `q` happens. -/
def Until (l : List Ev) (q : Ev → Bool) (K : St → Prop) (s : St) : Prop := Marked l q s ∨ (Grown l s ∧ K s)

theorem presUntil {l : List Ev} {q : Ev → Bool} {K : St → Prop} {m : M α} [h : Pres (Marked l q) m]
    [hg : Pres (Grown l) m] (hk : ∀ s, K s → K (m s).2) : Pres (Until l q K) m :=
  ⟨fun s hs => hs.elim (fun h1 => .inl (h.out s h1)) fun h1 => .inr ⟨hg.out s h1.1, hk s h1.2⟩⟩

end Verif.Ctap
