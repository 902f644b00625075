import Verif.Ctap.Alive

/-!
# Frame predicates: a part of the state keeps its value
-/
namespace Verif.Ctap
set_option linter.unusedSectionVars false
variable [Dev]

/-- The client PIN data is `c`. -/
def KeepPin (c : ClientPin) (s : St) : Prop := s.v.pin = c

section
variable (c : ClientPin)
instance : SEnv (KeepPin c) := ⟨fun _ _ _ _ h => h⟩
instance (P : Oracle → Prop) : SOra P (KeepPin c) := ⟨fun _ _ _ h => h⟩
stable_instances (KeepPin c) under SMaster SCreds SMinPin SRpIds SForce SEp SAlwaysUv SLargeBlob SU2f SSp SLb SPin SRetries
  SPresence SCompare SIssued SConsumed SU2fPrompt SU2fConsume SU2fTouch SCounterEv SCounter SErase
end

/-- The persistent data is `p`. -/
def KeepP (p : Persist) (s : St) : Prop := s.p = p

section
variable (p : Persist)
instance : SEnv (KeepP p) := ⟨fun _ _ _ _ h => h⟩
instance (P : Oracle → Prop) : SOra P (KeepP p) := ⟨fun _ _ _ h => h⟩
stable_instances (KeepP p) under STok SMis SKeys SU2f SSp SLb SPresence SCompare SIssued SConsumed SU2fPrompt SU2fConsume
  SU2fTouch SCounterEv SBoot
end

/-- The persistent data is `p`, up to the master keys. -/
def KeepPM (p : Persist) (s : St) : Prop := ∃ x, s.p = { p with master := x }

section
variable (p : Persist)
instance : SEnv (KeepPM p) := ⟨fun _ _ _ _ h => h⟩
instance (P : Oracle → Prop) : SOra P (KeepPM p) := ⟨fun _ _ _ h => h⟩
stable_instances (KeepPM p) under STok SMis SKeys SU2f SSp SLb SPresence SCompare SIssued SConsumed SU2fPrompt SU2fConsume
  SU2fTouch SCounterEv SBoot
instance : SMaster (KeepPM p) := ⟨by rintro s x ⟨y, h⟩; exact ⟨some x.1, by simp [h]⟩⟩
end

/-- The volatile data is `v`. -/
def KeepV (v : Vol) (s : St) : Prop := s.v = v

section
variable (v : Vol)
instance : SEnv (KeepV v) := ⟨fun _ _ _ _ h => h⟩
instance (P : Oracle → Prop) : SOra P (KeepV v) := ⟨fun _ _ _ h => h⟩
stable_instances (KeepV v) under SMaster SCreds SMinPin SRpIds SForce SEp SAlwaysUv SLargeBlob SPin SRetries
  SPresence SCompare SIssued SConsumed SU2fPrompt SU2fConsume SU2fTouch SCounterEv SCounter SErase
end

/-- The history is `l`. -/
def KeepLog (l : List Ev) (s : St) : Prop := s.log = l

section
variable (l : List Ev)
instance : SEnv (KeepLog l) := ⟨fun _ _ _ _ h => h⟩
instance (P : Oracle → Prop) : SOra P (KeepLog l) := ⟨fun _ _ _ h => h⟩
stable_instances (KeepLog l) under SMaster SCreds SMinPin SRpIds SForce SEp SAlwaysUv SLargeBlob STok SMis SKeys SU2f SSp
  SLb SPin SRetries
end

/-- The clock shows at least `t`, the oracle is `o`. -/
def KeepEnv (t : Nat) (o : Oracle) (s : St) : Prop := t ≤ s.env.now ∧ s.env.o = o

section
variable (t : Nat) (o : Oracle)
instance : SEnv (KeepEnv t o) := ⟨fun _ _ h h' h2 => ⟨Nat.le_trans h2.1 h, h'.trans h2.2⟩⟩
stable_instances (KeepEnv t o) under SMaster SCreds SMinPin SRpIds SForce SEp SAlwaysUv SLargeBlob STok SMis SKeys SU2f SSp
  SLb SPin SRetries SPresence SCompare SIssued SConsumed SU2fPrompt SU2fConsume SU2fTouch SCounterEv SCounter SErase SBoot
end

theorem keepPin {m : M α} {s s' : St} {r : Res α} (h : m s = (r, s')) [hp : Pres (KeepPin s.v.pin) m] :
    s'.v.pin = s.v.pin := by have := hp.out s rfl; rwa [h] at this
theorem keepV {m : M α} {s s' : St} {r : Res α} (h : m s = (r, s')) [hp : Pres (KeepV s.v) m] :
    s'.v = s.v := by have := hp.out s rfl; rwa [h] at this
theorem keepP {m : M α} {s s' : St} {r : Res α} (h : m s = (r, s')) [hp : Pres (KeepP s.p) m] :
    s'.p = s.p := by have := hp.out s rfl; rwa [h] at this
theorem keepPM {m : M α} {s s' : St} {r : Res α} (h : m s = (r, s')) [hp : Pres (KeepPM s.p) m] :
    ∃ x, s'.p = { s.p with master := x } := by have := hp.out s ⟨_, rfl⟩; rwa [h] at this
theorem keepLog {m : M α} {s s' : St} {r : Res α} (h : m s = (r, s')) [hp : Pres (KeepLog s.log) m] :
    s'.log = s.log := by have := hp.out s rfl; rwa [h] at this
theorem keepEnv {m : M α} {s s' : St} {r : Res α} (h : m s = (r, s')) [hp : Pres (KeepEnv s.env.now s.env.o) m] :
    s.env.now ≤ s'.env.now ∧ s'.env.o = s.env.o := by
  have := hp.out s ⟨Nat.le_refl _, rfl⟩; rwa [h] at this

end Verif.Ctap
