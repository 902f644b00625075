import Verif.Ctap.LogLemmas

/-!
# Predicates that hold until an event, over all runs
-/
namespace Verif.Ctap
set_option linter.unusedSectionVars false
variable [Dev]

section
variable {l : List Ev} {q : Ev → Bool} {K : St → Prop}

instance [h : SEnv K] : SEnv (Until l q K) := ⟨fun s e h1 h2 hs => hs.imp
  (fun h' => SEnv.out s e h1 h2 h') (fun h' => ⟨SEnv.out s e h1 h2 h'.1, h.out s e h1 h2 h'.2⟩)⟩
instance (P : Oracle → Prop) [h : SOra P K] : SOra P (Until l q K) := ⟨fun s o h1 hs => hs.imp
  (fun h' => SOra.out s o h1 h') (fun h' => ⟨SOra.out s o h1 h'.1, h.out s o h1 h'.2⟩)⟩

/-- The instance of `Until` for a kind of change. -/
syntax "until_instances" ident* : command
macro_rules
  | `(until_instances $[$ids:ident]*) => do
    let cmds ← ids.mapM fun (i : Lean.TSyntax `ident) => do
      let o := Lean.mkIdent (i.getId ++ `out)
      `(command| instance [h : $i K] : $i (Until l q K) := ⟨by
        first
        | exact fun s hs => hs.imp (fun h' => $o s h') (fun h' => ⟨$o s h'.1, h.out s h'.2⟩)
        | exact fun s x hs => hs.imp (fun h' => $o s x h') (fun h' => ⟨$o s x h'.1, h.out s x h'.2⟩)
        | exact fun s x y hs => hs.imp (fun h' => $o s x y h') (fun h' => ⟨$o s x y h'.1, h.out s x y h'.2⟩)
        | exact fun s x y z hs => hs.imp (fun h' => $o s x y z h') (fun h' => ⟨$o s x y z h'.1, h.out s x y z h'.2⟩)⟩)
    return Lean.mkNullNode cmds

until_instances SPresence SCompare SIssued SConsumed SU2fPrompt SU2fConsume SU2fTouch SCounterEv SMaster SCreds SCounter
  SPin SRetries SMinPin SRpIds SForce SEp SAlwaysUv SLargeBlob STok SMis SKeys SU2f SSp SLb SBoot

end

/-- A predicate that holds until user data are erased. -/
instance {l : List Ev} {K : St → Prop} : SErase (Until l Ev.isErased K) := ⟨fun s hs => .inl <| hs.elim
  (fun h => SErase.out s h) (fun h => Marked.new (s := { s with p := _ }) h.1 rfl)⟩

/-- The master keys are `mk`. -/
def MasterIs (mk : Bytes) (s : St) : Prop := s.p.master = some mk

section
variable (mk : Bytes)
instance : SEnv (MasterIs mk) := ⟨fun _ _ _ _ h => h⟩
instance (P : Oracle → Prop) : SOra P (MasterIs mk) := ⟨fun _ _ _ h => h⟩
stable_instances (MasterIs mk) under SCreds SMinPin SRpIds SForce SEp SAlwaysUv SLargeBlob SPin SRetries STok SMis SKeys SU2f
  SSp SLb SPresence SCompare SIssued SConsumed SU2fPrompt SU2fConsume SU2fTouch SCounterEv SBoot SCounter
instance : SMaster (MasterIs mk) := ⟨fun s x h => by have := x.2.2; rw [h] at this; cases this⟩

variable (l : List Ev)
set_option synthInstance.maxHeartbeats 200000 in
set_option synthInstance.maxSize 4000 in
instance (ch : Channel) (c : Command) : Pres (Until l Ev.isErased (MasterIs mk)) (fidoCommand ch c) := inferInstance

step_instances (Until l Ev.isErased (MasterIs mk))
end

/-- The master keys stay until user data are erased. -/
theorem run_master {P : Oracle → Prop} {b : Bool} {s0 s : St} {mk : Bytes} (h : Run P s0 b s) (h0 : s0.p.master = some mk)
    (hn : ¬ HappenedSince s0.log Ev.isErased s.log) : s.p.master = some mk := by
  have := run_inv (I := Until s0.log Ev.isErased (MasterIs mk)) h (.inr ⟨List.suffix_refl _, h0⟩)
  exact (this.resolve_left hn).2

end Verif.Ctap
