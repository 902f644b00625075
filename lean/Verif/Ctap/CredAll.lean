import Verif.Ctap.CredLemmas

/-!
# Properties of all stored credentials
-/
namespace Verif.Ctap
set_option linter.unusedSectionVars false
variable [Dev]

/-- Properties that new credentials have and changes of the user information keep. -/
class CredProp (Q : Cred → Prop) : Prop where
  new : ∀ (a : McParams) (id sk : Bytes) (order : Nat) (lbk : Option Bytes), id.length = 32 → Q (mcCred a id sk order lbk)
  upd : ∀ (c : Cred) (n d i : Option Bytes), Q c → Q { c with userName := n, userDisplayName := d, userIcon := i }

/-- All stored credentials satisfy `Q`. -/
def AllCreds (Q : Cred → Prop) (s : St) : Prop := ∀ e ∈ s.p.creds, Q e.2

section
variable (Q : Cred → Prop)
instance : SEnv (AllCreds Q) := ⟨fun _ _ _ _ h => h⟩
instance (P : Oracle → Prop) : SOra P (AllCreds Q) := ⟨fun _ _ _ h => h⟩
stable_instances (AllCreds Q) under SMaster SMinPin SRpIds SForce SEp SAlwaysUv SLargeBlob SPin SRetries STok SMis SKeys SU2f
  SSp SLb SPresence SCompare SIssued SConsumed SU2fPrompt SU2fConsume SU2fTouch SCounterEv SBoot SCounter
instance : SErase (AllCreds Q) := ⟨fun _ h e he => h e (List.mem_filter.1 he).1⟩

variable {Q}
theorem allPut {p : Persist} {k : Nat} {c : Cred} (h : ∀ e ∈ p.creds, Q e.2) (hc : Q c) :
    ∀ e ∈ (p.putCred k c).creds, Q e.2 := by
  intro e he
  simp only [Persist.putCred, List.mem_cons, List.mem_filter] at he
  rcases he with rfl | he
  · exact hc
  · exact h e he.1

theorem presPut {c : Cred} (hc : Q c) (k : Nat) : Pres (AllCreds Q) (writeP fun p => p.putCred k c) :=
  presWriteP fun _ h => allPut h hc

theorem allStore {c : Cred} (hc : Q c) : Pres (AllCreds Q) (storeCredential c) := by
  have := presPut hc
  unfold storeCredential; pres

instance (id : Bytes) : Pres (AllCreds Q) (deleteCredential id) := by
  have (k : Nat) : Pres (AllCreds Q) (writeP fun p => p.delCred k) :=
    presWriteP fun _ h e he => h e (List.mem_filter.1 he).1
  unfold deleteCredential; pres

variable [hQ : CredProp Q]

instance (id : Bytes) (a b c : Option Bytes) : Pres (AllCreds Q) (updateCredential id a b c) := by
  unfold updateCredential
  refine Pres.bind' inferInstance fun s x s1 hs hx hs1 => ?_
  obtain ⟨hf, _, _, _, _, _, he⟩ := findItem_ok hx
  have hx : Q x.2 := hs x (findItem_mem hf).1
  have := presPut (hQ.upd x.2 a b c hx)
  exact (by pres : Pres (AllCreds Q) _).out s1 hs1

instance (a : McParams) (sk : Bytes) (l : Option Bytes) : Pres (AllCreds Q) (mcCreate a sk l) := by
  unfold mcCreate
  refine Pres.iteE ?_ (by pres)
  refine Pres.bind' inferInstance fun s id s1 hs hid hs1 => ?_
  have hl := rng_length hid
  have (order : Nat) := allStore (hQ.new a id sk order l hl)
  exact (by pres : Pres (AllCreds Q) _).out s1 hs1

instance (a : McParams) (b : Bool) : Pres (AllCreds Q) (mcFinish a b) := by unfold mcFinish; pres
instance (a : McParams) : Pres (AllCreds Q) (makeCredential a) := by unfold makeCredential; pres
instance (a : CmSubParams) : Pres (AllCreds Q) (cmDelete a) := by unfold cmDelete; pres
instance (a : CmSubParams) : Pres (AllCreds Q) (cmUpdate a) := by unfold cmUpdate; pres
instance (a : CmParams) (ch : Channel) : Pres (AllCreds Q) (cmDispatch a ch) := by unfold cmDispatch; pres
instance (a : CmParams) (ch : Channel) : Pres (AllCreds Q) (credentialManagement a ch) := by
  unfold credentialManagement; pres

step_instances (AllCreds Q)

theorem allCreds_reach {P : Oracle → Prop} {b : Bool} {s : St} (h : Reach P b s) : AllCreds Q s :=
  reach_inv h fun _ _ => by simp [AllCreds]

theorem allCreds_run {P : Oracle → Prop} {b : Bool} {s0 s : St} (h : Run P s0 b s) (h0 : AllCreds Q s0) : AllCreds Q s :=
  run_inv h h0
end

/-- Stored ids have 32 bytes. -/
instance : CredProp (fun c => c.id.length = 32) := ⟨fun _ _ _ _ _ h => h, fun _ _ _ _ h => h⟩

end Verif.Ctap
