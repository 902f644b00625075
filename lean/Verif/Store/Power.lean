import Verif.Store.Spec

/-!
# Without loss of power, no operation is interrupted
-/
namespace Verif.Store

variable {F : Format}

/-- The computation is not interrupted if power is never lost. -/
def Quiet {α : Type} (m : M α) : Prop := ∀ s, (∀ n, s.o n = none) → (m s).1 ≠ .crash ∧ (m s).2.o = s.o

section
variable {α β : Type}

theorem quiet_bind {m : M α} {f : α → M β} (h1 : Quiet m) (h2 : ∀ a, Quiet (f a)) : Quiet (m >>= f) := by
  intro s ho
  have h := h1 s ho
  show (M.bind m f s).1 ≠ _ ∧ (M.bind m f s).2.o = _
  unfold M.bind
  generalize m s = r at h
  rcases r with ⟨a | e | _, s'⟩
  · have h3 := h2 a s' (fun n => by rw [h.2]; exact ho n)
    exact ⟨h3.1, h3.2.trans h.2⟩
  · exact ⟨by simp, h.2⟩
  · exact absurd rfl h.1

theorem quiet_pure (a : α) : Quiet (M.pure a) := fun _ _ => ⟨by simp [M.pure], rfl⟩
theorem quiet_fail (e : Err) : Quiet (fail (α := α) e) := fun _ _ => ⟨by simp [fail], rfl⟩
theorem quiet_liftE (e : Except Err α) : Quiet (liftE e) := by
  cases e with
  | ok a => exact quiet_pure a
  | error e => exact quiet_fail e
theorem quiet_getFl : Quiet getFl := fun _ _ => ⟨by simp [getFl], rfl⟩
theorem quiet_getHead : Quiet getHead := fun s _ => by
  unfold getHead
  split <;> exact ⟨by simp, rfl⟩
theorem quiet_getEntries : Quiet getEntries := fun s _ => by
  unfold getEntries
  split <;> exact ⟨by simp, rfl⟩
theorem quiet_setHead (h : Nat) : Quiet (setHead h) := fun _ _ => ⟨by simp [setHead], rfl⟩
theorem quiet_setEntries (es : Option (List Nat)) : Quiet (setEntries es) := fun _ _ => ⟨by simp [setEntries], rfl⟩
theorem quiet_flashWrite (page idx : Nat) (ws : List Word) : Quiet (flashWrite page idx ws) := fun s ho => by
  unfold flashWrite
  rw [ho]; exact ⟨by simp, rfl⟩
theorem quiet_flashErase (page : Nat) : Quiet (flashErase page) := fun s ho => by
  unfold flashErase
  rw [ho]; exact ⟨by simp, rfl⟩
theorem quiet_entries {f : Option (List Nat) → M α} (h : ∀ es, Quiet (f es)) : Quiet (fun s => f s.entries s) := fun s ho => h s.entries s ho

end

/-- Uses the lemmas for the parts of a computation. -/
macro "quiet" : tactic => `(tactic| repeat' (first
  | assumption
  | with_reducible exact quiet_pure _
  | with_reducible exact quiet_fail _
  | with_reducible exact quiet_liftE _
  | with_reducible exact quiet_getFl
  | with_reducible exact quiet_getHead
  | with_reducible exact quiet_getEntries
  | with_reducible exact quiet_setHead _
  | with_reducible exact quiet_setEntries _
  | with_reducible exact quiet_flashWrite _ _ _
  | with_reducible exact quiet_flashErase _
  | with_reducible refine quiet_bind ?_ (fun _ => ?_)
  | split))

theorem quiet_storageWrite (page : Nat) : (idx : Nat) → (ws : List Word) → Quiet (storageWrite page idx ws)
  | _, [] => quiet_pure _
  | idx, w :: ws => by
    have := quiet_storageWrite page (idx + 1) ws
    unfold storageWrite; quiet
theorem quiet_storageErase (page : Nat) : Quiet (storageErase F page) := by unfold storageErase; quiet
theorem quiet_writeSlice (p : Nat) (ws : List Word) : Quiet (writeSlice F p ws) := by
  have := quiet_storageWrite
  unfold writeSlice; repeat' (first | exact this _ _ _ | refine quiet_bind ?_ (fun _ => ?_) | exact quiet_pure _ | split)
theorem quiet_getTail : Quiet (getTail F) := by unfold getTail; quiet
theorem quiet_parseM (p : Nat) : Quiet (parseM F p) := by unfold parseM; quiet

/-- Uses the lemmas for the parts of a computation, given more of them. -/
syntax "quiets" "[" term,* "]" : tactic
macro_rules
  | `(tactic| quiets [$ts,*]) => `(tactic| repeat' (first
    | assumption
    $[| with_reducible exact $ts]*
    | with_reducible exact quiet_pure _
    | with_reducible exact quiet_fail _
    | with_reducible exact quiet_liftE _
    | with_reducible exact quiet_getFl
    | with_reducible exact quiet_getHead
    | with_reducible exact quiet_getEntries
    | with_reducible exact quiet_setHead _
    | with_reducible exact quiet_setEntries _
    | with_reducible exact quiet_writeSlice _ _
    | with_reducible exact quiet_storageWrite _ _ _
    | with_reducible exact quiet_storageErase _
    | with_reducible exact quiet_getTail
    | with_reducible exact quiet_parseM _
    | with_reducible refine quiet_bind ?_ (fun _ => ?_)
    | split))

theorem quiet_immediateCapacity : Quiet (immediateCapacity F) := by unfold immediateCapacity; quiets []
theorem quiet_initPageAt (p : Nat) : Quiet (initPageAt F p) := by unfold initPageAt; quiets []
theorem quiet_initPage (a b : Nat) : Quiet (initPage F a b) := by unfold initPage; quiets [quiet_initPageAt _]
theorem quiet_setPadding (p : Nat) : Quiet (setPadding F p) := by unfold setPadding; quiets []
theorem quiet_setDeleted (p : Nat) : Quiet (setDeleted F p) := by unfold setDeleted; quiets []
theorem quiet_wipeSpan (p n : Nat) : Quiet (wipeSpan F p n) := by unfold wipeSpan; quiets []
theorem quiet_deletePos (p n : Nat) : Quiet (deletePos F p n) := by unfold deletePos; quiets [quiet_setDeleted _, quiet_wipeSpan _ _]
theorem quiet_pushTo (p : Nat) (es : Option (List Nat)) : Quiet (pushTo p es) := by unfold pushTo; quiets []
theorem quiet_pushEntry (p : Nat) : Quiet (pushEntry p) := quiet_entries (quiet_pushTo p)
theorem quiet_removeFrom (p : Nat) (es : Option (List Nat)) : Quiet (removeFrom p es) := by unfold removeFrom; quiets []
theorem quiet_removeEntry (p : Nat) : Quiet (removeEntry p) := quiet_entries (quiet_removeFrom p)
theorem quiet_deleteLoop (head stop : Nat) (del : Nat → Bool) : (fuel i : Nat) → (es : List Nat) → Quiet (deleteLoop F head stop del fuel i es)
  | 0, _, _ => quiet_pure _
  | fuel + 1, i, es => by
    unfold deleteLoop; quiets [quiet_deleteLoop head stop del fuel _ _, quiet_deletePos _ _]
theorem quiet_deleteIf (stop : Nat) (del : Nat → Bool) : Quiet (deleteIf F stop del) := by unfold deleteIf; quiets [quiet_deleteLoop _ _ _ _ _ _]
theorem quiet_deleteKeys (keys : List Nat) (stop : Nat) : Quiet (deleteKeys F keys stop) := quiet_deleteIf _ _
theorem quiet_insertInit (p n key : Nat) : Quiet (insertInit F p n key) := by unfold insertInit; quiets [quiet_initPage _ _, quiet_deleteKeys _ _]
theorem quiet_rebaseEntries (h : Nat) (es : Option (List Nat)) : Quiet (rebaseEntries h es) := by unfold rebaseEntries; quiets []
theorem quiet_compactErase (p : Nat) : Quiet (compactErase F p) := by
  unfold compactErase; quiets []
  refine quiet_bind (quiet_entries (quiet_rebaseEntries _)) (fun _ => ?_)
  quiets [quiet_wipeSpan _ _, quiet_setPadding _]
theorem quiet_copyLoop (stop : Nat) : (fuel p tail : Nat) → Quiet (copyLoop F stop fuel p tail)
  | 0, _, _ => quiet_pure _
  | fuel + 1, p, tail => by
    unfold copyLoop; quiets [quiet_copyLoop stop fuel _ _, quiet_removeEntry _, quiet_pushEntry _, quiet_initPage _ _]
theorem quiet_checkTail (a b : Nat) : Quiet (checkTail a b) := by unfold checkTail; quiets []
theorem quiet_compactCopy : Quiet (compactCopy F) := by
  unfold compactCopy; quiets [quiet_checkTail _ _, quiet_copyLoop _ _ _ _, quiet_initPage _ _, quiet_compactErase _]
theorem quiet_checkLifetime (h : Nat) : Quiet (checkLifetime F h) := by unfold checkLifetime; quiets []
theorem quiet_compact : Quiet (compact F) := by unfold compact; quiets [quiet_checkLifetime _, quiet_compactCopy]
theorem quiet_usedCapacity : Quiet (usedCapacity F) := by unfold usedCapacity; quiets []
theorem quiet_remainingCapacity : Quiet (remainingCapacity F) := by unfold remainingCapacity; quiets [quiet_usedCapacity]
theorem quiet_makeRoom (n : Nat) : (fuel : Nat) → Quiet (makeRoom F n fuel)
  | 0 => quiet_fail _
  | fuel + 1 => by unfold makeRoom; quiets [quiet_makeRoom n fuel, quiet_compact, quiet_immediateCapacity]
theorem quiet_reserve (n : Nat) : Quiet (reserve F n) := by unfold reserve; quiets [quiet_remainingCapacity, quiet_makeRoom _ _]
theorem quiet_writeUser (p : Nat) (e : List Word) : Quiet (writeUser F p e) := by unfold writeUser; quiets []
theorem quiet_insert (k : Nat) (v : Bytes) : Quiet (insert F k v) := by
  unfold insert; quiets [quiet_reserve _, quiet_writeUser _ _, quiet_pushEntry _, quiet_insertInit _ _ _]
theorem quiet_remove (k : Nat) : Quiet (remove F k) := by unfold remove; quiets [quiet_deleteKeys _ _]
theorem quiet_writeUpdate (t : Nat) (u : Update) : Quiet (writeUpdate F t u) := by unfold writeUpdate; quiets [quiet_writeUser _ _]
theorem quiet_writeUpdates : (t : Nat) → (us : List Update) → Quiet (writeUpdates F t us)
  | _, [] => quiet_pure _
  | t, u :: us => by unfold writeUpdates; quiets [quiet_writeUpdates _ us, quiet_writeUpdate _ _, quiet_initPage _ _]
theorem quiet_applyLoop (stop : Nat) : (fuel p : Nat) → Quiet (applyLoop F stop fuel p)
  | 0, _ => quiet_pure _
  | fuel + 1, p => by unfold applyLoop; quiets [quiet_applyLoop stop fuel _, quiet_pushEntry _, quiet_setPadding _]
theorem quiet_transactionApply (keys : List Nat) (mk : Nat) : Quiet (transactionApply F keys mk) := by
  unfold transactionApply; quiets [quiet_deleteKeys _ _, quiet_setPadding _, quiet_applyLoop _ _ _]
theorem quiet_transactionMany (us : List Update) : Quiet (transactionMany F us) := by
  unfold transactionMany; quiets [quiet_reserve _, quiet_initPage _ _, quiet_writeUpdates _ _, quiet_transactionApply _ _]
theorem quiet_transaction (us : List Update) : Quiet (transaction F us) := by
  unfold transaction; quiets [quiet_insert _ _, quiet_remove _, quiet_transactionMany _]
theorem quiet_clearDelete (p : Nat) : Quiet (clearDelete F p) := by unfold clearDelete; quiets [quiet_initPage _ _, quiet_deleteIf _ _, quiet_setPadding _]
theorem quiet_clear (k : Nat) : Quiet (clear F k) := by unfold clear; quiets [quiet_makeRoom _ _, quiet_clearDelete _]
theorem quiet_compactIf (b : Bool) : Quiet (compactIf F b) := by unfold compactIf; quiets [quiet_compact]
theorem quiet_prepare (n : Nat) : Quiet (prepare F n) := by unfold prepare; quiets [quiet_remainingCapacity, quiet_immediateCapacity, quiet_compactIf _]

/-- Without loss of power, no operation is interrupted. -/
theorem quiet_run (op : Op) : Quiet (op.run F) := by
  cases op with
  | insert k v => exact quiet_insert k v
  | remove k => exact quiet_remove k
  | transaction us => exact quiet_transaction us
  | clear k => exact quiet_clear k
  | prepare n => exact quiet_prepare n

theorem quiet_recoverInitialize : Quiet (recoverInitialize F) := by unfold recoverInitialize; quiets []
theorem quiet_eraseFound (e : Option Nat) : Quiet (eraseFound F e) := by unfold eraseFound; quiets [quiet_compactErase _]
theorem quiet_recoverErase : Quiet (recoverErase F) := by unfold recoverErase; quiets [quiet_eraseFound _]
theorem quiet_compactFound (w : WordState Nat) : Quiet (compactFound F w) := by unfold compactFound; quiets [quiet_compact, quiet_compactCopy]
theorem quiet_recoverCompaction : Quiet (recoverCompaction F) := by unfold recoverCompaction; quiets [quiet_compactFound _]
theorem quiet_recoverWipePartly (p n : Nat) : Quiet (recoverWipePartly F p n) := by
  unfold recoverWipePartly; quiets [quiet_wipeSpan _ _, quiet_initPage _ _, quiet_setPadding _]
theorem quiet_recoverDeleteUser (p n : Nat) : Quiet (recoverDeleteUser F p n) := by unfold recoverDeleteUser; quiets [quiet_initPage _ _, quiet_deletePos _ _]
theorem quiet_initLast (p : Nat) (r : Parsed × Nat) : Quiet (initLast F p r) := by unfold initLast; quiets [quiet_initPage _ _]
theorem quiet_transactionKeys (p stop : Nat) : Quiet (transactionKeys F p stop) := by unfold transactionKeys; quiets [quiet_initLast _ _]
theorem quiet_rollbackLoop (stop : Nat) : (fuel p : Nat) → Quiet (rollbackLoop F stop fuel p)
  | 0, _ => quiet_pure _
  | fuel + 1, p => by
    unfold rollbackLoop
    quiets [quiet_rollbackLoop stop fuel _, quiet_deletePos _ _, quiet_setPadding _, quiet_recoverWipePartly _ _, quiet_recoverDeleteUser _ _]
theorem quiet_recoverTransaction (mk stop : Nat) : Quiet (recoverTransaction F mk stop) := by
  unfold recoverTransaction
  quiets [quiet_transactionKeys _ _, quiet_transactionApply _ _, quiet_rollbackLoop _ _ _, quiet_initPage _ _, quiet_setPadding _]
theorem quiet_finishInsert (p : Nat) : Quiet (finishInsert F p) := by unfold finishInsert; quiets [quiet_insertInit _ _ _]
theorem quiet_operationLoop (stop : Nat) : (fuel p prev : Nat) → Quiet (operationLoop F stop fuel p prev)
  | 0, _, _ => quiet_finishInsert _
  | fuel + 1, p, prev => by
    unfold operationLoop
    quiets [quiet_operationLoop stop fuel _ _, quiet_finishInsert _, quiet_pushEntry _, quiet_wipeSpan _ _, quiet_clearDelete _, quiet_recoverTransaction _ _,
      quiet_setPadding _, quiet_recoverWipePartly _ _, quiet_recoverDeleteUser _ _]
theorem quiet_recoverOperation : Quiet (recoverOperation F) := by unfold recoverOperation; quiets [quiet_operationLoop _ _ _ _]

theorem quiet_recover : Quiet (recover F) := by
  unfold recover; quiets [quiet_recoverInitialize, quiet_recoverErase, quiet_recoverCompaction, quiet_recoverOperation]

/-- Without loss of power, opening is not interrupted. -/
theorem quiet_open : Quiet (openStore F) := fun _ ho => quiet_recover _ ho

end Verif.Store
