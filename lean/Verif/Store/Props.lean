import Verif.Store.Iter
import Verif.Store.PropsWord

/-!
# Properties of the store: C44, C45 and C46

The specification is in `Verif/Store/Spec.lean`: the store is a map from keys to values. The states of the store are those that
are reached from an empty storage (`Reach`), by any history of operations, each of which may succeed, fail, or be interrupted
by loss of power at any interaction with the flash, with any subset of the bits modified, also while the store is opened again.
-/
namespace Verif.Store

variable {F : Format}

/-! ## C44 -/

/-- **C44**, the beginning: a new store is empty. -/
theorem C44_new (hF : F.supported) {s : St} (h : Reopen F blankFlash s) : Contains F s fun _ => none :=
  (any_reopen (sizes hF) h any_new).contains (sizes hF)

/-- **C44**, reads: in every state, the reads give exactly the values of one map, the iterator gives exactly its entries, and the
used capacity is the size of the map, which is at most the total capacity. -/
theorem C44_reads (hF : F.supported) {s : St} (h : Reach F s) :
    ∃ m, Contains F s m ∧ Lists F s m ∧ usedCapacity F s = (.ok m.used, s) ∧ m.used ≤ F.C ∧ (∀ k, m k ≠ none → k ≤ maxKey) := by
  obtain ⟨m, g, slots, t, h1, h2⟩ := h.ready (sizes hF)
  refine ⟨m, h1.find (sizes hF) h2, h1.iter (sizes hF) h2, h1.usedCapacity (sizes hF) h2, h1.used_le, fun k hk => ?_⟩
  cases hm : m k with
  | none => exact absurd hm hk
  | some v =>
    obtain ⟨s', h3, h4⟩ := uents_mem.1 ((h1.holds.iff k v).1 hm)
    have hI := (h1.log.chain.mem s' h3).2.2.2
    rw [h4] at hI
    exact hI.1

/-- **C44**, success: an operation only succeeds with valid arguments, and then the reads give what the operation means. -/
theorem C44_ok (hF : F.supported) {s s' : St} {m : KV} (h : Reach F s) (hm : Contains F s m) (op : Op)
    (hr : op.run F s = (.ok (), s')) : op.valid F ∧ Contains F s' (op.apply m) := by
  obtain ⟨m', h1⟩ := h.ready (sizes hF)
  obtain rfl := hm.unique (h1.contains (sizes hF))
  rcases h1.run (sizes hF) hr with ⟨_, h2, h3⟩ | ⟨_, _, h2, _⟩ | ⟨h2, _⟩
  · exact ⟨h2, h3.contains (sizes hF)⟩
  · cases h2
  · cases h2

/-- **C44**, failure: an operation that fails leaves the map as it is, and it fails only for the documented reasons. -/
theorem C44_err (hF : F.supported) {s s' : St} {m : KV} {e : Err} (h : Reach F s) (hm : Contains F s m) (op : Op)
    (hr : op.run F s = (.err e, s')) : Contains F s' m ∧ ∃ u, usedLifetime F s = (.ok u, s) ∧ op.Refused F m u e := by
  obtain ⟨m', h1⟩ := h.ready (sizes hF)
  obtain rfl := hm.unique (h1.contains (sizes hF))
  rcases h1.run (sizes hF) hr with ⟨h2, _⟩ | ⟨e', u, h2, h3, h4, h5⟩ | ⟨h2, _⟩
  · cases h2
  · obtain rfl := Res.err.inj h2
    exact ⟨h5.contains (sizes hF), u, h3, h4⟩
  · cases h2

/-- **C44**: after any sequence of calls, the reads give what the calls that succeeded mean. -/
theorem C44_history (hF : F.supported) {s s' : St} {l : List (Op × Option Err)} (ht : Trace F s l s') :
    ∀ {m : KV}, Reach F s → Contains F s m → Reach F s' ∧ Contains F s' (m.replay l) := by
  induction ht with
  | nil => exact fun h hm => ⟨h, hm⟩
  | ok h h' ih => exact fun hr hm => ih (.ok _ hr h) (C44_ok hF hr hm _ h).2
  | err h h' ih => exact fun hr hm => ih (.err _ hr h) (C44_err hF hr hm _ h).1

/-! ## C45 -/

/-- **C45**: if power is lost at any point of an operation, with any subset of the bits modified, and the store is opened again,
which may also be interrupted any number of times, then its content is the one before or the one after the operation. -/
theorem C45_atomic (hF : F.supported) {s s' s'' : St} {m : KV} (h : Reach F s) (hm : Contains F s m) (op : Op)
    (hr : op.run F s = (.crash, s')) (ho : Reopen F s'.fl s'') : Contains F s'' m ∨ Contains F s'' (op.apply m) := by
  obtain ⟨m', h1⟩ := h.ready (sizes hF)
  obtain rfl := hm.unique (h1.contains (sizes hF))
  rcases h1.run (sizes hF) hr with ⟨h2, _⟩ | ⟨_, _, h2, _⟩ | ⟨_, h2 | h2⟩
  · cases h2
  · cases h2
  · exact .inl ((any_reopen (sizes hF) ho h2).contains (sizes hF))
  · exact .inr ((any_reopen (sizes hF) ho h2).contains (sizes hF))

/-- **C45**, opening: after the interruption of an operation and of any number of attempts to open the store, opening it does not
fail: it succeeds unless power is lost again. -/
theorem C45_open (hF : F.supported) {s s' : St} {fl : Flash} (h : Reach F s) (op : Op) (hr : op.run F s = (.crash, s'))
    (hi : Interrupts F s'.fl fl) (k : Nat) (o : Nat → Option Flash) :
    (∃ s'', opened F fl k o = (.ok (), s'')) ∨ ((∃ n, o n ≠ none) ∧ ∃ s'', opened F fl k o = (.crash, s'')) := by
  obtain ⟨m, h1⟩ := h.ready (sizes hF)
  have hany : ∃ m', Any F s'.fl m' := by
    rcases h1.run (sizes hF) hr with ⟨h2, _⟩ | ⟨_, _, h2, _⟩ | ⟨_, h2 | h2⟩
    · cases h2
    · cases h2
    · exact ⟨_, h2⟩
    · exact ⟨_, h2⟩
  obtain ⟨m', h2⟩ := hany
  rcases any_opened (sizes hF) (k := k) (o := o) (any_interrupts (sizes hF) hi h2) with ⟨s'', h3, _⟩ | ⟨s'', h3, _⟩
  · exact .inl ⟨s'', h3⟩
  · refine .inr ⟨Classical.byContradiction (fun hne => ?_), s'', h3⟩
    have := quiet_open (F := F) ⟨fl, none, none, k, o⟩ (fun n => Classical.byContradiction (fun h4 => hne ⟨n, h4⟩))
    unfold opened at h3
    rw [h3] at this
    exact this.1 rfl

/-- **C45**: opening an intact store again gives its content, also after interruptions. -/
theorem C45_reopen (hF : F.supported) {s s' : St} {m : KV} (h : Reach F s) (hm : Contains F s m) (ho : Reopen F s.fl s') : Contains F s' m := by
  obtain ⟨m', h1⟩ := h.ready (sizes hF)
  obtain rfl := hm.unique (h1.contains (sizes hF))
  obtain ⟨g, slots, t, h2, h3⟩ := h1
  exact (any_reopen (sizes hF) ho (.inr (.inl h2.live))).contains (sizes hF)

/-! ## C46 -/

/-- **C46**: if the capacity covers an operation with valid arguments, and two times the size of the storage is left of the
lifetime, then the operation does not fail: unless power is lost, it succeeds, and the map is the one that the operation means. -/
theorem C46_succeeds (hF : F.supported) {s : St} {m : KV} {u : Nat} (h : Reach F s) (hm : Contains F s m) (op : Op) (hv : op.valid F)
    (hc : m.used + op.capacity ≤ F.C) (hu : usedLifetime F s = (.ok u, s)) (hl : u + 2 * (F.N * F.Q) ≤ F.totalLifetime) :
    (∃ s', op.run F s = (.ok (), s') ∧ Contains F s' (op.apply m)) ∨ ((∃ n, s.o n ≠ none) ∧ ∃ s', op.run F s = (.crash, s')) := by
  rcases hr : op.run F s with ⟨r, s'⟩
  cases r with
  | ok _ => exact .inl ⟨s', rfl, (C44_ok hF h hm op hr).2⟩
  | err e =>
    exfalso
    obtain ⟨_, u', h1, h2⟩ := C44_err hF h hm op hr
    rw [hu] at h1
    obtain rfl := Res.ok.inj (congrArg Prod.fst h1)
    cases e with
    | invalidArgument => exact h2 hv
    | noCapacity => have h2 : F.C < _ := h2; omega
    | noLifetime => have h2 : F.totalLifetime < _ := h2; omega
    | _ => exact h2
  | crash =>
    refine .inr ⟨Classical.byContradiction (fun hne => ?_), s', rfl⟩
    have := quiet_run (F := F) op s (fun n => Classical.byContradiction (fun h4 => hne ⟨n, h4⟩))
    rw [hr] at this
    exact this.1 rfl

/-! ## Examples

A store of three pages of 16 words. Two values are inserted, then a transaction replaces one and removes the other; then a value
is replaced until the log is compacted to the second page. -/

/-- Three pages of 16 words: the capacity is 10 words. -/
def smallFormat : Format := ⟨16, 3, 10⟩

theorem smallFormat_supported : smallFormat.supported := by simp only [Format.supported, smallFormat]; decide

/-- The power is never lost. -/
def powered : Nat → Option Flash := fun _ => none

/-- The power is lost at interaction `n`, when half of the bits are modified. -/
def lostAt (n : Nat) : Nat → Option Flash := fun k => if k = n then some fun _ _ => 0x0F0F0F0F else none

/-- The store is opened for the first time. -/
def demo (o : Nat → Option Flash) : St := (opened smallFormat blankFlash 0 o).2

theorem demo_reach (o : Nat → Option Flash) (h : (opened smallFormat blankFlash 0 o).1 = .ok ()) : Reach smallFormat (demo o) :=
  .new (.done (k := 0) (o := o) (Prod.ext h rfl))

/-- Calls one after the other. -/
def calls (F : Format) (s : St) : List Op → St
  | [] => s
  | op :: l => calls F (op.run F s).2 l

/-- All the calls succeed. -/
def succeed (F : Format) (s : St) : List Op → Bool
  | [] => true
  | op :: l => (op.run F s).1 = .ok () && succeed F (op.run F s).2 l

theorem calls_reach {F : Format} {l : List Op} : ∀ {s : St}, Reach F s → succeed F s l = true → Reach F (calls F s l) := by
  induction l with
  | nil => exact fun h _ => h
  | cons op l ih =>
    intro s h h1
    simp only [succeed, Bool.and_eq_true, decide_eq_true_eq] at h1
    exact ih (.ok op h (Prod.ext h1.1 rfl)) h1.2

/-- The calls of the example. -/
def demoOps : List Op := [.insert 1 [7, 8, 9], .insert 2 [1, 2, 3, 4, 5]]

/-- The transaction of the example. -/
def demoTrans : Op := .transaction [.insert 1 [0xff], .remove 2]

/-- The calls that lead to a compaction. -/
def demoMore : List Op := [.insert 3 [9], .insert 3 [10], .insert 3 [11], .insert 3 [12]]

theorem demoOps_reach (o : Nat → Option Flash) (h : (opened smallFormat blankFlash 0 o).1 = .ok ())
    (h' : succeed smallFormat (demo o) demoOps = true) : Reach smallFormat (calls smallFormat (demo o) demoOps) :=
  calls_reach (demo_reach o h) h'

theorem calls_contains {F : Format} (hF : F.supported) {l : List Op} :
    ∀ {s : St} {m : KV}, Reach F s → Contains F s m → succeed F s l = true → Contains F (calls F s l) (l.foldl (fun m op => op.apply m) m) := by
  induction l with
  | nil => exact fun _ hm _ => hm
  | cons op l ih =>
    intro s m h hm h1
    simp only [succeed, Bool.and_eq_true, decide_eq_true_eq] at h1
    exact ih (.ok op h (Prod.ext h1.1 rfl)) (C44_ok hF h hm op (Prod.ext h1.1 rfl)).2 h1.2

/-- The map that the calls mean. -/
def demoMap : KV := KV.put (KV.put (fun _ => none) 1 (some [7, 8, 9])) 2 (some [1, 2, 3, 4, 5])

/-- The content of the store when the transaction is called. -/
theorem demoOps_contains (o : Nat → Option Flash) (h : (opened smallFormat blankFlash 0 o).1 = .ok ())
    (h' : succeed smallFormat (demo o) demoOps = true) :
    Contains smallFormat (calls smallFormat (demo o) demoOps)
      demoMap := by
  have h1 : Contains smallFormat (demo o) fun _ => none := C44_new smallFormat_supported (.done (k := 0) (o := o) (Prod.ext h rfl))
  have h2 := calls_contains smallFormat_supported (demo_reach o h) h1 h'
  have h3 : demoOps.foldl (fun m op => op.apply m) (fun _ => none) = demoMap := rfl
  rw [h3] at h2
  exact h2

/-- C44: all the calls succeed, the log is compacted, and the reads give the last values. -/
example : (opened smallFormat blankFlash 0 powered).1 = .ok () ∧
    succeed smallFormat (demo powered) (demoOps ++ demoTrans :: demoMore) = true ∧
    (calls smallFormat (demo powered) (demoOps ++ demoTrans :: demoMore)).head = some 14 ∧
    (find smallFormat 1 (calls smallFormat (demo powered) (demoOps ++ demoTrans :: demoMore))).1 = .ok (some [0xff]) ∧
    (find smallFormat 2 (calls smallFormat (demo powered) (demoOps ++ demoTrans :: demoMore))).1 = .ok none ∧
    (find smallFormat 3 (calls smallFormat (demo powered) (demoOps ++ demoTrans :: demoMore))).1 = .ok (some [12]) := by decide +kernel

/-- C44: calls fail for each of the documented reasons; the last one in a storage whose pages cannot be erased
after their first use. -/
example : (Op.run smallFormat (.insert 4096 []) (calls smallFormat (demo powered) demoOps)).1 = .err .invalidArgument ∧
    (Op.run smallFormat (.transaction [.remove 1, .insert 1 [2]]) (calls smallFormat (demo powered) demoOps)).1 = .err .invalidArgument ∧
    (Op.run smallFormat (.insert 3 (List.replicate 21 0)) (calls smallFormat (demo powered) demoOps)).1 = .err .noCapacity ∧
    (Op.run ⟨16, 3, 0⟩ (.prepare 6) (calls ⟨16, 3, 0⟩ (opened ⟨16, 3, 0⟩ blankFlash 0 powered).2
      (List.replicate 2 (.insert 1 (List.replicate 12 0))))).1 = .err .noLifetime := by decide +kernel

/-- C45: the transaction writes a marker, its updates, and then applies them; it is interrupted at each of its interactions. Until all the
updates are written the content is the one before, then it is the one after. -/
example : ((List.range 10).map fun n =>
      let r := demoTrans.run smallFormat (calls smallFormat (demo (lostAt (n + 5))) demoOps)
      (r.1, (find smallFormat 1 (opened smallFormat r.2.fl 0 powered).2).1, (find smallFormat 2 (opened smallFormat r.2.fl 0 powered).2).1)) =
    List.replicate 4 (.crash, .ok (some [7, 8, 9]), .ok (some [1, 2, 3, 4, 5])) ++ List.replicate 6 (.crash, .ok (some [0xff]), .ok none) := by
  decide +kernel

theorem interrupted {F : Format} {s : St} {op : Op} {o o' : Nat → Option Flash} (h1 : (op.run F s).1 = .crash)
    (h2 : (opened F (op.run F s).2.fl 0 o).1 = .crash) (h3 : (opened F (opened F (op.run F s).2.fl 0 o).2.fl 0 o').1 = .ok ()) :
    ∃ s' s'', op.run F s = (.crash, s') ∧ Reopen F s'.fl s'' :=
  ⟨_, _, Prod.ext h1 rfl, .again (k := 0) (o := o) (Prod.ext h2 rfl) (.done (k := 0) (o := o') (Prod.ext h3 rfl))⟩

/-- C45: the hypotheses of `C45_atomic` are met when the transaction is interrupted when its updates are applied, and opening
the store is interrupted once more. -/
example : ∃ s s' s'', Reach smallFormat s ∧ Contains smallFormat s demoMap ∧ demoTrans.run smallFormat s = (.crash, s') ∧
    Reopen smallFormat s'.fl s'' := by
  obtain ⟨s', s'', h1, h2⟩ := interrupted (F := smallFormat) (s := calls smallFormat (demo (lostAt 9)) demoOps) (op := demoTrans)
    (o := lostAt 1) (o' := powered) (by decide +kernel) (by decide +kernel) (by decide +kernel)
  exact ⟨_, s', s'', demoOps_reach _ (by decide +kernel) (by decide +kernel), demoOps_contains _ (by decide +kernel) (by decide +kernel),
    h1, h2⟩

/-- C46: the hypotheses of `C46_succeeds` are met 5 of 10 words are used, and the
transaction needs 4. -/
example : demoTrans.capacity = 4 ∧ smallFormat.C = 10 ∧
    (usedCapacity smallFormat (calls smallFormat (demo powered) demoOps)).1 = .ok 5 ∧
    (usedLifetime smallFormat (calls smallFormat (demo powered) demoOps)).1 = .ok 5 ∧
    5 + 2 * (smallFormat.N * smallFormat.Q) ≤ smallFormat.totalLifetime := by decide +kernel

end Verif.Store
