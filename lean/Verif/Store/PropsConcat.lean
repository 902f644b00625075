import Verif.Store.ConcatLemmas
import Verif.Store.Props

/-!
# Properties of concatenated entries: C48

The specification is in `Verif/Store/SpecConcat.lean`.
-/
namespace Verif.Store

variable {F : Format}

/-- A computation that starts by reading a key. -/
theorem find_bind {α : Type} {s : St} {m : KV} (hm : Contains F s m) (key : Nat) (g : Option Bytes → M α) :
    (find F key >>= g) s = g (m key) s := by
  show M.bind (find F key) g s = _
  rw [M.bind, hm key]

/-- **C48**, the beginning: a key without a value is the empty map. -/
theorem C48_empty : Packed (fun _ => none) none := rfl

/-- **C48**, reads: they give the value of the index in the map. -/
theorem C48_read {s : St} {m : KV} {f : IMap} {key : Nat} (hm : Contains F s m) (hp : Packed f (m key)) (i : UInt8) :
    concatRead F key i s = (.ok (f i), s) := by
  unfold concatRead
  rw [find_bind hm]
  cases hk : m key with
  | none =>
    rw [hk] at hp
    have hp : f = _ := hp
    rw [hp]; rfl
  | some b =>
    rw [hk] at hp
    show liftE (concatGet b i) s = _
    rw [concatGet_pack hp]; rfl

/-- An operation on a concatenated entry does nothing, refuses a value that is too long, or inserts the new map. -/
theorem COp.run_cases {s : St} {m : KV} {f : IMap} {key : Nat} (hm : Contains F s m) (hp : Packed f (m key)) (op : COp) :
    (op.run F key s = (.ok (), s) ∧ op.apply f = f) ∨
    ((∃ i v, op = .write i v ∧ 255 < v.length) ∧ op.run F key s = (.err .invalidArgument, s)) ∨
    ∃ b, op.run F key s = Op.run F (.insert key b) s ∧ Packed (op.apply f) (some b) := by
  cases op with
  | write i v =>
    by_cases hv : 255 < v.length
    · refine .inr (.inl ⟨⟨i, v, rfl, hv⟩, ?_⟩)
      show concatWrite F key i v s = _
      rw [concatWrite, if_pos hv]; rfl
    · obtain ⟨r, b, h1, h2, h3⟩ := concatPut_pack hp i (v := v) (by omega)
      refine .inr (.inr ⟨b, ?_, h3⟩)
      show concatWrite F key i v s = Store.insert F key b s
      rw [concatWrite, if_neg hv, find_bind hm, h1]
      show (liftE (concatPut _ _ _ r) >>= _) s = _
      rw [h2]; rfl
  | delete i =>
    have hd : concatDelete F key i s = _ := find_bind hm key _
    cases hk : m key with
    | none =>
      rw [hk] at hp hd
      have hp : f = _ := hp
      refine .inl ⟨hd, funext fun j => ?_⟩
      simp [COp.apply, IMap.put, hp]
    | some b =>
      rw [hk] at hp hd
      rcases concatDrop_pack hp i with ⟨h1, h2⟩ | ⟨r, b', h1, h2, h3⟩
      · refine .inl ⟨?_, h2⟩
        show concatDelete F key i s = _
        rw [hd]
        simp only [h1]
        rfl
      · refine .inr (.inr ⟨b', ?_, h3⟩)
        show concatDelete F key i s = Store.insert F key b' s
        rw [hd]
        simp only [h1]
        show (liftE (concatDrop b r) >>= _) s = _
        rw [h2]; rfl

/-- **C48**, success: the map of the key is the one that the operation means, and the other keys are unchanged. -/
theorem C48_ok (hF : F.supported) {s s' : St} {m : KV} {f : IMap} {key : Nat} (h : Reach F s) (hm : Contains F s m)
    (hp : Packed f (m key)) (op : COp) (hr : op.run F key s = (.ok (), s')) :
    Reach F s' ∧ ∃ m', Contains F s' m' ∧ Packed (op.apply f) (m' key) ∧ ∀ k, k ≠ key → m' k = m k := by
  rcases op.run_cases hm hp with ⟨h1, h2⟩ | ⟨_, h1⟩ | ⟨b, h1, h2⟩
  · rw [hr] at h1
    obtain rfl := congrArg Prod.snd h1
    exact ⟨h, m, hm, by rw [h2]; exact hp, fun _ _ => rfl⟩
  · rw [hr] at h1; cases h1
  · rw [hr] at h1
    refine ⟨.ok _ h h1.symm, _, (C44_ok hF h hm _ h1.symm).2, ?_, fun k hk => ?_⟩
    · simpa [Op.apply, KV.put] using h2
    · simp [Op.apply, KV.put, hk]

/-- **C48**, failure: nothing changes. A value of more than 255 bytes is refused, and otherwise the store refuses to insert the
new concatenation. -/
theorem C48_err (hF : F.supported) {s s' : St} {m : KV} {f : IMap} {key : Nat} {e : Err} (h : Reach F s) (hm : Contains F s m)
    (hp : Packed f (m key)) (op : COp) (hr : op.run F key s = (.err e, s')) :
    Reach F s' ∧ Contains F s' m ∧ ((e = .invalidArgument ∧ ∃ i v, op = .write i v ∧ 255 < v.length) ∨
      ∃ b u, Packed (op.apply f) (some b) ∧ usedLifetime F s = (.ok u, s) ∧ (Op.insert key b).Refused F m u e) := by
  rcases op.run_cases hm hp with ⟨h1, h2⟩ | ⟨h2, h1⟩ | ⟨b, h1, h2⟩
  · rw [hr] at h1; cases h1
  · rw [hr] at h1
    obtain rfl := congrArg Prod.snd h1
    cases h1
    exact ⟨h, hm, .inl ⟨rfl, h2⟩⟩
  · rw [hr] at h1
    obtain ⟨h3, u, h4, h5⟩ := C44_err hF h hm _ h1.symm
    exact ⟨.err _ h h1.symm, h3, .inr ⟨b, u, h2, h4, h5⟩⟩

/-- **C48**, loss of power: after the store is opened again, the map of the key is the one before or the one after the
operation, and the other keys are unchanged. -/
theorem C48_atomic (hF : F.supported) {s s' s'' : St} {m : KV} {f : IMap} {key : Nat} (h : Reach F s) (hm : Contains F s m)
    (hp : Packed f (m key)) (op : COp) (hr : op.run F key s = (.crash, s')) (ho : Reopen F s'.fl s'') :
    Reach F s'' ∧ ∃ m', Contains F s'' m' ∧ (m' = m ∨ Packed (op.apply f) (m' key)) ∧ ∀ k, k ≠ key → m' k = m k := by
  rcases op.run_cases hm hp with ⟨h1, h2⟩ | ⟨_, h1⟩ | ⟨b, h1, h2⟩
  · rw [hr] at h1; cases h1
  · rw [hr] at h1; cases h1
  · rw [hr] at h1
    refine ⟨.crash _ h h1.symm ho, ?_⟩
    rcases C45_atomic hF h hm _ h1.symm ho with h3 | h3
    · exact ⟨m, h3, .inl rfl, fun _ _ => rfl⟩
    · refine ⟨_, h3, .inr ?_, fun k hk => ?_⟩
      · simpa [Op.apply, KV.put] using h2
      · simp [Op.apply, KV.put, hk]

/-- **C48**: after any sequence of calls on a key, every read gives the value that was last written with this index. -/
theorem C48_history (hF : F.supported) {key : Nat} {s s' : St} {l : List (COp × Option Err)} (ht : CTrace F key s l s') :
    ∀ {m : KV} {f : IMap}, Reach F s → Contains F s m → Packed f (m key) →
      (∀ i, concatRead F key i s' = (.ok (f.replay l i), s')) ∧ ∀ k, k ≠ key → find F k s' = (.ok (m k), s') := by
  induction ht with
  | nil => exact fun _ hm hp => ⟨C48_read hm hp, fun k _ => hm k⟩
  | ok h h' ih =>
    intro m f hr hm hp
    obtain ⟨h1, m', h2, h3, h4⟩ := C48_ok hF hr hm hp _ h
    obtain ⟨h5, h6⟩ := ih h1 h2 h3
    exact ⟨h5, fun k hk => by rw [h6 k hk, h4 k hk]⟩
  | err h h' ih =>
    intro m f hr hm hp
    obtain ⟨h1, h2, _⟩ := C48_err hF hr hm hp _ h
    exact ih h1 h2 hp

/-- **C48**, invalid contents: whatever the value of the key is, a read gives nothing only if it is a concatenation without the
index, gives the first value with the index, or reports invalid storage; there is no other result. -/
theorem C48_read_any {s : St} {m : KV} {key : Nat} {b : Bytes} (hm : Contains F s m) (hb : m key = some b) (i : UInt8) :
    (concatRead F key i s = (.ok none, s) ∧ ∃ l, Fits l ∧ b = pack l ∧ i ∉ l.map Prod.fst) ∨
    (∃ l v post, concatRead F key i s = (.ok (some v), s) ∧ Fits l ∧ i ∉ l.map Prod.fst ∧
      b = pack l ++ i :: UInt8.ofNat v.length :: (v ++ post) ∧ v.length ≤ 255) ∨
    (concatRead F key i s = (.err .invalidStorage, s) ∧ ¬ ∃ l, Fits l ∧ b = pack l) := by
  have hr : concatRead F key i s = liftE (concatGet b i) s := by
    unfold concatRead
    rw [find_bind hm, hb]
  rw [hr]
  have h := concatFindAt_any (i := i) (fuel := b.length + 1) (pre := []) (rest := b) (by omega)
  simp only [List.nil_append, List.length_nil] at h
  have hg : concatGet b i = (concatFind b i >>= fun r => match r with
    | none => .ok none
    | some r => sliceOf b r >>= fun v => .ok (some v)) := rfl
  rcases h with ⟨l, h1, h2, h3, h4⟩ | ⟨l, v, post, h1, h2, h3, h4, h5⟩ | ⟨h1, h2⟩
  · refine .inl ⟨?_, l, h1, h3, h2⟩
    rw [hg, concatFind, h4]; rfl
  · refine .inr (.inl ⟨l, v, post, ?_, h1, h2, h4, h3⟩)
    rw [hg, concatFind, h5]
    have h6 := sliceOf_mid (pack l ++ [i, UInt8.ofNat v.length]) v post
    have e2 : (pack l ++ [i, UInt8.ofNat v.length]).length = (pack l).length + 2 := by simp
    rw [e2] at h6
    simp only [List.append_assoc, List.cons_append, List.nil_append, ← h4] at h6
    show liftE (sliceOf b _ >>= _) s = _
    rw [h6]; rfl
  · refine .inr (.inr ⟨?_, h1⟩)
    rw [hg, concatFind, h2]; rfl

/-! ## Examples -/

/-- Calls one after the other. -/
def ccalls (F : Format) (key : Nat) (s : St) : List COp → St
  | [] => s
  | op :: l => ccalls F key (op.run F key s).2 l

/-- C48: a value is written, another one, then the first one is replaced by a longer one and by a shorter one, and the second one
is deleted. -/
example : [concatRead smallFormat 4 0 (ccalls smallFormat 4 (demo powered) [.write 0 [1, 2], .write 7 [3]]),
      concatRead smallFormat 4 0 (ccalls smallFormat 4 (demo powered) [.write 0 [1, 2], .write 7 [3], .write 0 [4, 5, 6]]),
      concatRead smallFormat 4 7 (ccalls smallFormat 4 (demo powered) [.write 0 [1, 2], .write 7 [3], .write 0 [4, 5, 6]]),
      concatRead smallFormat 4 7 (ccalls smallFormat 4 (demo powered) [.write 0 [1, 2], .write 7 [3], .write 0 [4]]),
      concatRead smallFormat 4 0 (ccalls smallFormat 4 (demo powered) [.write 0 [1, 2], .write 7 [3], .delete 7]),
      concatRead smallFormat 4 7 (ccalls smallFormat 4 (demo powered) [.write 0 [1, 2], .write 7 [3], .delete 7])].map Prod.fst =
    [.ok (some [1, 2]), .ok (some [4, 5, 6]), .ok (some [3]), .ok (some [3]), .ok (some [1, 2]), .ok none] := by decide +kernel

/-- C48: the content of the key after two writes. -/
example : (find smallFormat 4 (ccalls smallFormat 4 (demo powered) [.write 0 [1, 2], .write 7 [3]])).1 = .ok (some (pack [(0, [1, 2]), (7, [3])])) ∧
    Packed (fun i => if i = 0 then some [1, 2] else if i = 7 then some [3] else none) (some (pack [(0, [1, 2]), (7, [3])])) := by
  refine ⟨by decide +kernel, _, rfl, ?_, by decide, ?_⟩
  · unfold Fits; decide
  · intro i v
    by_cases h0 : i = 0
    · subst h0; simp [eq_comm]
    · by_cases h7 : i = 7
      · subst h7; simp [eq_comm]
      · simp [h0, h7]

/-- C48: a value that is cut is reported. -/
example : (concatRead smallFormat 4 7 (calls smallFormat (demo powered) [.insert 4 [0, 2, 1, 2, 7, 3, 0]])).1 = .err .invalidStorage ∧
    (concatRead smallFormat 4 0 (calls smallFormat (demo powered) [.insert 4 [0, 2, 1, 2, 7, 3, 0]])).1 = .ok (some [1, 2]) := by decide +kernel

end Verif.Store
