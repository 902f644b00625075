import Verif.Store.FragmentLemmas

/-!
# Properties of fragmented entries: C47

The specification is in `Verif/Store/SpecFragment.lean`: what a value in fragments is (`Held`, `Fragmented`), and the contract of
the sequences of keys, which the ranges satisfy.
-/
namespace Verif.Store

variable {F : Format}

/-- The ranges of keys satisfy the contract. -/
theorem C47_range_keys (start stop : Nat) : (Keys.range start stop).Lawful := by
  intro k p
  simp only [Keys.range]
  split
  · simp only [Option.some.injEq]; omega
  · simp only [reduceCtorEq, false_iff]; omega

theorem maxValueLen_pos (hF : F.supported) : 0 < F.maxValueLen := by
  have := (sizes hF).q6
  simp only [Format.maxValueLen]
  omega

/-- Two values that are held by the same keys are the same. -/
theorem Held.frags {keys : Keys} (hl : keys.Lawful) {s : St} {m : KV} (h : Lists F s m) {o : Option Bytes} (ho : Held keys m o) :
    ∃ n hs, n ≤ keys.len ∧ (∀ p, p < keys.len → (m (keys.key p) ≠ none ↔ p < n)) ∧ Frags F keys s m n hs ∧
      o = if hs = [] then none else some (fragsOf m hs).flatten := by
  obtain ⟨n, h1, h2, h3⟩ := ho
  rcases getHandles_spec hl h with ⟨n', hs, h4, h5, h6⟩ | ⟨h4, _⟩
  · have hn : n = n' := by
      rcases Nat.lt_trichotomy n n' with h7 | h7 | h7
      · exact absurd ((h2 n (by omega)).1 ((h5 n (by omega)).2 h7)) (Nat.lt_irrefl _)
      · exact h7
      · exact absurd ((h5 n' (by omega)).1 ((h2 n' (by omega)).2 h7)) (Nat.lt_irrefl _)
    subst hn
    refine ⟨n, hs, h1, h2, h6, ?_⟩
    rw [h3, h6.eq_range]
    have : n = 0 ↔ hs = [] := by rw [← h6.length, List.length_eq_zero_iff]
    by_cases h7 : n = 0
    · rw [if_pos h7, if_pos (this.1 h7)]
    · rw [if_neg h7, if_neg (fun h8 => h7 (this.2 h8))]
  · exact absurd ⟨n, h1, h2⟩ h4

/-- **C47**, reads: a read gives the value that is held, and changes nothing. -/
theorem C47_read (hF : F.supported) {s : St} {m : KV} {keys : Keys} (hl : keys.Lawful) (h : Reach F s) (hm : Contains F s m)
    {o : Option Bytes} (ho : Held keys m o) : fragRead F keys s = (.ok o, s) := by
  obtain ⟨m', h1, h2, _⟩ := C44_reads hF h
  obtain rfl := hm.unique h1
  obtain ⟨n, hs, _, _, h3, h4⟩ := ho.frags hl h2
  unfold fragRead
  rw [ok_bind h3.eq, h4]
  by_cases h5 : hs = []
  · rw [if_pos h5, if_pos h5]; rfl
  · rw [if_neg h5, if_neg h5, ok_bind (readLoop_spec h3.value)]; rfl

/-- **C47**, ranges: reading a range gives the slice of the value, cut at its end. -/
theorem C47_read_range (hF : F.supported) {s : St} {m : KV} {keys : Keys} (hl : keys.Lawful) (h : Reach F s) (hm : Contains F s m)
    {o : Option Bytes} (ho : Held keys m o) (start stop : Nat) :
    fragReadRange F keys start stop s =
      if start ≤ stop then (.ok (o.map fun v => (v.take stop).drop start), s) else (.err .invalidArgument, s) := by
  obtain ⟨m', h1, h2, _⟩ := C44_reads hF h
  obtain rfl := hm.unique h1
  obtain ⟨n, hs, _, _, h3, h4⟩ := ho.frags hl h2
  unfold fragReadRange
  by_cases hle : start ≤ stop
  · rw [if_neg (by omega), if_pos hle, ok_bind h3.eq, h4]
    by_cases h5 : hs = []
    · rw [if_pos h5, if_pos h5]; rfl
    · rw [if_neg h5, if_neg h5, ok_bind (rangeLoop_spec h3.value)]; rfl
  · rw [if_pos (by omega), if_neg hle]; rfl

/-- **C47**, invalid sets of fragments: if a key has a value and a key before it has none, every function reports invalid storage,
and changes nothing. -/
theorem C47_invalid (hF : F.supported) {s : St} {m : KV} {keys : Keys} (hl : keys.Lawful) (h : Reach F s) (hm : Contains F s m)
    {p q : Nat} (hpq : p < q) (hq : q < keys.len) (h1 : m (keys.key p) = none) (h2 : m (keys.key q) ≠ none) (v : Bytes) {start stop : Nat}
    (hle : start ≤ stop) :
    fragRead F keys s = (.err .invalidStorage, s) ∧ fragReadRange F keys start stop s = (.err .invalidStorage, s) ∧
    fragWrite F keys v s = (.err .invalidStorage, s) ∧ fragDelete F keys s = (.err .invalidStorage, s) := by
  obtain ⟨m', h3, h4, _⟩ := C44_reads hF h
  obtain rfl := hm.unique h3
  have hg : getHandles F keys s = (.err .invalidStorage, s) := by
    rcases getHandles_spec hl h4 with ⟨n, hs, _, h5, _⟩ | ⟨_, h5⟩
    · have := (h5 q hq).1 h2
      exact absurd h1 ((h5 p (by omega)).2 (by omega))
    · exact h5
  refine ⟨?_, ?_, ?_, ?_⟩
  · unfold fragRead; rw [err_bind hg]
  · unfold fragReadRange; rw [if_neg (by omega), err_bind hg]
  · unfold fragWrite; rw [err_bind hg]
  · unfold fragDelete; rw [err_bind hg]

/-- **C47**, there are no other sets of fragments: a value is held, or a key without a value is before one with a value. -/
theorem C47_held_or_invalid (keys : Keys) (m : KV) :
    (∃ o, Held keys m o) ∨ ∃ p q, p < q ∧ q < keys.len ∧ m (keys.key p) = none ∧ m (keys.key q) ≠ none := by
  have : ∀ n, n ≤ keys.len → (∀ p, p < n → m (keys.key p) ≠ none) ∨
      ∃ k, k < n ∧ (∀ p, p < k → m (keys.key p) ≠ none) ∧ m (keys.key k) = none := by
    intro n
    induction n with
    | zero => exact fun _ => .inl (fun p hp => by omega)
    | succ n ih =>
      intro hn
      rcases ih (by omega) with h | ⟨k, h1, h2⟩
      · by_cases h1 : m (keys.key n) = none
        · exact .inr ⟨n, by omega, h, h1⟩
        · refine .inl (fun p hp => ?_)
          by_cases h2 : p = n
          · rw [h2]; exact h1
          · exact h p (by omega)
      · exact .inr ⟨k, by omega, h2⟩
  rcases this keys.len (Nat.le_refl _) with h | ⟨k, h1, h2, h3⟩
  · exact .inl ⟨_, keys.len, Nat.le_refl _, fun p hp => ⟨fun _ => hp, fun _ => h p hp⟩, rfl⟩
  · by_cases h4 : ∃ q, k < q ∧ q < keys.len ∧ m (keys.key q) ≠ none
    · obtain ⟨q, h5, h6, h7⟩ := h4
      exact .inr ⟨k, q, h5, h6, h3, h7⟩
    · refine .inl ⟨_, k, by omega, fun p hp => ⟨fun h5 => ?_, h2 p⟩, rfl⟩
      refine Classical.byContradiction fun h6 => ?_
      by_cases h7 : p = k
      · rw [h7] at h5; exact h5 h3
      · exact h4 ⟨p, by omega, hp, h5⟩

/-- **C47**, writes: after a write the keys have the fragments of the value, nothing of the value before remains, and the other
keys are unchanged; so that a read gives the value. -/
theorem C47_write (hF : F.supported) {s s' : St} {m : KV} {keys : Keys} (hl : keys.Lawful) (h : Reach F s) (hm : Contains F s m)
    {v : Bytes} (hr : fragWrite F keys v s = (.ok (), s')) :
    v.length ≤ keys.len * F.maxValueLen ∧ Reach F s' ∧
      ∃ m', Contains F s' m' ∧ Fragmented F keys m v m' ∧ Held keys m' (readsAs v) ∧ fragRead F keys s' = (.ok (readsAs v), s') := by
  obtain ⟨m', h3, h4, _⟩ := C44_reads hF h
  obtain rfl := hm.unique h3
  have hM := maxValueLen_pos hF
  rcases getHandles_spec hl h4 with ⟨n, hs, _, h5, h6⟩ | ⟨_, h5⟩
  · rcases fragWrite_spec hl hM h5 h6 v with ⟨_, h7⟩ | ⟨h7, us, h8, h9⟩
    · rw [hr] at h7; cases h7
    · rw [hr] at h8
      have h10 := C44_ok hF h hm _ h8.symm
      have h11 : Reach F s' := .ok _ h h8.symm
      exact ⟨h7, h11, _, h10.2, h9, fragmented_held hM h7 h9, C47_read hF hl h11 h10.2 (fragmented_held hM h7 h9)⟩
  · have : fragWrite F keys v s = (.err .invalidStorage, s) := by unfold fragWrite; rw [err_bind h5]
    rw [hr] at this; cases this

/-- **C47**, a write that fails changes nothing: the value is too long, the set of fragments is invalid, or the transaction that
gives the fragments is refused by the store. -/
theorem C47_write_err (hF : F.supported) {s s' : St} {m : KV} {keys : Keys} (hl : keys.Lawful) (h : Reach F s) (hm : Contains F s m)
    {v : Bytes} {e : Err} (hr : fragWrite F keys v s = (.err e, s')) :
    Reach F s' ∧ Contains F s' m ∧ ((e = .invalidArgument ∧ keys.len * F.maxValueLen < v.length) ∨
      (e = .invalidStorage ∧ ¬ ∃ o, Held keys m o) ∨
      ∃ us u, Fragmented F keys m v (m.transact us) ∧ usedLifetime F s = (.ok u, s) ∧ (Op.transaction us).Refused F m u e) := by
  obtain ⟨m', h3, h4, _⟩ := C44_reads hF h
  obtain rfl := hm.unique h3
  have hM := maxValueLen_pos hF
  rcases getHandles_spec hl h4 with ⟨n, hs, _, h5, h6⟩ | ⟨h6, h5⟩
  · rcases fragWrite_spec hl hM h5 h6 v with ⟨h8, h7⟩ | ⟨h7, us, h8, h9⟩
    · rw [hr] at h7
      obtain rfl := congrArg Prod.snd h7
      cases h7
      exact ⟨h, hm, .inl ⟨rfl, h8⟩⟩
    · rw [hr] at h8
      obtain ⟨h10, u, h11, h12⟩ := C44_err hF h hm _ h8.symm
      exact ⟨.err _ h h8.symm, h10, .inr (.inr ⟨us, u, h9, h11, h12⟩)⟩
  · have h7 : fragWrite F keys v s = (.err .invalidStorage, s) := by unfold fragWrite; rw [err_bind h5]
    rw [hr] at h7
    obtain rfl := congrArg Prod.snd h7
    cases h7
    exact ⟨h, hm, .inr (.inl ⟨rfl, fun ⟨o, n, h8, h9, _⟩ => h6 ⟨n, h8, h9⟩⟩)⟩

/-- **C47**, loss of power during a write: after the store is opened again, it has the value before or the value after. -/
theorem C47_write_atomic (hF : F.supported) {s s' s'' : St} {m : KV} {keys : Keys} (hl : keys.Lawful) (h : Reach F s) (hm : Contains F s m)
    {v : Bytes} (hr : fragWrite F keys v s = (.crash, s')) (ho : Reopen F s'.fl s'') :
    Reach F s'' ∧ (Contains F s'' m ∨ ∃ m', Contains F s'' m' ∧ Fragmented F keys m v m' ∧ fragRead F keys s'' = (.ok (readsAs v), s'')) := by
  obtain ⟨m', h3, h4, _⟩ := C44_reads hF h
  obtain rfl := hm.unique h3
  have hM := maxValueLen_pos hF
  rcases getHandles_spec hl h4 with ⟨n, hs, _, h5, h6⟩ | ⟨h6, h5⟩
  · rcases fragWrite_spec hl hM h5 h6 v with ⟨_, h7⟩ | ⟨h7, us, h8, h9⟩
    · rw [hr] at h7; cases h7
    · rw [hr] at h8
      have h11 : Reach F s'' := .crash _ h h8.symm ho
      refine ⟨h11, ?_⟩
      rcases C45_atomic hF h hm _ h8.symm ho with h10 | h10
      · exact .inl h10
      · exact .inr ⟨_, h10, h9, C47_read hF hl h11 h10 (fragmented_held hM h7 h9)⟩
  · have h7 : fragWrite F keys v s = (.err .invalidStorage, s) := by unfold fragWrite; rw [err_bind h5]
    rw [hr] at h7; cases h7

/-- **C47**, deletes: no key has a value, and the other keys are unchanged. -/
theorem C47_delete (hF : F.supported) {s s' : St} {m : KV} {keys : Keys} (hl : keys.Lawful) (h : Reach F s) (hm : Contains F s m)
    (hr : fragDelete F keys s = (.ok (), s')) :
    Reach F s' ∧ ∃ m', Contains F s' m' ∧ Fragmented F keys m [] m' ∧ fragRead F keys s' = (.ok none, s') := by
  obtain ⟨m', h3, h4, _⟩ := C44_reads hF h
  obtain rfl := hm.unique h3
  have hM := maxValueLen_pos hF
  rcases getHandles_spec hl h4 with ⟨n, hs, hn, h5, h6⟩ | ⟨_, h5⟩
  · obtain ⟨us, h8, h9⟩ := fragDelete_spec hn h5 h6
    rw [hr] at h8
    have h10 := C44_ok hF h hm _ h8.symm
    have h11 : Reach F s' := .ok _ h h8.symm
    exact ⟨h11, _, h10.2, h9, C47_read hF hl h11 h10.2 (fragmented_held hM (by simp) h9)⟩
  · have : fragDelete F keys s = (.err .invalidStorage, s) := by unfold fragDelete; rw [err_bind h5]
    rw [hr] at this; cases this

/-! ## Examples

Three keys in a store of four pages of 16 words; a fragment has at most 52 bytes. -/

/-- Four pages of 16 words. -/
def fragFormat : Format := ⟨16, 4, 10⟩

/-- The value of the examples. -/
def demoValue : Bytes := (List.range 55).map UInt8.ofNat

/-- The store with this value. -/
def demoFrag : St := (fragWrite fragFormat (.range 5 8) demoValue (opened fragFormat blankFlash 0 powered).2).2

/-- C47: a value in two fragments is written and read back; a slice across the fragments; then it is replaced by a shorter one, and
the second key has no value any more. -/
example : fragFormat.maxValueLen = 52 ∧
    (fragWrite fragFormat (.range 5 8) demoValue (opened fragFormat blankFlash 0 powered).2).1 = .ok () ∧
    (fragRead fragFormat (.range 5 8) demoFrag).1 = .ok (some demoValue) ∧
    (fragReadRange fragFormat (.range 5 8) 51 60 demoFrag).1 = .ok (some [51, 52, 53, 54]) ∧
    (find fragFormat 6 demoFrag).1 = .ok (some [52, 53, 54]) ∧
    (fragRead fragFormat (.range 5 8) (fragWrite fragFormat (.range 5 8) [1] demoFrag).2).1 = .ok (some [1]) ∧
    (find fragFormat 6 (fragWrite fragFormat (.range 5 8) [1] demoFrag).2).1 = .ok none ∧
    (fragRead fragFormat (.range 5 8) (fragWrite fragFormat (.range 5 8) [] demoFrag).2).1 = .ok none ∧
    (fragRead fragFormat (.range 5 8) (fragDelete fragFormat (.range 5 8) demoFrag).2).1 = .ok none := by decide +kernel

/-- C47: the second key has a value and the first one has none; a value is too long. -/
example : (fragRead smallFormat (.range 5 8) (calls smallFormat (demo powered) [.insert 6 [1]])).1 = .err .invalidStorage ∧
    (fragWrite fragFormat (.range 5 6) demoValue demoFrag).1 = .err .invalidArgument := by decide +kernel

end Verif.Store
