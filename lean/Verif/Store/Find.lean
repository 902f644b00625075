import Verif.Store.Compaction

/-!
# Reading the store: values, capacity and lifetime
-/
namespace Verif.Store

variable {F : Format}

/-- A computation that succeeds and does not modify the state. -/
theorem tri_const {α : Type} {m : M α} {s : St} {a : α} (h : Tri m s (fun a' s' => a' = a ∧ s' = s) (fun _ _ => False) (fun _ => False)) :
    m s = (.ok a, s) := by
  simp only [Tri] at h
  rcases hm : m s with ⟨r, s'⟩
  rw [hm] at h
  cases r with
  | ok a' => simp only at h; rw [h.1, h.2]
  | err e => exact h.elim
  | crash => exact h.elim

theorem const_tri {α : Type} {m : M α} {s : St} {a : α} (h : m s = (.ok a, s)) {P : α → St → Prop} {E : Err → St → Prop} {C : Flash → Prop}
    (hP : P a s) : Tri m s P E C := by
  simp only [Tri, h]; exact hP

theorem bind_okE {α β : Type} (a : α) (f : α → Except Err β) : (Except.ok a >>= f) = f a := rfl

section
variable {fl : Flash} {g : Geo} {slots : List Slot} {t : Nat} {m : KV}

theorem handleAt_user (hF : Sizes F) {s : Slot} {k : Nat} {v : Bytes} (h : ItemAt F fl s.p s.q s.it) (hi : s.it = .user k v) :
    handleAt F fl s.p = .ok ⟨k, s.p, v.length⟩ := by
  rw [hi] at h
  obtain ⟨hd, h1, h2, h3, _⟩ := parse_user hF h
  simp only [handleAt, h1, h2, h3]

/-! ## Finding a value -/

theorem findLoop_spec (hF : Sizes F) (hI : ∀ s ∈ slots, ItemAt F fl s.p s.q s.it) (key : Nat) : (es : List Nat) →
    (∀ e ∈ es, g.h + e ∈ upos slots) →
    (findLoop F fl g.h key es = .ok none ∧ ∀ s ∈ slots, ∀ v, s.it = .user key v → ∀ e ∈ es, g.h + e ≠ s.p) ∨
    ∃ s ∈ slots, ∃ v, s.it = .user key v ∧ findLoop F fl g.h key es = .ok (some ⟨key, s.p, v.length⟩)
  | [], _ => .inl ⟨rfl, fun _ _ _ _ e he => by simp at he⟩
  | e :: es, h => by
    obtain ⟨s, h1, h2, k, v, h3⟩ := upos_mem.1 (h e (by simp))
    have hh := handleAt_user hF (hI s h1) h3
    rw [h2] at hh
    by_cases hk : k = key
    · right
      subst hk
      refine ⟨s, h1, v, h3, ?_⟩
      simp only [findLoop, hh, bind_okE, if_true, h2]
    · have hl : findLoop F fl g.h key (e :: es) = findLoop F fl g.h key es := by
        simp only [findLoop, hh, bind_okE, if_neg hk]
      rcases findLoop_spec hF hI key es (fun e' he' => h e' (List.mem_cons_of_mem _ he')) with ⟨h4, h5⟩ | ⟨s', h4, v', h5, h6⟩
      · left
        refine ⟨hl.trans h4, fun s' hs' v' hi' e' he' => ?_⟩
        rcases List.mem_cons.1 he' with rfl | he'
        · intro hp
          have h6 := handleAt_user hF (hI s' hs') hi'
          rw [← hp, hh] at h6
          exact hk (congrArg Handle.key (Except.ok.inj h6))
        · exact h5 s' hs' v' hi' e' he'
      · right
        exact ⟨s', h4, v', h5, hl.trans h6⟩

/-- The store gives the values of the map. -/
theorem Good.find (hF : Sizes F) {st : St} (h : Good F st.fl g slots t m) (hE : Ents st g slots) (key : Nat) :
    Store.find F key st = (.ok (m key), st) := by
  have hI : ∀ s ∈ slots, ItemAt F st.fl s.p s.q s.it := fun s hs => (h.log.chain.mem s hs).2.2.2
  obtain ⟨hh, es, he, hp⟩ := hE
  apply tri_const
  apply tri_bind
  apply tri_bind
  refine tri_getHead hh ?_
  apply tri_bind
  refine tri_getEntries he ?_
  apply tri_bind
  refine tri_getFl ?_
  rcases findLoop_spec (g := g) hF hI key es (fun e he' => hp.mem_iff.1 (List.mem_map.2 ⟨e, he', rfl⟩)) with ⟨h4, h5⟩ | ⟨s, h4, v, h5, h6⟩
  · refine tri_liftE h4 ?_
    refine tri_pure ⟨?_, rfl⟩
    cases hm : m key with
    | none => rfl
    | some v =>
      obtain ⟨s, h6, h7⟩ := uents_mem.1 ((h.holds.iff key v).1 hm)
      obtain ⟨e, h8, h9⟩ := List.mem_map.1 (hp.mem_iff.2 (upos_mem.2 ⟨s, h6, rfl, key, v, h7⟩))
      exact absurd h9 (h5 s h6 v h7 e h8)
  · refine tri_liftE h6 ?_
    have hm : m key = some v := (h.holds.iff key v).2 (uents_mem.2 ⟨s, h4, h5⟩)
    have hI' := hI s h4
    rw [h5] at hI'
    obtain ⟨hd, e1, e2, e3, e4⟩ := parse_user hF hI'
    have hge := (h.log.chain.mem s h4).1
    apply tri_bind
    apply tri_bind
    refine tri_getHead hh ?_
    rw [if_neg (by simp only; omega)]
    apply tri_bind
    apply tri_bind
    refine tri_getFl ?_
    refine tri_liftE e1 ?_
    apply tri_bind
    refine tri_getFl ?_
    refine tri_liftE (a := v) e4 ?_
    refine tri_pure ⟨?_, rfl⟩
    rw [hm]

/-! ## Capacity -/

/-- The size of an entry, from its position. -/
def sizeAt (F : Format) (fl : Flash) (p : Nat) : Nat :=
  match handleAt F fl p with
  | .ok h => 1 + bytesToWords h.len
  | .error _ => 0

theorem usedLoop_spec (hF : Sizes F) (hI : ∀ s ∈ slots, ItemAt F fl s.p s.q s.it) : (es : List Nat) →
    (∀ e ∈ es, g.h + e ∈ upos slots) → usedLoop F fl g.h es = .ok (((es.map (g.h + ·)).map (sizeAt F fl)).sum)
  | [], _ => rfl
  | e :: es, h => by
    obtain ⟨s, h1, h2, k, v, h3⟩ := upos_mem.1 (h e (by simp))
    have hh := handleAt_user hF (hI s h1) h3
    rw [h2] at hh
    have ih := usedLoop_spec hF hI es (fun e' he' => h e' (List.mem_cons_of_mem _ he'))
    have hs : sizeAt F fl (g.h + e) = 1 + bytesToWords v.length := by simp only [sizeAt, hh]
    simp only [usedLoop, hh, ih, bind_okE, List.map_cons, List.sum_cons, hs]

theorem sizeAt_live (hF : Sizes F) : (slots : List Slot) → (∀ s ∈ slots, ItemAt F fl s.p s.q s.it) →
    ((upos slots).map (sizeAt F fl)).sum = live slots
  | [], _ => rfl
  | s :: ss, h => by
    have ih := sizeAt_live hF ss (fun s hs => h s (List.mem_cons_of_mem _ hs))
    cases hi : s.it with
    | user k v =>
      have hI := h s (by simp)
      have hh := handleAt_user hF hI hi
      rw [hi] at hI
      have hq := hI.2.2.1
      have h1 : upos (s :: ss) = s.p :: upos ss := by simp [upos, Slot.upos, hi]
      have h2 : sizeAt F fl s.p = 1 + bytesToWords v.length := by simp only [sizeAt, hh]
      have h3 : live (s :: ss) = (s.q - s.p) + live ss := by simp [live, Slot.live, hi]
      rw [h1, List.map_cons, List.sum_cons, h2, h3, ih]; omega
    | pad =>
      have h1 : upos (s :: ss) = upos ss := by simp [upos, Slot.upos, hi]
      have h3 : live (s :: ss) = live ss := by simp [live, Slot.live, hi]
      rw [h1, h3, ih]
    | int i =>
      have h1 : upos (s :: ss) = upos ss := by simp [upos, Slot.upos, hi]
      have h3 : live (s :: ss) = live ss := by simp [live, Slot.live, hi]
      rw [h1, h3, ih]
    | gap =>
      have h1 : upos (s :: ss) = upos ss := by simp [upos, Slot.upos, hi]
      have h3 : live (s :: ss) = live ss := by simp [live, Slot.live, hi]
      rw [h1, h3, ih]

theorem sum_range_update {f f' : Nat → Nat} {k : Nat} (h : ∀ k', k' ≠ k → f k' = f' k') (h0 : f' k = 0) : (n : Nat) →
    ((List.range n).map f).sum = (if k < n then f k else 0) + ((List.range n).map f').sum
  | 0 => rfl
  | n + 1 => by
    have ih := sum_range_update h h0 n
    rw [List.range_succ, List.map_append, List.map_append, List.sum_append, List.sum_append, ih]
    simp only [List.map_cons, List.map_nil, List.sum_cons, List.sum_nil]
    by_cases e : n = k
    · subst e
      rw [if_neg (by omega), if_pos (by omega), h0]; omega
    · rw [h n e]
      by_cases h1 : k < n
      · rw [if_pos h1, if_pos (by omega)]; omega
      · rw [if_neg h1, if_neg (by omega)]; omega

/-- The words of an entry. -/
def optSize (o : Option Bytes) : Nat := match o with | none => 0 | some v => 1 + (v.length + 3) / 4

theorem used_eq : (l : List (Nat × Bytes)) → (m : KV) → (l.map Prod.fst).Nodup → (∀ k v, m k = some v ↔ (k, v) ∈ l) →
    (∀ kv ∈ l, kv.1 ≤ maxKey) → m.used = usz l
  | [], m, _, h, _ => by
    have : ∀ k, m k = none := fun k => by
      cases hm : m k with
      | none => rfl
      | some v => have := (h k v).1 hm; simp at this
    unfold KV.used
    simp only [this]
    generalize List.range (maxKey + 1) = r
    induction r with
    | nil => rfl
    | cons x xs ih =>
      rw [List.map_cons, List.sum_cons, ih]
      rfl
  | (k, v) :: l, m, hn, h, hk => by
    rw [List.map_cons, List.nodup_cons] at hn
    have hmk : m k = some v := (h k v).2 (by simp)
    have hnk : ∀ v', (k, v') ∉ l := fun v' hv => hn.1 (List.mem_map.2 ⟨(k, v'), hv, rfl⟩)
    have ih := used_eq l (m.put k none) hn.2 (fun k' v' => by
      unfold KV.put
      by_cases e : k' = k
      · subst e
        rw [if_pos rfl]
        exact ⟨fun h => (by cases h), fun h => absurd h (hnk v')⟩
      · rw [if_neg e, h k' v', List.mem_cons]
        exact ⟨fun h => h.resolve_left (fun h => e (Prod.mk.inj h).1), .inr⟩) (fun kv hkv => hk kv (List.mem_cons_of_mem _ hkv))
    have hs : m.used = (if k < maxKey + 1 then optSize (m k) else 0) + (m.put k none).used :=
      sum_range_update (f := fun k => optSize (m k)) (f' := fun k' => optSize (m.put k none k')) (fun k' hk' => by simp only [KV.put, if_neg hk'])
        (by simp [KV.put, optSize]) _
    have := hk (k, v) (by simp)
    simp only at this
    rw [hs, if_pos (by omega), hmk, ih]
    simp [usz, optSize, bytesToWords]

theorem Good.live_used (h : Good F fl g slots t m) : Store.live slots = m.used := by
  rw [h.log.chain.live_eq]
  refine (used_eq _ m h.holds.nodup h.holds.iff (fun kv hkv => ?_)).symm
  obtain ⟨k, v⟩ := kv
  obtain ⟨s, h1, h2⟩ := uents_mem.1 hkv
  have hI := (h.log.chain.mem s h1).2.2.2
  rw [h2] at hI
  exact hI.1

theorem Good.used_le (h : Good F fl g slots t m) : m.used ≤ F.C := h.live_used ▸ h.cap.live

theorem Good.usedCapacity (hF : Sizes F) {st : St} (h : Good F st.fl g slots t m) (hE : Ents st g slots) :
    Store.usedCapacity F st = (.ok m.used, st) := by
  have hI : ∀ s ∈ slots, ItemAt F st.fl s.p s.q s.it := fun s hs => (h.log.chain.mem s hs).2.2.2
  obtain ⟨hh, es, he, hp⟩ := hE
  apply tri_const
  apply tri_bind
  refine tri_getHead hh ?_
  apply tri_bind
  refine tri_getEntries he ?_
  apply tri_bind
  refine tri_getFl ?_
  refine tri_liftE (usedLoop_spec hF hI es (fun e he' => hp.mem_iff.1 (List.mem_map.2 ⟨e, he', rfl⟩))) ⟨?_, rfl⟩
  rw [← h.live_used, ← sizeAt_live hF slots hI]
  exact (hp.map _).sum_nat

theorem Good.remainingCapacity (hF : Sizes F) {st : St} (h : Good F st.fl g slots t m) (hE : Ents st g slots) :
    Store.remainingCapacity F st = (.ok (F.C - m.used), st) := by
  apply tri_const
  apply tri_bind
  refine const_tri (h.usedCapacity hF hE) ?_
  rw [if_neg (by have := h.used_le; omega)]
  exact tri_pure ⟨rfl, rfl⟩

theorem Good.tail (hF : Sizes F) {st : St} (h : Good F st.fl g slots t m) : Store.getTail F st = (.ok t, st) := by
  have hb := h.cap.bound hF h.log.hM
  have hmq := hF.mq
  have ht : tailOf F st.fl = .ok t := h.log.tail hF (fun s hs => by
    rcases h.items s hs with h1 | ⟨k, v, h1⟩ <;> simp [h1]) (by omega)
  apply tri_const
  show Tri (getFl >>= fun fl => liftE (tailOf F fl)) st _ _ _
  apply tri_bind
  refine tri_getFl ?_
  exact tri_liftE ht ⟨rfl, rfl⟩

theorem Good.immediate (hF : Sizes F) {st : St} (h : Good F st.fl g slots t m) (hE : Ents st g slots) :
    Store.immediateCapacity F st = (.ok (g.h + F.V - t), st) := by
  apply tri_const
  apply tri_bind
  refine const_tri (h.tail hF) ?_
  apply tri_bind
  refine tri_getHead hE.1 ?_
  exact tri_pure ⟨rfl, rfl⟩

end
end Verif.Store
