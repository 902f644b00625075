import Verif.Store.Ops

/-!
# Transactions of the store
-/
namespace Verif.Store

variable {F : Format}

/-- The entry of an update. -/
def Update.item : Update → Item
  | .insert k v => .user k v
  | .remove k => .int (.remove k)

/-- The entries of the updates that are written. -/
def Written (us : List Slot) (ups : List Update) : Prop := us.map Slot.it = ups.map Update.item

theorem Written.snoc {us : List Slot} {ups : List Update} {s : Slot} {u : Update} (h : Written us ups) (hs : s.it = u.item) :
    Written (us ++ [s]) (ups ++ [u]) := by
  unfold Written at h ⊢
  rw [List.map_append, List.map_append, h]
  simp [hs]

theorem Written.length {us : List Slot} {ups : List Update} (h : Written us ups) : us.length = ups.length := by
  have := congrArg List.length h
  simpa using this

theorem Written.keys : {us : List Slot} → {ups : List Update} → Written us ups → us.map Slot.key = ups.map Update.key
  | [], [], _ => rfl
  | s :: us, u :: ups, h => by
    have h1 : s.it = u.item := (List.cons.inj h).1
    have h2 : Written us ups := (List.cons.inj h).2
    have h3 : s.key = u.key := by cases u <;> simp [Slot.key, h1, Update.item, Update.key]
    rw [List.map_cons, List.map_cons, h3, Written.keys h2]
  | [], _ :: _, h => by cases h
  | _ :: _, [], h => by cases h

theorem Written.apply : {us : List Slot} → {ups : List Update} → {m : KV} → Written us ups → applySlots us m = m.transact ups
  | [], [], _, _ => rfl
  | s :: us, u :: ups, m, h => by
    have h1 : s.it = u.item := (List.cons.inj h).1
    have h2 : Written us ups := (List.cons.inj h).2
    have ih := fun m => Written.apply (m := m) h2
    simp only [applySlots, KV.transact, List.foldl_cons] at ih ⊢
    rw [← ih]
    congr 1
    cases u <;> simp [h1, Update.item, KV.update]
  | [], _ :: _, _, h => by cases h
  | _ :: _, [], _, h => by cases h

theorem Written.upd {us : List Slot} {ups : List Update} (h : Written us ups) : ∀ s ∈ us, Upd s := by
  intro s hs
  have : s.it ∈ ups.map Update.item := by rw [← h]; exact List.mem_map.2 ⟨s, hs, rfl⟩
  obtain ⟨u, _, hu⟩ := List.mem_map.1 this
  cases u with
  | insert k v => exact .inl ⟨k, v, hu.symm⟩
  | remove k => exact .inr ⟨k, hu.symm⟩

/-- The words of updates. -/
def upsSize (ups : List Update) : Nat := (ups.map Update.capacity).sum

section
variable {g : Geo} {s1 : List Slot} {mk : Slot} {n t : Nat} {m : KV} {st : St}

/-- The state while the updates of a transaction are written. -/
structure Writing (F : Format) (fl : Flash) (g : Geo) (s1 : List Slot) (mk : Slot) (us : List Slot) (done rest : List Update) (t c : Nat) (m : KV) : Prop where
  log : Log F fl g (s1 ++ mk :: us) t c t
  it : mk.it = .int (.marker (done.length + rest.length))
  n0 : done.length + rest.length ≠ 0
  w : g.w = erasedWord
  items : ∀ s ∈ s1, UP s
  wr : Written us done
  nodup : ((done ++ rest).map Update.key).Nodup
  holds : Holds s1 m
  live : live (s1 ++ mk :: us) + upsSize rest ≤ F.C
  room : t + upsSize rest ≤ g.h + F.V
  valid : ∀ u ∈ rest, updateValid F u = true

variable {us : List Slot} {done rest : List Update} {c : Nat}

theorem Writing.trans (hF : Sizes F) (h : Writing F st.fl g s1 mk us done rest t c m) {fl' : Flash} {c' e : Nat}
    (L : Log F fl' g (s1 ++ mk :: us) t c' e) (hT : TornTail F fl' t e) (he : e ≤ g.h + F.V) :
    Trans F fl' g s1 mk (done.length + rest.length) [] us t c' e m := by
  have hl := h.live
  refine ⟨by rw [List.nil_append]; exact L, hT, h.it, h.n0, h.w, h.items, by simp, h.wr.upd, ?_, by simp, h.holds, ?_⟩
  · rw [h.wr.keys]
    have := h.nodup
    rw [List.map_append, List.nodup_append] at this
    exact this.1
  · rw [List.nil_append]
    exact Cap.reset hF (by omega) L.hM (Nat.le_trans L.chain.le L.te) he

/-- What is stored if power is lost while the updates are written. -/
theorem Writing.down (hF : Sizes F) (h : Writing F st.fl g s1 mk us done rest t c m) {fl' : Flash} {c' e : Nat}
    (L : Log F fl' g (s1 ++ mk :: us) t c' e) (hT : TornTail F fl' t e) (he : e ≤ g.h + F.V) (hr : rest = [] → e = t) :
    Down F fl' m ∨ Down F fl' (m.transact (done ++ rest)) := by
  have hTr := h.trans hF L hT he
  have hlen := h.wr.length
  cases rest with
  | nil =>
    have := hr rfl
    subst this
    right; right
    refine .commit hTr (by rw [hlen]; simp) ?_
    rw [h.wr.apply, List.append_nil]
  | cons u rest =>
    left; right
    exact .rollback hTr (.inr (by rw [hlen]; simp))

theorem Writing.step (h : Writing F st.fl g s1 mk us done (u :: rest) t c m) {fl' : Flash} {s : Slot} {c' : Nat} (hs : s.it = u.item)
    (hsz : s.q - s.p ≤ u.capacity) (hq : s.q = t + u.capacity) (L : Log F fl' g (s1 ++ mk :: us ++ [s]) s.q c' s.q) :
    Writing F fl' g s1 mk (us ++ [s]) (done ++ [u]) rest s.q c' m := by
  have e1 : (done ++ [u]).length + rest.length = done.length + (u :: rest).length := by simp; omega
  have e2 : s1 ++ mk :: us ++ [s] = s1 ++ mk :: (us ++ [s]) := by simp
  have hu : upsSize (u :: rest) = u.capacity + upsSize rest := by simp [upsSize]
  have hl := h.live
  have hr := h.room
  rw [hu] at hl hr
  refine ⟨by rw [← e2]; exact L, by rw [e1]; exact h.it, by rw [e1]; exact h.n0, h.w, h.items, h.wr.snoc hs, by simpa using h.nodup, h.holds, ?_, by omega,
    fun u' hu' => h.valid u' (List.mem_cons_of_mem _ hu')⟩
  rw [← e2, live_append]
  have : Store.live [s] = s.live := by simp [Store.live]
  have h2 := s.live_le
  omega

/-- Writing an entry, and completing it. -/
theorem writeUpdate_tri (hF : Sizes F) {u : Update} (h : Writing F st.fl g s1 mk us done (u :: rest) t t m) {α : Type} {f : Nat → M α}
    {P : α → St → Prop} {E : Err → St → Prop} {C : Flash → Prop}
    (hC : ∀ fl', Down F fl' m ∨ Down F fl' (m.transact (done ++ u :: rest)) → C fl')
    (hP : ∀ st' s, s.it = u.item → s.p = t → s.q = t + u.capacity → st'.head = st.head → st'.entries = st.entries →
      Writing F st'.fl g s1 mk (us ++ [s]) (done ++ [u]) rest s.q t m → Tri (f (u.capacity - 1)) st' P E C) :
    Tri (writeUpdate F t u >>= f) st P E C := by
  have hM := h.log.hM
  have hwn := hF.wn
  have hvv := hF.v
  have hr := h.room
  have hu : upsSize (u :: rest) = u.capacity + upsSize rest := by simp [upsSize]
  have hval := h.valid u (by simp)
  have htorn : ∀ fl' e' q, Log F fl' g (s1 ++ mk :: us) t t e' → TornTail F fl' t e' → e' ≤ q → q ≤ g.h + F.V → C fl' := fun fl' e' q L hT h1 h2 =>
    hC fl' (h.down hF L hT (by omega) (fun h => by cases h))
  apply tri_bind
  cases u with
  | insert k v =>
    have hk : k ≤ maxKey ∧ v.length ≤ F.maxValueLen := by simpa [updateValid] using hval
    have hcap : (Update.insert k v).capacity = 1 + bytesToWords v.length := rfl
    rw [hcap] at hu hP
    obtain ⟨_, _, hbu, _⟩ := userWords_spec hF hk.1 hk.2
    have hl := userWords_length hF hk.1 hk.2
    have hdone : ∀ fl', Log F fl' g (s1 ++ mk :: us ++ [⟨t, t + 1 + bytesToWords v.length, .user k v⟩]) (t + 1 + bytesToWords v.length) t
          (t + 1 + bytesToWords v.length) →
        Writing F fl' g s1 mk (us ++ [⟨t, t + 1 + bytesToWords v.length, .user k v⟩]) (done ++ [.insert k v]) rest (t + 1 + bytesToWords v.length) t m :=
      fun fl' L => h.step (s := ⟨t, t + 1 + bytesToWords v.length, .user k v⟩) rfl (by simp only [hcap]; omega) (by simp only [hcap]; omega) L
    apply tri_bind
    refine tri_liftE hbu ?_
    apply tri_bind
    refine tri_fls (h.log.writeUser hF hk.1 hk.2 (by omega)) ?_ ?_
    · intro _ st' e1 e2 L
      refine tri_pure ?_
      rw [hl]
      exact hP st' ⟨t, t + 1 + bytesToWords v.length, .user k v⟩ rfl rfl (by simp only; omega) e1 e2 (hdone _ L)
    · rintro fl' (⟨e', L, hT, hle⟩ | L)
      · exact htorn fl' e' _ L hT hle (by omega)
      · refine hC fl' ?_
        have hW := hdone fl' L
        have := Writing.down (st := { st with fl := fl' }) hF hW hW.log (.none rfl) (by have := hW.room; omega) (fun _ => rfl)
        rw [List.append_assoc] at this
        exact this
  | remove k =>
    have hk : k ≤ maxKey := by simpa [updateValid] using hval
    have hin : (Internal.remove k).InRange F := decide_eq_false (by omega)
    have hcap : (Update.remove k).capacity = 1 := rfl
    rw [hcap] at hu hP
    have hdone : ∀ fl', Log F fl' g (s1 ++ mk :: us ++ [⟨t, t + 1, .int (.remove k)⟩]) (t + 1) t (t + 1) →
        Writing F fl' g s1 mk (us ++ [⟨t, t + 1, .int (.remove k)⟩]) (done ++ [.remove k]) rest (t + 1) t m :=
      fun fl' L => h.step (s := ⟨t, t + 1, .int (.remove k)⟩) rfl (by simp only [hcap]; omega) (by simp only [hcap]) L
    apply tri_bind
    refine tri_liftE (intWord_spec hF hin).1 ?_
    apply tri_bind
    refine tri_fls (h.log.writeInt hF hin (by omega)) ?_ ?_
    · intro _ st' e1 e2 L
      refine tri_pure ?_
      exact hP st' ⟨t, t + 1, .int (.remove k)⟩ rfl rfl (by simp only) e1 e2 (hdone _ L)
    · rintro fl' (⟨e', L, hT, hle⟩ | L)
      · exact htorn fl' e' _ L hT hle (by omega)
      · refine hC fl' ?_
        have hW := hdone fl' L
        have := Writing.down (st := { st with fl := fl' }) hF hW hW.log (.none rfl) (by have := hW.room; omega) (fun _ => rfl)
        rw [List.append_assoc] at this
        exact this

theorem writeUpdates_tri (hF : Sizes F) : (rest : List Update) → ∀ (done : List Update) (us : List Slot) (t : Nat) (st : St),
    Writing F st.fl g s1 mk us done rest t t m →
    Tri (writeUpdates F t rest) st
      (fun _ st' => st'.head = st.head ∧ st'.entries = st.entries ∧ ∃ us' t', Writing F st'.fl g s1 mk us' (done ++ rest) [] t' t' m)
      (fun _ _ => False)
      (fun fl' => Down F fl' m ∨ Down F fl' (m.transact (done ++ rest)))
  | [], done, us, t, st, h => tri_pure ⟨rfl, rfl, us, t, by rw [List.append_nil]; exact h⟩
  | u :: rest, done, us, t, st, h => by
    have hpos : 1 ≤ u.capacity := by cases u <;> simp [Update.capacity, entrySize]
    refine writeUpdate_tri hF h (fun fl' h => h) ?_
    intro st1 s hs hp hq e1 e2 h1
    apply tri_bind
    have hg : s.it ≠ .gap := by rw [hs]; cases u <;> simp [Update.item]
    have e : s1 ++ mk :: (us ++ [s]) = (s1 ++ mk :: us) ++ [s] := by simp
    have L1 := h1.log
    rw [e] at L1
    have hil := L1.initLast hF hg
    rw [hp, hq, show t + u.capacity - t - 1 = u.capacity - 1 by omega, ← hq] at hil
    refine tri_fls hil ?_ ?_
    · intro _ st2 e3 e4 L2
      rw [← e] at L2
      have h2 : Writing F st2.fl g s1 mk (us ++ [s]) (done ++ [u]) rest s.q s.q m :=
        ⟨L2, h1.it, h1.n0, h1.w, h1.items, h1.wr, h1.nodup, h1.holds, h1.live, h1.room, h1.valid⟩
      have ih := writeUpdates_tri hF rest (done ++ [u]) (us ++ [s]) s.q st2 h2
      rw [show t + 1 + (u.capacity - 1) = s.q by omega]
      rw [List.append_assoc] at ih
      refine tri_mono ih ?_ (fun _ _ h => h) (fun _ h => h)
      rintro _ st3 ⟨h3, h4, h5⟩
      exact ⟨h3.trans (e3.trans e1), h4.trans (e4.trans e2), h5⟩
    · intro fl' L2
      rw [← e] at L2
      have := h1.down hF L2 (.none rfl) (by have := h1.room; omega) (fun _ => rfl)
      rw [List.append_assoc] at this
      exact this

theorem transactionMany_tri (hF : Sizes F) {slots : List Slot} (h : Good F st.fl g slots t m) (hE : Ents st g slots) (ups : List Update)
    (h2 : ups ≠ []) (hc : transactionCapacity ups = 1 + upsSize ups) :
    Tri (transactionMany F ups) st
      (fun _ st' => transactionValid F ups = true ∧ Ready F st' (m.transact ups))
      (fun e st' => ((e = .invalidArgument ∧ transactionValid F ups = false) ∨ Full F m t (transactionCapacity ups) e) ∧ Ready F st' m)
      (fun fl' => Down F fl' m ∨ Down F fl' (m.transact ups)) := by
  unfold transactionMany
  split
  · rename_i hbad
    exact tri_fail ⟨.inl ⟨rfl, hbad⟩, g, slots, t, h, hE⟩
  · rename_i hok
    have hval : transactionValid F ups = true := by simpa using hok
    have hval' := hval
    simp only [transactionValid, Bool.and_eq_true, decide_eq_true_eq, List.all_eq_true] at hval'
    obtain ⟨⟨hv1, hv2⟩, hv3⟩ := hval'
    have hlen0 : ups.length ≠ 0 := fun h => h2 (List.length_eq_zero_iff.1 h)
    apply tri_bind
    refine tri_mono (reserve_tri hF h hE (by omega)) ?_ (fun _ _ h => ⟨.inr h.1, h.2⟩) (fun _ h => .inl h)
    rintro _ st1 ⟨hcap, g', slots', t', h1, hE1, hroom⟩
    rw [hc] at hcap hroom
    have hM := h1.log.hM
    have hlb := h1.log.hb
    have hle := h1.log.chain.le
    have hwn := hF.wn
    have hvv := hF.v
    have hin : (Internal.marker ups.length).InRange F := decide_eq_false (by omega)
    apply tri_bind
    refine const_tri (h1.tail hF) ?_
    apply tri_bind
    refine tri_liftE (intWord_spec hF hin).1 ?_
    apply tri_bind
    have hW : ∀ fl' c, Log F fl' g' (slots' ++ [⟨t', t' + 1, .int (.marker ups.length)⟩]) (t' + 1) c (t' + 1) →
        Writing F fl' g' slots' ⟨t', t' + 1, .int (.marker ups.length)⟩ [] [] ups (t' + 1) c m := by
      intro fl' c L
      refine ⟨L, by simp, by simpa using h2, h1.w, h1.items, rfl, by simpa using hv3, h1.holds, ?_, by omega, hv2⟩
      have e1 : live [⟨t', t' + 1, Item.int (.marker ups.length)⟩] = 0 := rfl
      have e2 := h1.live_used
      rw [live_append, e1, e2]
      omega
    have hdown : ∀ fl' c, Log F fl' g' (slots' ++ [⟨t', t' + 1, .int (.marker ups.length)⟩]) (t' + 1) c (t' + 1) →
        Down F fl' m ∨ Down F fl' (m.transact ups) := fun fl' c L =>
      Writing.down (st := { st with fl := fl' }) hF (hW fl' c L) L (.none rfl) (by omega) (fun _ => rfl)
    refine tri_fls (h1.log.writeInt hF hin (by omega)) ?_ ?_
    · intro _ st2 e1 e2 L2
      apply tri_bind
      have hil := L2.initLast hF (by simp)
      simp only at hil
      rw [show t' + (t' + 1 - t' - 1) = t' by omega] at hil
      refine tri_fls hil ?_ (fun fl' L => hdown fl' _ L)
      intro _ st3 e3 e4 L3
      apply tri_bind
      refine tri_mono (writeUpdates_tri hF ups [] [] (t' + 1) st3 (hW _ _ L3)) ?_ (fun _ _ h => h.elim) (fun _ h => h)
      rintro _ st4 ⟨e5, e6, us, t'', h4⟩
      rw [List.nil_append] at h4
      have hTr := h4.trans hF h4.log (.none rfl) (by have := h4.room; omega)
      have hlen := h4.wr.length
      have hE4 : Ents st4 g' slots' := hE1.congr (e5.trans (e3.trans e1)) (e6.trans (e4.trans e2)) rfl
      refine tri_mono (transactionApply_tri hF hTr (by rw [hlen]; simp) hE4 h4.wr.keys.symm) ?_ (fun _ _ h => h.elim) ?_
      · rintro _ st5 ⟨sl, h5, h6⟩
        rw [h4.wr.apply] at h5
        exact ⟨hval, g', sl, _, h5, h6⟩
      · intro fl' h5
        rw [h4.wr.apply] at h5
        exact .inr (.inr h5)
    · rintro fl' (⟨e', L, hT, hle'⟩ | L)
      · exact .inl (.inr (h1.plain hF L hT hle' (by omega)))
      · exact hdown fl' _ L

/-! ## All the operations -/

theorem transactionValid_iff (ups : List Update) : transactionValid F ups = true ↔ (Op.transaction ups).valid F := by
  have h1 : ∀ u, updateValid F u = true ↔ (u.key ≤ maxKey ∧ ∀ k v, u = .insert k v → v.length ≤ F.maxValueLen) := by
    intro u
    cases u with
    | insert k v => simp [updateValid, Update.key]
    | remove k => simp [updateValid, Update.key]
  simp only [transactionValid, Op.valid, Bool.and_eq_true, decide_eq_true_eq, List.all_eq_true, h1, and_assoc]

/-- Every operation gives the map that it should, or fails for a documented reason and leaves the map as it is; and if power is lost during
the operation, the storage has the map before or after it. -/
theorem run_tri (hF : Sizes F) {slots : List Slot} (h : Good F st.fl g slots t m) (hE : Ents st g slots) (op : Op) :
    Tri (op.run F) st
      (fun _ st' => op.valid F ∧ Ready F st' (op.apply m))
      (fun e st' => ((e = .invalidArgument ∧ ¬ op.valid F) ∨ Full F m t op.capacity e) ∧ Ready F st' m)
      (fun fl' => Down F fl' m ∨ Down F fl' (op.apply m)) := by
  cases op with
  | insert k v => exact insert_tri hF h hE k v
  | remove k =>
    exact tri_mono (remove_tri hF h hE k) (fun _ _ h => h) (fun _ _ h => ⟨.inl h.1, h.2⟩) (fun _ h => h)
  | clear mk => exact clear_tri hF h hE mk
  | prepare n =>
    exact tri_mono (prepare_tri hF h hE n) (fun _ _ h => ⟨trivial, h⟩) (fun _ _ h => ⟨.inr h.1, h.2⟩) (fun _ h => .inl h)
  | transaction ups =>
    have many : ups ≠ [] → transactionCapacity ups = 1 + upsSize ups → Tri (transactionMany F ups) st
      (fun _ st' => (Op.transaction ups).valid F ∧ Ready F st' ((Op.transaction ups).apply m))
      (fun e st' => ((e = .invalidArgument ∧ ¬ (Op.transaction ups).valid F) ∨ Full F m t (Op.transaction ups).capacity e) ∧ Ready F st' m)
      (fun fl' => Down F fl' m ∨ Down F fl' ((Op.transaction ups).apply m)) := fun h1 h2 => by
      refine tri_mono (transactionMany_tri hF h hE ups h1 h2) (fun _ _ h => ⟨(transactionValid_iff ups).1 h.1, h.2⟩) ?_ (fun _ h => h)
      rintro e st' ⟨h3, h4⟩
      refine ⟨?_, h4⟩
      rcases h3 with ⟨h3, h5⟩ | h3
      · exact .inl ⟨h3, fun h => by rw [(transactionValid_iff ups).2 h] at h5; cases h5⟩
      · exact .inr h3
    match ups, many with
    | [], _ =>
      exact tri_pure ⟨⟨by simp, by simp, by simp⟩, g, slots, t, h, hE⟩
    | [.insert k v], _ =>
      have hv : (k ≤ maxKey ∧ v.length ≤ F.maxValueLen) ↔ (Op.transaction [.insert k v]).valid F := by
        simp [Op.valid, maxUpdates, Update.key]
      refine tri_mono (insert_tri hF h hE k v) (fun _ _ h => ⟨hv.1 h.1, h.2⟩) ?_ (fun _ h => h)
      rintro e st' ⟨h3, h4⟩
      refine ⟨?_, h4⟩
      rcases h3 with ⟨h3, h5⟩ | h3
      · exact .inl ⟨h3, fun h => h5 (hv.2 h)⟩
      · exact .inr h3
    | [.remove k], _ =>
      have hv : k ≤ maxKey ↔ (Op.transaction [.remove k]).valid F := by
        simp [Op.valid, maxUpdates, Update.key]
      refine tri_mono (remove_tri hF h hE k) (fun _ _ h => ⟨hv.1 h.1, h.2⟩) ?_ (fun _ h => h)
      rintro e st' ⟨⟨h3, h5⟩, h4⟩
      exact ⟨.inl ⟨h3, fun h => h5 (hv.2 h)⟩, h4⟩
    | u1 :: u2 :: us, many =>
      have hc : transactionCapacity (u1 :: u2 :: us) = 1 + upsSize (u1 :: u2 :: us) := by cases u1 <;> rfl
      have := many (by simp) hc
      cases u1 <;> exact this

end
end Verif.Store
