import Verif.Store.States

/-!
# The end of a transaction
-/
namespace Verif.Store

variable {F : Format}

/-- One update. -/
def Slot.step (s : Slot) (m : KV) : KV :=
  match s.it with
  | .user k v => m.put k (some v)
  | .int (.remove k) => m.put k none
  | _ => m

theorem applySlots_cons (s : Slot) (us : List Slot) (m : KV) : applySlots (s :: us) m = applySlots us (s.step m) := rfl

theorem Upd.step {s : Slot} (h : Upd s) (m : KV) : ∃ o, s.step m = m.put s.key o := by
  rcases h with ⟨k, v, h⟩ | ⟨k, h⟩
  · exact ⟨some v, by simp [Slot.step, Slot.key, h]⟩
  · exact ⟨none, by simp [Slot.step, Slot.key, h]⟩

theorem Upd.step_congr {s : Slot} (h : Upd s) (m m' : KV) (k : Nat) (hk : k ≠ s.key → m k = m' k) : s.step m k = s.step m' k := by
  rcases h with ⟨k', v, h⟩ | ⟨k', h⟩
  all_goals
    simp only [Slot.step, Slot.key, h, KV.put] at hk ⊢
    split
    · rfl
    · rename_i h1; exact hk h1

theorem applySlots_congr : {us : List Slot} → (∀ s ∈ us, Upd s) → {m m' : KV} → (∀ k, k ∉ us.map Slot.key → m k = m' k) →
    applySlots us m = applySlots us m'
  | [], _, _, _, h => funext fun k => h k (by simp)
  | s :: us, hu, m, m', h => by
    rw [applySlots_cons, applySlots_cons]
    refine applySlots_congr (fun s' hs' => hu s' (List.mem_cons_of_mem _ hs')) (fun k hk => ?_)
    exact (hu s (by simp)).step_congr m m' k (fun h1 => h k (by simp only [List.map_cons, List.mem_cons, not_or]; exact ⟨h1, hk⟩))

theorem put_none {m : KV} {k : Nat} (h : m k = none) : m.put k none = m := by
  funext k'
  unfold KV.put
  split
  · rename_i h1; rw [h1, h]
  · rfl

theorem Holds.updates : {us : List Slot} → (∀ s ∈ us, Upd s) → (us.map Slot.key).Nodup → {slots : List Slot} → {m : KV} → Holds slots m →
    (∀ s ∈ us, m s.key = none) → Holds (slots ++ us) (applySlots us m)
  | [], _, _, slots, m, h, _ => by rw [List.append_nil]; exact h
  | s :: us, hu, hk, slots, m, h, hn => by
    rw [applySlots_cons, show slots ++ s :: us = (slots ++ [s]) ++ us by simp]
    rw [List.map_cons, List.nodup_cons] at hk
    have hkn := hn s (by simp)
    have hs : Holds (slots ++ [s]) (s.step m) := by
      rcases hu s (by simp) with ⟨k, v, h1⟩ | ⟨k, h1⟩
      · simp only [Slot.key, h1] at hkn
        simp only [Slot.step, h1]
        exact h.insert h1 hkn
      · simp only [Slot.key, h1] at hkn
        simp only [Slot.step, h1]
        rw [put_none hkn]
        exact h.append_pads (by simp [uents, Slot.ent, h1])
    refine Holds.updates (fun s' hs' => hu s' (List.mem_cons_of_mem _ hs')) hk.2 hs (fun s' hs' => ?_)
    obtain ⟨o, ho⟩ := (hu s (by simp)).step m
    rw [ho, KV.put, if_neg]
    · exact hn s' (List.mem_cons_of_mem _ hs')
    · intro e
      exact hk.1 (List.mem_map.2 ⟨s', hs', e⟩)

theorem padAt_mid {fl : Flash} {a b : List Slot} {s : Slot} {p t : Nat} (hc : Chain F fl p (a ++ s :: b) t) :
    padAt (a ++ s :: b) s.p = a ++ s.pad :: b := by
  obtain ⟨x, h1, h2⟩ := hc.of_append
  have hx := h2.1
  have hsz := h2.2.1.size
  have e1 : padAt a s.p = a := padAt_nop (fun s' hs' => by have := h1.mem s' hs'; omega)
  have e2 : padAt b s.p = b := padAt_nop (fun s' hs' => by have := h2.2.2.mem s' hs'; omega)
  have : padAt (a ++ s :: b) s.p = padAt a s.p ++ (if s.p = s.p then { s with it := .pad } else s) :: padAt b s.p := by simp [padAt]
  rw [this, e1, e2, if_pos rfl]; rfl

theorem upos_pad (s : Slot) : s.pad.upos = none := rfl

/-- Adding the entry to the list. -/
theorem Ents.push {st : St} {g : Geo} {pre : List Slot} {s : Slot} {k : Nat} {v : Bytes} (h : Ents st g pre) (hi : s.it = .user k v) (hg : g.h ≤ s.p) :
    Ents { st with entries := st.entries.map (· ++ [s.p - g.h]) } g (pre ++ [s]) := by
  obtain ⟨h1, es, h2, h3⟩ := h
  refine ⟨h1, es ++ [s.p - g.h], by rw [h2]; rfl, ?_⟩
  have hup : upos (pre ++ [s]) = upos pre ++ [s.p] := by rw [upos_append]; simp [upos, Slot.upos, hi]
  rw [hup, List.map_append]
  refine h3.append ?_
  rw [List.map_cons, List.map_nil, show g.h + (s.p - g.h) = s.p by omega]

theorem Ents.skip {st : St} {g : Geo} {pre : List Slot} {s : Slot} (h : Ents st g pre) (hi : ∀ k v, s.it ≠ .user k v) : Ents st g (pre ++ [s]) :=
  h.congr rfl rfl (by rw [upos_append, upos_none (slots := [s]) (fun s' hs' => by
    have : s' = s := by simpa using hs'
    rw [this]; exact hi), List.append_nil])

theorem applyLoop_tri (hF : Sizes F) {g : Geo} {t stop : Nat} (h1 : t + 1 ≤ stop) (h2 : t + F.M ≤ g.b * F.Q + F.N * F.Q) (hW : t < g.h + F.W) :
    (fuel : Nat) → (us : List Slot) → (pre : List Slot) → (p : Nat) → (st : St) → stop - p ≤ fuel → Log F st.fl g (pre ++ us) t t t →
    Chain F st.fl g.h pre p → (∀ s ∈ us, Upd s) → Ents st g pre →
    Tri (applyLoop F stop fuel p) st
      (fun _ st' => ∃ us', Pads Rm us us' ∧ Log F st'.fl g (pre ++ us') t t t ∧ (∀ s ∈ us', UP s) ∧ Ents st' g (pre ++ us'))
      (fun _ _ => False)
      (fun fl' => ∃ us', Pads Rm us us' ∧ Log F fl' g (pre ++ us') t t t)
  | 0, us, pre, p, st, hf, L, hp, _, _ => by
    have := hp.le
    obtain ⟨x, h3, h4⟩ := L.chain.of_append
    have : x = p := by
      have e1 : ∀ {l : List Slot} {a x y : Nat}, Chain F st.fl a l x → Chain F st.fl a l y → x = y := by
        intro l
        induction l with
        | nil => intro a x y ha hb; exact ha.symm.trans hb
        | cons s l ih => intro a x y ha hb; exact ih ha.2.2 hb.2.2
      exact e1 h3 hp
    subst this
    have := h4.le
    omega
  | fuel + 1, us, pre, p, st, hf, L, hp, hu, hE => by
    obtain ⟨x, h3, h4⟩ := L.chain.of_append
    have : x = p := by
      have e1 : ∀ {l : List Slot} {a x y : Nat}, Chain F st.fl a l x → Chain F st.fl a l y → x = y := by
        intro l
        induction l with
        | nil => intro a x y ha hb; exact ha.symm.trans hb
        | cons s l ih => intro a x y ha hb; exact ih ha.2.2 hb.2.2
      exact e1 h3 hp
    subst this
    have hle := h4.le
    have hge := h3.le
    simp only [applyLoop]
    rw [if_pos (by omega)]
    apply tri_bind
    apply tri_bind
    refine tri_getFl ?_
    cases us with
    | nil =>
      have hpt : x = t := h4
      subst hpt
      refine tri_liftE (L.parse_end hF h2) ?_
      refine tri_pure ⟨[], trivial, L, by simp, ?_⟩
      rw [List.append_nil]; exact hE
    | cons s us =>
      have hsp : s.p = x := h4.1
      have hsz := h4.2.1.size
      have hlt := h4.2.2.le
      rcases hu s (by simp) with ⟨k, v, hi⟩ | ⟨k, hi⟩
      · have hit := h4.2.1
        rw [hi] at hit
        obtain ⟨hd, hpar, _⟩ := parse_user hF hit
        rw [hsp] at hpar
        refine tri_liftE hpar ?_
        apply tri_bind
        have hwn := hF.nq
        have hww := hF.wn
        refine tri_pushEntry (h := g.h) hE.1 (by omega) (by omega) ?_
        have ih := applyLoop_tri hF h1 h2 hW fuel us (pre ++ [s]) s.q { st with entries := st.entries.map (· ++ [x - g.h]) } (by omega)
          (by show Log F st.fl g _ t t t; rw [List.append_assoc]; exact L) (hp.append ⟨hsp, h4.2.1, rfl⟩)
          (fun s' hs' => hu s' (List.mem_cons_of_mem _ hs')) (by rw [← hsp]; exact hE.push hi (by omega))
        refine tri_mono ih ?_ (fun _ _ h => h) ?_
        · rintro _ st' ⟨us', i1, i2, i3, i4⟩
          rw [List.append_assoc] at i2 i4
          refine ⟨s :: us', ⟨.inl rfl, i1⟩, i2, ?_, i4⟩
          intro s' hs'
          rcases List.mem_cons.1 hs' with h5 | h5
          · rw [h5]; exact UP.user hi
          · exact i3 s' h5
        · rintro fl' ⟨us', i1, i2⟩
          rw [List.append_assoc] at i2
          exact ⟨s :: us', ⟨.inl rfl, i1⟩, i2⟩
      · have hit := h4.2.1
        rw [hi] at hit
        have hpar := parse_int hF hit
        rw [hsp] at hpar
        refine tri_liftE hpar ?_
        apply tri_bind
        have hset := L.setPadding hF (s := s) (by simp) hi
        rw [padAt_mid L.chain, hsp] at hset
        refine tri_fls hset ?_ ?_
        · rintro _ st1 e1 e2 ⟨hfr, L1⟩
          have L1' : Log F st1.fl g ((pre ++ [s.pad]) ++ us) t t t := by rw [List.append_assoc]; exact L1
          obtain ⟨y, h5, h6⟩ := L1'.chain.of_append
          have hy : y = s.q := by
            have hc5 := h5.of_append
            obtain ⟨z, _, h7⟩ := hc5
            have : s.pad.q = y := h7.2.2
            exact this.symm
          subst hy
          have ih := applyLoop_tri hF h1 h2 hW fuel us (pre ++ [s.pad]) s.q st1 (by omega) L1' h5
            (fun s' hs' => hu s' (List.mem_cons_of_mem _ hs'))
            ((hE.skip (s := s.pad) (by simp [Slot.pad])).congr e1 e2 rfl)
          refine tri_mono ih ?_ (fun _ _ h => h) ?_
          · rintro _ st' ⟨us', i1, i2, i3, i4⟩
            rw [List.append_assoc] at i2 i4
            refine ⟨s.pad :: us', ⟨.inr ⟨⟨k, hi⟩, rfl⟩, i1⟩, i2, ?_, i4⟩
            intro s' hs'
            rcases List.mem_cons.1 hs' with h5 | h5
            · rw [h5]; exact UP.pad rfl
            · exact i3 s' h5
          · rintro fl' ⟨us', i1, i2⟩
            rw [List.append_assoc] at i2
            exact ⟨s.pad :: us', ⟨.inr ⟨⟨k, hi⟩, rfl⟩, i1⟩, i2⟩
        · rintro fl' ⟨_, L1 | L1⟩
          · exact ⟨s :: us, Pads.refl _, L1⟩
          · exact ⟨s.pad :: us, ⟨.inr ⟨⟨k, hi⟩, rfl⟩, Pads.refl _⟩, L1⟩

/-- `transaction_apply`. -/
theorem transactionApply_tri (hF : Sizes F) {st : St} {g : Geo} {s1 : List Slot} {mk : Slot} {n : Nat} {us : List Slot} {t : Nat} {m1 : KV}
    (h : Trans F st.fl g s1 mk n [] us t t t m1) (hn : us.length = n) (hE : Ents st g s1) {keys : List Nat} (hkeys : keys = us.map Slot.key) :
    Tri (transactionApply F keys mk.p) st
      (fun _ st' => ∃ slots, Good F st'.fl g slots t (applySlots us m1) ∧ Ents st' g slots)
      (fun _ _ => False)
      (fun fl' => Live F fl' (applySlots us m1)) := by
  have L := h.log
  rw [List.nil_append] at L
  have hcap := h.cap
  rw [List.nil_append] at hcap
  have hbd := hcap.bound hF L.hM
  have hmq := hF.mq
  obtain ⟨x, hc1, hc2⟩ := L.chain.of_append
  have hx : mk.p = x := hc2.1
  subst hx
  have hg1 := hc1.le
  have hI := hc2.2.1
  have hsz := hI.size
  rw [h.it] at hI
  have hq := hI.2.2
  have hus := hc2.2.2
  have husle := hus.le
  -- the map after the deletions
  have hagree : ∀ s1', Pads (Del (fun k => keys.contains k) mk.p) s1 s1' →
      ∃ m', Holds s1' m' ∧ applySlots us m1 = applySlots us m' := by
    intro s1' h5
    obtain ⟨m', h6, h7⟩ := h.holds.pads h5
    refine ⟨m', h6, applySlots_congr h.upds (fun k hk => (h7 k ?_).symm)⟩
    cases hd : keys.contains k with
    | false => rfl
    | true =>
      rw [hkeys] at hd
      exact absurd (List.contains_iff_mem.1 hd) hk
  have hcommit : ∀ fl' s1', Pads (Del (fun k => keys.contains k) mk.p) s1 s1' → Log F fl' g (s1' ++ mk :: us) t t t →
      Live F fl' (applySlots us m1) := by
    intro fl' s1' h5 L'
    obtain ⟨m', h6, h7⟩ := hagree s1' h5
    exact .commit (g := g) (s1 := s1') (mk := mk) (n := n) (us := us) (t := t) (c := t) (m1 := m')
      ⟨L', .none rfl, h.it, h.n0, h.w, UP.pads h5 h.items, h.pads, h.upds, h.keys, fun h => absurd rfl h, h6,
        hcap.pads (h5.append (Pads.refl _))⟩ hn h7
  apply tri_bind
  refine tri_mono (deleteIf_all hF L hE (fun sl hsl k v _ => ?_)) ?_ (fun _ _ h => h) ?_
  · have := hc1.mem sl hsl
    omega
  · rintro _ st1 ⟨s1', p1, L1, e1, p2⟩
    have hdone : ∀ us', Pads Rm us us' → Holds (s1' ++ mk.pad :: us') (applySlots us m1) ∧ Cap F g (s1' ++ mk.pad :: us') t := by
      intro us' hp
      constructor
      · have hH := h.holds.pads_all p1 (fun sl hsl k' v' hi => by
          cases hd : keys.contains k' with
          | false => rfl
          | true =>
            obtain ⟨s0, h6, h7⟩ := p1.mem sl hsl
            have hp0 : sl.p = s0.p := by
              rcases h7 with h7 | ⟨_, h7⟩
              · rw [h7]
              · rw [h7]; rfl
            have := hc1.mem s0 h6
            exact absurd ⟨by omega, k', v', hi, hd⟩ (p2 sl hsl))
        have hpad : Holds (s1' ++ [mk.pad]) _ := hH.append_pads (by simp [uents, Slot.ent, Slot.pad])
        have hU := hpad.updates h.upds h.keys (fun s hs => by
          rw [if_pos]
          rw [hkeys]
          exact List.contains_iff_mem.2 (List.mem_map.2 ⟨s, hs, rfl⟩))
        have e2 : applySlots us m1 = applySlots us (fun k => if keys.contains k = true then none else m1 k) := by
          refine applySlots_congr h.upds (fun k hk => ?_)
          rw [if_neg]
          intro hd
          rw [hkeys] at hd
          exact hk (List.contains_iff_mem.1 hd)
        rw [e2]
        refine hU.perm ?_
        rw [List.append_assoc, List.singleton_append]
        rw [uents_append, uents_append]
        have e3 : uents (mk.pad :: us') = uents (mk.pad :: us) := by
          have : Pads Rm (mk.pad :: us) (mk.pad :: us') := ⟨.inl rfl, hp⟩
          exact (this.uents_eq (fun s _ hr k v hi => by
            obtain ⟨k', hr⟩ := hr
            rw [hr] at hi; cases hi)).1
        rw [e3]
      · refine hcap.pads (P := fun _ => True) ?_
        exact (p1.mono (fun _ _ _ => trivial)).append ⟨.inr ⟨trivial, rfl⟩, hp.mono (fun _ _ _ => trivial)⟩
    have hplain : ∀ fl' us', Pads Rm us us' → Log F fl' g (s1' ++ mk.pad :: us') t t t → Live F fl' (applySlots us m1) := by
      intro fl' us' hp L'
      refine .plain ⟨g, _, t, t, L', h.w, .none rfl, ?_, fun _ => by omega, (hdone us' hp).1, (hdone us' hp).2⟩
      intro s hs
      rcases List.mem_append.1 hs with h5 | h5
      · exact .inl (UP.pads p1 h.items s h5)
      · rcases List.mem_cons.1 h5 with h6 | h6
        · rw [h6]; exact .inl (UP.pad rfl)
        · obtain ⟨s0, h7, h8 | ⟨_, h8⟩⟩ := hp.mem s h6
          · rw [h8]
            rcases h.upds s0 h7 with ⟨k, v, h9⟩ | h9
            · exact .inl (UP.user h9)
            · exact .inr h9
          · rw [h8]; exact .inl (UP.pad rfl)
    apply tri_bind
    have hset := L1.setPadding hF (s := mk) (by simp) h.it
    rw [padAt_mid L1.chain] at hset
    refine tri_fls hset ?_ ?_
    · rintro _ st2 e3 e4 ⟨_, L2⟩
      apply tri_bind
      refine tri_getHead (e3.trans e1.1) ?_
      have L2' : Log F st2.fl g ((s1' ++ [mk.pad]) ++ us) t t t := by rw [List.append_assoc]; exact L2
      obtain ⟨y, h5, h6⟩ := L2'.chain.of_append
      have hy : y = mk.p + 1 := by
        obtain ⟨z, _, h7⟩ := h5.of_append
        have : mk.pad.q = y := h7.2.2
        have e5 : mk.pad.q = mk.q := rfl
        omega
      subst hy
      refine tri_mono (applyLoop_tri hF hbd.1 (by omega) (by omega) _ us (s1' ++ [mk.pad]) (mk.p + 1) st2 (Nat.le_refl _) L2' h5 h.upds
        ((e1.skip (s := mk.pad) (by simp [Slot.pad])).congr e3 e4 rfl)) ?_ (fun _ _ h => h) ?_
      · rintro _ st3 ⟨us', i1, i2, i3, i4⟩
        rw [List.append_assoc] at i2 i4
        refine ⟨s1' ++ mk.pad :: us', ⟨i2, h.w, ?_, fun _ => by omega, (hdone us' i1).1, (hdone us' i1).2⟩, i4⟩
        intro s hs
        rcases List.mem_append.1 hs with h5 | h5
        · exact UP.pads p1 h.items s h5
        · rcases List.mem_cons.1 h5 with h6 | h6
          · rw [h6]; exact UP.pad rfl
          · exact i3 s h6
      · rintro fl' ⟨us', i1, i2⟩
        rw [List.append_assoc] at i2
        exact hplain fl' us' i1 i2
    · rintro fl' ⟨_, L2 | L2⟩
      · exact hcommit fl' s1' p1 L2
      · exact hplain fl' us (Pads.refl _) L2
  · rintro fl' ⟨s1', p1, L1⟩
    exact hcommit fl' s1' p1 L1

end Verif.Store
