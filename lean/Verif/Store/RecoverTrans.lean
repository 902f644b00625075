import Verif.Store.RecoverOp

/-!
# Recovery: completing a transaction, or rolling it back
-/
namespace Verif.Store

variable {F : Format}

/-- The position of the last entry. -/
def lastPos (us : List Slot) (p : Nat) : Nat :=
  match us.getLast? with
  | some s => s.p
  | none => p

/-- Reading the keys of a transaction. -/
theorem keysLoop_spec (hF : Sizes F) {fl : Flash} {t stop : Nat} (hts : t < stop) {r : Parsed} {q' : Nat} (hend : parseEntry F fl t = .ok (r, q'))
    (hr : r = .tail ∨ r = .partly ∨ r = .partialUser) :
    (us : List Slot) → (p prev : Nat) → (keys : List Nat) → (fuel : Nat) → Chain F fl p us t → (∀ s ∈ us, Upd s) →
    (keys ++ us.map Slot.key).Nodup → stop ≤ p + fuel →
    keysLoop F fl stop fuel p prev keys = .ok (keys ++ us.map Slot.key, lastPos us prev)
  | [], p, prev, keys, fuel, hc, _, _, hf => by
    have hp : p = t := hc
    subst hp
    obtain ⟨f, rfl⟩ : ∃ f, fuel = f + 1 := ⟨fuel - 1, by omega⟩
    rw [keysLoop, if_pos hts, hend]
    rcases hr with rfl | rfl | rfl <;> simp [lastPos]
  | s :: us, p, prev, keys, fuel, hc, hu, hnd, hf => by
    have hp : s.p = p := hc.1
    subst hp
    have hsz := hc.2.1.size
    have hle := hc.2.2.le
    obtain ⟨f, rfl⟩ : ∃ f, fuel = f + 1 := ⟨fuel - 1, by omega⟩
    have hnot : keys.contains s.key = false := by
      cases hk : keys.contains s.key with
      | false => rfl
      | true =>
        rw [List.nodup_append] at hnd
        exact absurd rfl (hnd.2.2 s.key (List.contains_iff_mem.1 hk) s.key (by simp))
    have ih := keysLoop_spec hF hts hend hr us s.q s.p (keys ++ [s.key]) f hc.2.2 (fun s' hs' => hu s' (List.mem_cons_of_mem _ hs'))
      (by rw [List.append_assoc]; exact hnd) (by omega)
    have hlast : lastPos us s.p = lastPos (s :: us) prev := by
      cases us with
      | nil => rfl
      | cons y ys => simp [lastPos, List.getLast?_cons]
    rw [hlast, List.append_assoc] at ih
    rw [keysLoop, if_pos (by omega)]
    have hit := hc.2.1
    rcases hu s (by simp) with ⟨k, v, h⟩ | ⟨k, h⟩
    · rw [h] at hit
      have hk : s.key = k := by simp [Slot.key, h]
      obtain ⟨hd, hpar, hkey, _⟩ := parse_user hF hit
      rw [hpar]
      simp only [hkey]
      rw [← hk, hnot]
      exact ih
    · rw [h] at hit
      have hk : s.key = k := by simp [Slot.key, h]
      rw [parse_int hF hit]
      simp only
      rw [← hk, hnot]
      exact ih

/-- When the transaction is being rolled back, no keys are found. -/
theorem keysLoop_pad {fl : Flash} {p q stop prev fuel : Nat} (h : ItemAt F fl p q .pad) (h1 : p < stop) (h2 : stop ≤ p + fuel) :
    keysLoop F fl stop fuel p prev [] = .ok ([], prev) := by
  obtain ⟨f, rfl⟩ : ∃ f, fuel = f + 1 := ⟨fuel - 1, by omega⟩
  rw [keysLoop, if_pos h1, parse_pad h]

theorem Trans.relog {fl fl' : Flash} {g : Geo} {s1 : List Slot} {mk : Slot} {n : Nat} {ps us : List Slot} {t c c' e : Nat} {m : KV}
    (h : Trans F fl g s1 mk n ps us t c e m) (L : LogT F fl' g (s1 ++ mk :: (ps ++ us)) t c' e) (hc : ps ≠ [] → c' = t) :
    Trans F fl' g s1 mk n ps us t c' e m :=
  ⟨L.log, L.torn, h.it, h.n0, h.w, h.items, h.pads, h.upds, h.keys, hc, h.holds, h.cap⟩

/-- `recover_transaction_keys`. -/
theorem transactionKeys_tri (hF : Sizes F) {st : St} {g : Geo} {s1 : List Slot} {mk : Slot} {n : Nat} {ps us : List Slot} {t c e : Nat} {m : KV}
    (h : Trans F st.fl g s1 mk n ps us t c e m) :
    Tri (transactionKeys F mk.q (g.h + F.W)) st
      (fun keys st' => st'.head = st.head ∧ st'.entries = st.entries ∧ (ps = [] → keys = us.map Slot.key) ∧ (ps ≠ [] → keys = []) ∧
        ∃ c', Trans F st'.fl g s1 mk n ps us t c' e m ∧ (c' = t ∨ (ps = [] ∧ us = [])))
      (fun _ _ => False)
      (fun fl' => ∃ c', Trans F fl' g s1 mk n ps us t c' e m) := by
  have hbd := h.cap.bound hF h.log.hM
  have hte := h.log.te
  obtain ⟨x, hc1, hc2⟩ := h.log.chain.of_append
  have hx : mk.p = x := hc2.1
  subst hx
  have hge := hc1.le
  have hsz := hc2.2.1.size
  have hch := hc2.2.2
  have hle := hch.le
  have hlt : ∃ r q', parseEntry F st.fl t = .ok (r, q') ∧ (r = .tail ∨ r = .partly ∨ r = .partialUser) := by
    rcases LogT.parse_end hF ⟨h.log, h.torn⟩ hbd.2 with ⟨_, h1⟩ | ⟨_, _, _, h1⟩ | ⟨_, _, _, h1⟩
    · exact ⟨_, _, h1, .inl rfl⟩
    · exact ⟨_, _, h1, .inr (.inl rfl)⟩
    · exact ⟨_, _, h1, .inr (.inr rfl)⟩
  obtain ⟨r, q', hend, hr⟩ := hlt
  apply tri_bind
  refine tri_getFl ?_
  apply tri_bind
  cases hps : ps with
  | cons y ys =>
    subst hps
    have hp0 := h.pads y (by simp)
    have hy := hch.1
    have hit := hch.2.1
    have hysz := hit.size
    have hyle := hch.2.2.le
    rw [hp0] at hit
    rw [hy] at hit
    refine tri_liftE (keysLoop_pad hit (by omega) (by omega)) ?_
    apply tri_bind
    apply tri_bind
    refine tri_getFl ?_
    refine tri_liftE (parse_pad hit) ?_
    apply tri_bind
    refine tri_pure ?_
    refine tri_pure ⟨rfl, rfl, (fun h => by cases h), fun _ => rfl, c, h, .inl (h.pc (by simp))⟩
  | nil =>
    subst hps
    have hkl := keysLoop_spec hF (t := t) (stop := g.h + F.W) (by omega) hend hr us mk.q mk.q [] (g.h + F.W - mk.q) hch h.upds h.keys (by omega)
    rw [List.nil_append] at hkl
    refine tri_liftE hkl ?_
    apply tri_bind
    apply tri_bind
    refine tri_getFl ?_
    rcases List.eq_nil_or_concat us with hus | ⟨i, s, hus⟩
    · subst hus
      have hqt : mk.q = t := hch
      have : lastPos [] mk.q = t := hqt
      refine tri_liftE (by rw [this]; exact hend) ?_
      apply tri_bind
      have hnop : initLast F t (r, q') = M.pure () := by rcases hr with rfl | rfl | rfl <;> rfl
      show Tri (initLast F (lastPos [] mk.q) (r, q')) st _ _ _
      rw [this, hnop]
      refine tri_pure ?_
      refine tri_pure ⟨rfl, rfl, fun _ => rfl, fun h => absurd rfl h, c, h, .inr ⟨rfl, rfl⟩⟩
    · rw [List.concat_eq_append] at hus
      subst hus
      have hlp : lastPos (i ++ [s]) mk.q = s.p := by simp [lastPos]
      have hms : s ∈ s1 ++ mk :: ([] ++ (i ++ [s])) := by simp
      have hm := h.log.chain.mem s hms
      have hng : s.it ≠ .gap := by
        rcases h.upds s (by simp) with ⟨k, v, h1⟩ | ⟨k, h1⟩ <;> rw [h1] <;> simp
      have hpar : ∃ r, parseEntry F st.fl s.p = .ok (r, s.q) ∧ ∀ p, initLast F p (r, s.q) = initPage F p (p + (s.q - p - 1)) := by
        have hit := hm.2.2.2
        rcases h.upds s (by simp) with ⟨k, v, h1⟩ | ⟨k, h1⟩
        · rw [h1] at hit
          obtain ⟨hd, h2, _⟩ := parse_user hF hit
          exact ⟨_, h2, fun _ => rfl⟩
        · rw [h1] at hit
          exact ⟨_, parse_int hF hit, fun _ => rfl⟩
      obtain ⟨r', hpar, hil⟩ := hpar
      refine tri_liftE (by rw [hlp]; exact hpar) ?_
      apply tri_bind
      show Tri (initLast F (lastPos (i ++ [s]) mk.q) (r', s.q)) st _ _ _
      rw [hlp, hil]
      rcases h.log.hc with hc | ⟨het, _⟩
      · subst hc
        refine tri_fls (h.log.initAny hF hms hng) ?_ (fun _ h => h.elim)
        rintro _ st1 e1 e2 e3
        refine tri_pure ⟨e1, e2, fun _ => rfl, fun h => absurd rfl h, c, ?_, .inl rfl⟩
        rw [e3]; exact h
      · subst het
        have L := h.log
        have hsq : s.q = e := by
          obtain ⟨x, _, h2⟩ := L.chain.of_append
          obtain ⟨y, _, h3⟩ := h2.2.2.of_append
          obtain ⟨z, _, h4⟩ := h3.of_append
          exact h4.2.2
        subst hsq
        have hl : s1 ++ mk :: ([] ++ (i ++ [s])) = (s1 ++ mk :: i) ++ [s] := by simp
        rw [hl] at L
        refine tri_fls (L.initLast hF hng) ?_ ?_
        · intro _ st1 e1 e2 L1
          rw [← hl] at L1
          exact tri_pure ⟨e1, e2, fun _ => rfl, fun h => absurd rfl h, s.q, h.relog ⟨L1, .none rfl⟩ (fun h => absurd rfl h), .inl rfl⟩
        · intro fl' L1
          rw [← hl] at L1
          exact ⟨c, h.relog ⟨L1, .none rfl⟩ (fun h => absurd rfl h)⟩

/-- Padding of a transaction that is being rolled back. -/
theorem rollback_skip (hF : Sizes F) {stop t : Nat} (hts : t < stop) {P : Unit → St → Prop} {E : Err → St → Prop} {C : Flash → Prop} {st : St} :
    (ps : List Slot) → (p fuel q : Nat) → Chain F st.fl p ps q → q ≤ t → (∀ s ∈ ps, s.it = .pad) → stop ≤ p + fuel →
    (∀ fuel', stop ≤ q + fuel' → Tri (rollbackLoop F stop fuel' q) st P E C) → Tri (rollbackLoop F stop fuel p) st P E C
  | [], p, fuel, q, hc, _, _, hf, h => by
    have : p = q := hc
    subst this
    exact h fuel hf
  | s :: ps, p, fuel, q, hc, hq, hp, hf, h => by
    have hsp : s.p = p := hc.1
    subst hsp
    have hsz := hc.2.1.size
    have hle := hc.2.2.le
    obtain ⟨f, rfl⟩ : ∃ f, fuel = f + 1 := ⟨fuel - 1, by omega⟩
    have hit := hc.2.1
    rw [hp s (by simp)] at hit
    rw [rollbackLoop, if_pos (by omega)]
    apply tri_bind
    apply tri_bind
    refine tri_getFl ?_
    refine tri_liftE (parse_pad hit) ?_
    exact rollback_skip hF hts ps s.q f q hc.2.2 hq (fun s' hs' => hp s' (List.mem_cons_of_mem _ hs')) (by omega) h

/-- The rollback loop. -/
theorem rollback_tri (hF : Sizes F) {g : Geo} {s1 : List Slot} {mk : Slot} {n : Nat} {t c e : Nat} {m : KV} :
    (us : List Slot) → (ps : List Slot) → (p fuel : Nat) → (st : St) → Trans F st.fl g s1 mk n ps us t c e m → (ps ≠ [] ∨ us.length < n) →
    (c = t ∨ (ps = [] ∧ us = [])) → Starts us t p → g.h + F.W ≤ p + fuel →
    Tri (rollbackLoop F (g.h + F.W) fuel p) st
      (fun _ st' => st'.head = st.head ∧ st'.entries = st.entries ∧ ∃ ps' t' c', Trans F st'.fl g s1 mk n ps' [] t' c' t' m)
      (fun _ _ => False)
      (fun fl' => Live F fl' m)
  | [], ps, p, fuel, st, h, hn, hct, hs, hf => by
    have hbd := h.cap.bound hF h.log.hM
    have hte := h.log.te
    have hp : p = t := hs
    subst hp
    obtain ⟨f, rfl⟩ : ∃ f, fuel = f + 1 := ⟨fuel - 1, by omega⟩
    have hwiped : ∀ fl', Wiped F fl' g (s1 ++ mk :: (ps ++ [])) e → ∃ ps', ps' ≠ [] ∧ Trans F fl' g s1 mk n ps' [] e e e m := by
      rintro fl' ⟨ns, h1, h2, L⟩
      rw [List.append_nil] at L
      have hcap := h.cap
      rw [List.append_nil] at hcap
      refine ⟨ps ++ ns, by simp [h2], ⟨?_, .none rfl, h.it, h.n0, h.w, h.items, ?_, h.upds, h.keys, fun _ => rfl, h.holds, ?_⟩⟩
      · rw [List.append_nil]; simpa using L
      · intro s hs
        rcases List.mem_append.1 hs with h3 | h3
        · exact h.pads s h3
        · exact h1 s h3
      · rw [List.append_nil]
        have := hcap.append_pads h1
        simpa using this
    have hcrash : ∀ fl', c = p → ((Log F fl' g (s1 ++ mk :: (ps ++ [])) p p e ∧ TornTail F fl' p e) ∨ Wiped F fl' g (s1 ++ mk :: (ps ++ [])) e) →
        Live F fl' m := by
      rintro fl' hcp (⟨L', h'⟩ | h')
      · exact .rollback (h.relog (c' := p) ⟨L', h'⟩ (fun _ => rfl)) hn
      · obtain ⟨ps', h1, h2⟩ := hwiped fl' h'
        exact .rollback h2 (.inl h1)
    rw [rollbackLoop, if_pos (by omega)]
    apply tri_bind
    apply tri_bind
    refine tri_getFl ?_
    rcases LogT.parse_end hF ⟨h.log, h.torn⟩ hbd.2 with ⟨he, hpar⟩ | ⟨l, he, hb, hpar⟩ | ⟨l, he, hb, hpar⟩
    · refine tri_liftE hpar ?_
      subst he
      exact tri_pure ⟨rfl, rfl, ps, e, c, h⟩
    · refine tri_liftE hpar ?_
      subst he
      have hcp : c = p := by
        rcases h.log.hc with h1 | ⟨h1, _⟩
        · exact h1
        · omega
      have L := h.log
      rw [hcp] at L
      show Tri (recoverWipePartly F p (p + 1 + l - p - 1)) st _ _ _
      rw [show p + 1 + l - p - 1 = l by omega]
      refine tri_fls (L.wipeTorn hF hb) ?_ (fun fl' h => hcrash fl' hcp h)
      intro _ st' e1 e2 h'
      obtain ⟨ps', _, h2⟩ := hwiped _ h'
      exact ⟨e1, e2, ps', _, _, h2⟩
    · refine tri_liftE hpar ?_
      subst he
      have hcp : c = p := by
        rcases h.log.hc with h1 | ⟨h1, _⟩
        · exact h1
        · omega
      have L := h.log
      rw [hcp] at L
      show Tri (recoverDeleteUser F p (p + 1 + l - p - 1)) st _ _ _
      rw [show p + 1 + l - p - 1 = l by omega]
      refine tri_fls (L.deleteTorn hF hb) ?_ (fun fl' h => hcrash fl' hcp h)
      intro _ st' e1 e2 h'
      obtain ⟨ps', _, h2⟩ := hwiped _ h'
      exact ⟨e1, e2, ps', _, _, h2⟩
  | s :: us, ps, p, fuel, st, h, hn, hct, hs, hf => by
    have hbd := h.cap.bound hF h.log.hM
    have hte := h.log.te
    have hp : s.p = p := hs
    subst hp
    have hms : s ∈ s1 ++ mk :: (ps ++ s :: us) := by simp
    have hm := h.log.chain.mem s hms
    obtain ⟨f, rfl⟩ : ∃ f, fuel = f + 1 := ⟨fuel - 1, by omega⟩
    have hcp : c = t := by
      rcases hct with h1 | ⟨_, h1⟩
      · exact h1
      · cases h1
    have hl : ∀ x : Slot, s1 ++ mk :: (ps ++ x :: us) = (s1 ++ mk :: ps) ++ x :: us := by intro x; simp
    have L : LogT F st.fl g (s1 ++ mk :: (ps ++ s :: us)) t c e := ⟨h.log, h.torn⟩
    have hmid : padAt (s1 ++ mk :: (ps ++ s :: us)) s.p = s1 ++ mk :: (ps ++ s.pad :: us) := by
      have hch := h.log.chain
      rw [hl] at hch
      rw [hl, padAt_mid hch, hl]
    have hnext : ∀ fl', LogT F fl' g (s1 ++ mk :: (ps ++ s.pad :: us)) t c e → Trans F fl' g s1 mk n (ps ++ [s.pad]) us t c e m := by
      intro fl' L'
      have hl2 : s1 ++ mk :: ((ps ++ [s.pad]) ++ us) = s1 ++ mk :: (ps ++ s.pad :: us) := by simp
      refine ⟨by rw [hl2]; exact L'.log, L'.torn, h.it, h.n0, h.w, h.items, ?_, fun s' hs' => h.upds s' (List.mem_cons_of_mem _ hs'), ?_, fun _ => hcp, h.holds, ?_⟩
      · intro s' hs'
        rcases List.mem_append.1 hs' with h3 | h3
        · exact h.pads s' h3
        · have : s' = s.pad := by simpa using h3
          rw [this]; rfl
      · exact (List.nodup_cons.1 h.keys).2
      · rw [hl2, hl]
        have := h.cap
        rw [hl] at this
        exact this.pads (P := fun _ => True) ((Pads.refl _).append ⟨.inr ⟨trivial, rfl⟩, Pads.refl _⟩)
    have hcrash : ∀ fl', (LogT F fl' g (s1 ++ mk :: (ps ++ s :: us)) t c e ∨ LogT F fl' g (s1 ++ mk :: (ps ++ s.pad :: us)) t c e) → Live F fl' m := by
      rintro fl' (L' | L')
      · exact .rollback (h.relog L' (fun _ => hcp)) hn
      · exact .rollback (hnext fl' L') (.inl (by simp))
    have hst : Starts us t s.q := by
      obtain ⟨x, _, h2⟩ := h.log.chain.of_append
      obtain ⟨y, _, h3⟩ := h2.2.2.of_append
      exact h3.2.2.starts
    have hgo : ∀ st' : St, st'.head = st.head → st'.entries = st.entries → LogT F st'.fl g (s1 ++ mk :: (ps ++ s.pad :: us)) t c e →
        Tri (rollbackLoop F (g.h + F.W) f s.q) st'
          (fun _ st'' => st''.head = st.head ∧ st''.entries = st.entries ∧ ∃ ps' t' c', Trans F st''.fl g s1 mk n ps' [] t' c' t' m)
          (fun _ _ => False) (fun fl' => Live F fl' m) := by
      intro st' e1 e2 L'
      have := rollback_tri hF us (ps ++ [s.pad]) s.q f st' (hnext _ L') (.inl (by simp)) (.inl hcp) hst (by omega)
      rw [e1, e2] at this
      exact this
    rw [rollbackLoop, if_pos (by omega)]
    apply tri_bind
    apply tri_bind
    refine tri_getFl ?_
    have hit := hm.2.2.2
    rcases h.upds s (by simp) with ⟨k, v, h1⟩ | ⟨k, h1⟩
    · rw [h1] at hit
      obtain ⟨hd, hpar, _⟩ := parse_user hF hit
      refine tri_liftE hpar ?_
      apply tri_bind
      have hdel := L.deletePos hF hms h1
      have hsq := hit.2.2.1
      rw [hmid, show bytesToWords v.length = s.q - s.p - 1 by omega] at hdel
      exact tri_fls hdel (fun _ st' e1 e2 L' => hgo st' e1 e2 L') (fun fl' h => hcrash fl' h)
    · rw [h1] at hit
      refine tri_liftE (parse_int hF hit) ?_
      apply tri_bind
      have hset := L.setPadding hF hms h1
      rw [hmid] at hset
      exact tri_fls hset (fun _ st' e1 e2 L' => hgo st' e1 e2 L') (fun fl' h => hcrash fl' h)

/-- The end of a rollback. -/
theorem unmark_tri (hF : Sizes F) {st : St} {g : Geo} {s1 : List Slot} {mk : Slot} {n : Nat} {ps : List Slot} {t c : Nat} {m : KV}
    (h : Trans F st.fl g s1 mk n ps [] t c t m) (hE : Ents st g s1) :
    Tri (M.bind (initPage F mk.p mk.p) fun _ => setPadding F mk.p) st (fun _ st' => Ready F st' m) (fun _ _ => False) (fun fl' => Live F fl' m) := by
  have L := h.log
  rw [List.append_nil] at L
  have hcap := h.cap
  rw [List.append_nil] at hcap
  have hmk : mk ∈ s1 ++ mk :: ps := by simp
  have hm := L.chain.mem mk hmk
  have hit := hm.2.2.2
  rw [h.it] at hit
  have hq := hit.2.2
  have hg : mk.it ≠ .gap := by rw [h.it]; simp
  have hn : ps ≠ [] ∨ ([] : List Slot).length < n := .inr (by have := h.n0; simp; omega)
  have hroll : ∀ fl' c', Log F fl' g (s1 ++ mk :: ps) t c' t → (ps ≠ [] → c' = t) → Live F fl' m := by
    intro fl' c' L' hc'
    exact .rollback (h.relog (c' := c') ⟨by rw [List.append_nil]; exact L', .none rfl⟩ hc') hn
  have hgood : ∀ fl', Log F fl' g (s1 ++ mk.pad :: ps) t t t → Good F fl' g (s1 ++ mk.pad :: ps) t m := by
    intro fl' L'
    refine ⟨L', h.w, ?_, fun _ => by omega, ?_, ?_⟩
    · intro s hs
      rcases List.mem_append.1 hs with h1 | h1
      · exact h.items s h1
      · rcases List.mem_cons.1 h1 with h2 | h2
        · rw [h2]; exact .inl rfl
        · exact .inl (h.pads s h2)
    · refine h.holds.append_pads (uents_none ?_)
      intro s hs k v hi
      rcases List.mem_cons.1 hs with h2 | h2
      · rw [h2] at hi; cases hi
      · rw [h.pads s h2] at hi; cases hi
    · exact hcap.pads (P := fun _ => True) ((Pads.refl _).append ⟨.inr ⟨trivial, rfl⟩, Pads.refl _⟩)
  have hset : ∀ st' : St, st'.head = st.head → st'.entries = st.entries → Log F st'.fl g (s1 ++ mk :: ps) t t t →
      Tri (setPadding F mk.p) st' (fun _ st' => Ready F st' m) (fun _ _ => False) (fun fl' => Live F fl' m) := by
    intro st' e1 e2 L'
    have hs := L'.setPadding hF hmk h.it
    rw [padAt_mid L'.chain] at hs
    refine tri_fls hs ?_ ?_
    · rintro _ st2 e3 e4 ⟨_, L2⟩
      refine ⟨g, _, t, hgood _ L2, hE.congr (e3.trans e1) (e4.trans e2) ?_⟩
      rw [upos_append, upos_none (slots := mk.pad :: ps), List.append_nil]
      intro s hs k v hi
      rcases List.mem_cons.1 hs with h2 | h2
      · rw [h2] at hi; cases hi
      · rw [h.pads s h2] at hi; cases hi
    · rintro fl' ⟨_, L2 | L2⟩
      · exact hroll fl' t L2 (fun _ => rfl)
      · exact (hgood fl' L2).live
  apply tri_bind
  have hinit : initPage F mk.p mk.p = initPage F mk.p (mk.p + (mk.q - mk.p - 1)) := by rw [hq]; congr 1; omega
  rw [hinit]
  by_cases hct : c = t
  · subst hct
    refine tri_fls (L.initAny hF hmk hg) ?_ (fun _ h => h.elim)
    intro _ st1 e1 e2 e3
    exact hset st1 e1 e2 (by rw [e3]; exact L)
  · have hps : ps = [] := by
      cases hp : ps with
      | nil => rfl
      | cons _ _ => exact absurd (h.pc (by rw [hp]; simp)) hct
    subst hps
    have hqt : mk.q = t := by
      obtain ⟨x, _, h2⟩ := L.chain.of_append
      exact h2.2.2
    subst hqt
    refine tri_fls (L.initLast hF hg) ?_ ?_
    · intro _ st1 e1 e2 L1
      exact hset st1 e1 e2 L1
    · intro fl' L1
      exact hroll fl' c L1 (fun h => absurd rfl h)

/-- `recover_transaction`. -/
theorem recoverTransaction_tri (hF : Sizes F) {st : St} {g : Geo} {s1 : List Slot} {mk : Slot} {n : Nat} {ps us : List Slot} {t c e : Nat} {m m1 : KV}
    (h : Trans F st.fl g s1 mk n ps us t c e m1) (hE : Ents st g s1)
    (hm : (ps = [] ∧ us.length = n ∧ e = t ∧ m = applySlots us m1) ∨ ((ps ≠ [] ∨ us.length < n) ∧ m = m1)) :
    Tri (recoverTransaction F mk.p (g.h + F.W)) st (fun _ st' => Ready F st' m) (fun _ _ => False) (fun fl' => Live F fl' m) := by
  have hbd := h.cap.bound hF h.log.hM
  have hte := h.log.te
  have hlive : ∀ fl' c', Trans F fl' g s1 mk n ps us t c' e m1 → Live F fl' m := by
    intro fl' c' h'
    rcases hm with ⟨h1, h2, h3, h4⟩ | ⟨h1, h2⟩
    · subst h1; subst h3
      exact .commit h' h2 h4
    · subst h2
      exact .rollback h' h1
  have hmk := h.log.chain.mem mk (by simp)
  have hit := hmk.2.2.2
  rw [h.it] at hit
  have hq := hit.2.2
  apply tri_bind
  apply tri_bind
  refine tri_getFl ?_
  refine tri_liftE (parse_int hF hit) ?_
  apply tri_bind
  refine tri_liftE (a := n) rfl ?_
  apply tri_bind
  show Tri (transactionKeys F mk.q (g.h + F.W)) st _ _ _
  refine tri_mono (transactionKeys_tri hF h) ?_ (fun _ _ h => h) (fun fl' h => by obtain ⟨c', h⟩ := h; exact hlive fl' c' h)
  rintro keys st1 ⟨e1, e2, hk1, hk2, c', h1, hct⟩
  have hE1 : Ents st1 g s1 := hE.congr e1 e2 rfl
  rcases hm with ⟨hm1, hm2, hm3, hm4⟩ | ⟨hm1, hm2⟩
  · subst hm1; subst hm3; subst hm4
    have hk := hk1 rfl
    rw [if_pos (by rw [hk, List.length_map]; exact hm2)]
    have hct' : c' = e := by
      rcases hct with h2 | ⟨_, h2⟩
      · exact h2
      · subst h2
        exact absurd hm2.symm h.n0
    subst hct'
    refine tri_mono (transactionApply_tri hF h1 hm2 hE1 hk) ?_ (fun _ _ h => h) (fun _ h => h)
    rintro _ st' ⟨slots, h3, h4⟩
    exact ⟨g, slots, _, h3, h4⟩
  · subst hm2
    have hlen : keys.length < n := by
      by_cases hps : ps = []
      · rw [hk1 hps, List.length_map]
        exact hm1.resolve_left (fun h => h hps)
      · rw [hk2 hps]
        have := h.n0
        simp; omega
    rw [if_neg (by omega), if_neg (by omega)]
    apply tri_bind
    obtain ⟨x, hc1, hc2⟩ := h1.log.chain.of_append
    have hx : mk.p = x := hc2.1
    subst hx
    obtain ⟨y, hc3, hc4⟩ := hc2.2.2.of_append
    have hy := hc4.le
    have hy3 := hc3.le
    show Tri (rollbackLoop F (g.h + F.W) (g.h + F.W - mk.q) mk.q) st1 _ _ _
    refine rollback_skip hF (t := t) (by omega) ps mk.q _ y hc3 hy h.pads (by omega) ?_
    intro fuel' hf'
    refine tri_mono (rollback_tri hF us ps y fuel' st1 h1 hm1 hct hc4.starts hf') ?_ (fun _ _ h => h) (fun _ h => h)
    rintro _ st2 ⟨e3, e4, ps', t', c2, h2⟩
    exact unmark_tri hF h2 (hE1.congr e3 e4 rfl)

/-- Recovery of a transaction. -/
theorem recoverTrans_tri (hF : Sizes F) {st : St} {g : Geo} {s1 : List Slot} {mk : Slot} {n : Nat} {ps us : List Slot} {t c e : Nat} {m m1 : KV}
    (h : Trans F st.fl g s1 mk n ps us t c e m1) (hE : Ents st g [])
    (hm : (ps = [] ∧ us.length = n ∧ e = t ∧ m = applySlots us m1) ∨ ((ps ≠ [] ∨ us.length < n) ∧ m = m1)) :
    Tri (operationLoop F (g.h + F.W) F.W g.h g.h) st (fun _ st' => Ready F st' m) (fun _ _ => False) (fun fl' => Live F fl' m) := by
  have hbd := h.cap.bound hF h.log.hM
  have hte := h.log.te
  have htr : ∀ fl' s1', Pads Rm s1 s1' → LogT F fl' g (s1' ++ mk :: (ps ++ us)) t c e → Trans F fl' g s1' mk n ps us t c e m1 := by
    intro fl' s1' hpd L1
    refine ⟨L1.log, L1.torn, h.it, h.n0, h.w, UP.pads hpd h.items, h.pads, h.upds, h.keys, h.pc, h.holds.perm ?_, h.cap.pads (hpd.append (Pads.refl _))⟩
    rw [(hpd.uents_eq (fun s _ hr k v hi => by
        obtain ⟨k', hr⟩ := hr
        rw [hr] at hi; cases hi)).1]
  refine walk_tri hF (tl := mk :: (ps ++ us)) (t := t) (c := c) (e := e) (by omega) (by omega) s1 [] g.h g.h F.W st ⟨h.log, h.torn⟩ h.log.chain.starts
    (fun s hs => .inl (h.items s hs)) hE (Nat.le_refl _) ?_ ?_
  · intro st1 s1' q fuel prev L1 hpd hup hE1 hq hf _
    rw [List.nil_append] at L1 hE1
    have hq : mk.p = q := hq
    subst hq
    have h1 := htr st1.fl s1' hpd L1
    have hmm := h1.log.chain.mem mk (by simp)
    have hit := hmm.2.2.2
    rw [h.it] at hit
    obtain ⟨f, rfl⟩ : ∃ f, fuel = f + 1 := ⟨fuel - 1, by omega⟩
    rw [operationLoop, if_pos (by omega)]
    apply tri_bind
    apply tri_bind
    refine tri_getFl ?_
    refine tri_liftE (parse_int hF hit) ?_
    exact recoverTransaction_tri hF h1 hE1 hm
  · intro fl' s1' hpd L1
    rw [List.nil_append] at L1
    have h1 := htr fl' s1' hpd L1
    rcases hm with ⟨h2, h3, h4, h5⟩ | ⟨h2, h3⟩
    · subst h2; subst h4
      exact .commit h1 h3 h5
    · subst h3
      exact .rollback h1 h2

/-- `recover_operation`. -/
theorem recoverOperation_tri (hF : Sizes F) {st : St} {m : KV} {x : Nat} (h : Live F st.fl m) (hh : st.head = some x) (ho : oldestHead F st.fl = .ok x) :
    Tri (recoverOperation F) st (fun _ st' => Ready F st' m) (fun _ _ => False) (fun fl' => Live F fl' m) := by
  have hx : ∀ {g : Geo} {slots : List Slot} {t c e : Nat}, Log F st.fl g slots t c e → x = g.h := by
    intro g slots t c e L
    have := L.oldest hF
    rw [ho] at this
    cases this; rfl
  apply tri_bind
  refine tri_setEntries ?_
  apply tri_bind
  refine tri_getHead (x := x) hh ?_
  have hE : ∀ g : Geo, x = g.h → Ents { st with entries := some [] } g [] := fun g e => ⟨by rw [← e]; exact hh, [], rfl, List.Perm.nil⟩
  cases h with
  | plain h =>
    obtain ⟨g, slots, t, e, L, h1, h2, h3, h4, h5, h6⟩ := h
    obtain rfl := hx L
    exact recoverPlain_tri hF (st := { st with entries := some [] }) ⟨L, h2⟩ h1 h3 h4 h5 h6 (hE g rfl)
  | @ins g s1 s c k v m1 h hm =>
    subst hm
    obtain rfl := hx h.log
    refine recoverIns_tri hF (st := { st with entries := some [] }) h.log h.it h.w (fun s hs => .inl (h.items s hs)) h.holds h.cap (hE g rfl) ?_
    intro fl' s1' hpd L
    refine .ins (g := g) (s1 := s1') (m1 := m1) ⟨L, h.it, h.w, UP.pads hpd h.items, h.holds.perm ?_, h.cap.pads (hpd.append (Pads.refl _))⟩ rfl
    rw [(hpd.uents_eq (fun s _ hr k v hi => by
        obtain ⟨k', hr⟩ := hr
        rw [hr] at hi; cases hi)).1]
  | @clr g s1 s c mk m1 h hm =>
    subst hm
    obtain rfl := hx h.log
    exact recoverClear_tri hF (st := { st with entries := some [] }) h (hE g rfl)
  | @commit g s1 mk n us t c m1 h hn hm =>
    obtain rfl := hx h.log
    exact recoverTrans_tri hF (st := { st with entries := some [] }) h (hE g rfl) (.inl ⟨rfl, hn, rfl, hm⟩)
  | @rollback g s1 mk n ps us t c e h hn =>
    obtain rfl := hx h.log
    exact recoverTrans_tri hF (st := { st with entries := some [] }) h (hE g rfl) (.inr ⟨hn, rfl⟩)

end Verif.Store
