import Verif.Store.Content

/-!
# The list of entries, and deleting entries
-/
namespace Verif.Store

variable {F : Format}

/-- The fields of the store for a log. -/
def Ents (s : St) (g : Geo) (slots : List Slot) : Prop :=
  s.head = some g.h ∧ ∃ es, s.entries = some es ∧ (es.map (g.h + ·)).Perm (upos slots)

/-- The same, when the list of entries may not be known yet. -/
def EntsO (s : St) (g : Geo) (slots : List Slot) : Prop :=
  s.head = some g.h ∧ ∀ es, s.entries = some es → (es.map (g.h + ·)).Perm (upos slots)

theorem Ents.opt {s : St} {g : Geo} {slots : List Slot} (h : Ents s g slots) : EntsO s g slots := by
  obtain ⟨h1, es, h2, h3⟩ := h
  refine ⟨h1, fun es' h4 => ?_⟩
  rw [h2] at h4
  cases h4; exact h3

theorem Ents.congr {s s' : St} {g : Geo} {slots slots' : List Slot} (h : Ents s g slots) (h1 : s'.head = s.head) (h2 : s'.entries = s.entries)
    (h3 : upos slots' = upos slots) : Ents s' g slots' := by
  obtain ⟨h4, es, h5, h6⟩ := h
  exact ⟨h1.trans h4, es, h2.trans h5, by rw [h3]; exact h6⟩

theorem EntsO.congr {s s' : St} {g : Geo} {slots slots' : List Slot} (h : EntsO s g slots) (h1 : s'.head = s.head) (h2 : s'.entries = s.entries)
    (h3 : upos slots' = upos slots) : EntsO s' g slots' := by
  obtain ⟨h4, h5⟩ := h
  exact ⟨h1.trans h4, fun es h6 => by rw [h3]; exact h5 es (h2 ▸ h6)⟩

theorem tri_pushEntry {s : St} {h p : Nat} {P : Unit → St → Prop} {E : Err → St → Prop} {C : Flash → Prop} (hh : s.head = some h)
    (h1 : h ≤ p) (h2 : p - h < 65536) (hP : P () { s with entries := s.entries.map (· ++ [p - h]) }) : Tri (pushEntry p) s P E C := by
  show Tri (pushTo p s.entries) s P E C
  cases he : s.entries with
  | none =>
    refine tri_pure ?_
    rw [he] at hP
    have : s = { s with entries := none } := by cases s; simp only at he; subst he; rfl
    rw [this]; exact hP
  | some es =>
    apply tri_bind
    refine tri_getHead hh ?_
    apply tri_bind
    refine tri_liftE (a := p - h) (by rw [offsetOf, if_neg (by omega)]) ?_
    refine tri_setEntries ?_
    rw [he] at hP; exact hP

/-- Moving the last element to the front. -/
theorem swapRemove_append (vs ws : List Nat) (w : Nat) : ∃ ws', swapRemove (vs ++ w :: ws) vs.length = vs ++ ws' ∧ ws'.Perm ws := by
  unfold swapRemove
  rcases List.eq_nil_or_concat ws with rfl | ⟨l, y, rfl⟩
  · refine ⟨[], ?_, List.Perm.refl _⟩
    rw [if_pos (by simp), List.dropLast_concat]; simp
  · refine ⟨y :: l, ?_, ?_⟩
    · rw [if_neg (by simp)]
      have e : (vs ++ w :: (l ++ [y])).getLastD 0 = y := by
        rw [show vs ++ w :: (l ++ [y]) = (vs ++ w :: l) ++ [y] by simp]; simp [List.getLastD_eq_getLast?, -List.append_assoc, -List.cons_append]
      have e2 : vs ++ w :: (l ++ [y]) = (vs ++ w :: l) ++ [y] := by simp
      simp only [List.concat_eq_append] at *
      rw [e, List.set_append_right _ _ (Nat.le_refl _), Nat.sub_self, List.set_cons_zero,
        show vs ++ y :: (l ++ [y]) = (vs ++ y :: l) ++ [y] by simp, List.dropLast_concat]
    · exact (List.perm_append_singleton y l).symm.trans (by simp)

theorem tri_removeEntry {s : St} {h p : Nat} {P : Unit → St → Prop} {E : Err → St → Prop} {C : Flash → Prop} (hh : s.head = some h)
    (h1 : h ≤ p) (h2 : p - h < 65536) (hm : ∀ es, s.entries = some es → p - h ∈ es)
    (hP : ∀ es', (∀ es, s.entries = some es → ∃ x, es' = some x ∧ ((p - h) :: x).Perm es) → (s.entries = none → es' = none) →
      P () { s with entries := es' }) : Tri (removeEntry p) s P E C := by
  show Tri (removeFrom p s.entries) s P E C
  cases he : s.entries with
  | none =>
    refine tri_pure ?_
    have := hP none (by simp [he]) (fun _ => rfl)
    have e : s = { s with entries := none } := by cases s; simp only at he; subst he; rfl
    rw [e]; exact this
  | some es =>
    apply tri_bind
    refine tri_getHead hh ?_
    apply tri_bind
    refine tri_liftE (a := p - h) (by rw [offsetOf, if_neg (by omega)]) ?_
    have hin := hm es he
    cases hf : es.findIdx? (· == p - h) with
    | none =>
      have := List.findIdx?_eq_none_iff.1 hf _ hin
      simp at this
    | some i =>
      obtain ⟨hi, h3, _⟩ := List.findIdx?_eq_some_iff_getElem.1 hf
      have h3' : es[i] = p - h := by simpa using h3
      refine tri_setEntries ?_
      have hsplit : es = es.take i ++ es[i] :: es.drop (i + 1) := by
        rw [List.getElem_cons_drop, List.take_append_drop]
      have hlen : (es.take i).length = i := by rw [List.length_take]; omega
      obtain ⟨ws', e1, e2⟩ := swapRemove_append (es.take i) (es.drop (i + 1)) es[i]
      rw [← hsplit, hlen] at e1
      rw [e1]
      refine hP _ (fun es0 h0 => ?_) (fun h0 => by rw [he] at h0; cases h0)
      rw [he] at h0
      cases h0
      refine ⟨_, rfl, ?_⟩
      have := (List.perm_middle (l₁ := es.take i) (a := es[i]) (l₂ := ws')).symm
      rw [h3'] at this hsplit
      refine this.trans ?_
      conv => rhs; rw [hsplit]
      exact (e2.cons _).append_left _

/-- The entry that becomes padding. -/
theorem padAt_split {fl : Flash} {slots : List Slot} {p t : Nat} (hc : Chain F fl p slots t) {s : Slot} (hs : s ∈ slots) :
    ∃ s1 s2, slots = s1 ++ s :: s2 ∧ padAt slots s.p = s1 ++ s.pad :: s2 := by
  obtain ⟨s1, s2, rfl⟩ := List.append_of_mem hs
  refine ⟨s1, s2, rfl, ?_⟩
  obtain ⟨x, h1, h2⟩ := hc.of_append
  have hx := h2.1
  have hsz := h2.2.1.size
  have e1 : padAt s1 s.p = s1 := padAt_nop (fun s' hs' => by have := h1.mem s' hs'; omega)
  have e2 : padAt s2 s.p = s2 := padAt_nop (fun s' hs' => by have := h2.2.2.mem s' hs'; omega)
  have : padAt (s1 ++ s :: s2) s.p = padAt s1 s.p ++ (if s.p = s.p then { s with it := .pad } else s) :: padAt s2 s.p := by simp [padAt]
  rw [this, e1, e2, if_pos rfl]; rfl

theorem upos_padAt {fl : Flash} {slots : List Slot} {p t : Nat} (hc : Chain F fl p slots t) {s : Slot} (hs : s ∈ slots) {k : Nat} {v : Bytes}
    (hi : s.it = .user k v) : (upos slots).Perm (s.p :: upos (padAt slots s.p)) := by
  obtain ⟨s1, s2, e1, e2⟩ := padAt_split hc hs
  rw [e2, e1, upos_append, upos_append]
  have h1 : upos (s :: s2) = s.p :: upos s2 := by simp [upos, Slot.upos, hi]
  have h2 : upos (s.pad :: s2) = upos s2 := by
    have : s.pad.upos = none := rfl
    simp [upos, this]
  rw [h1, h2]
  exact List.perm_middle

theorem padAt_append_left {fl : Flash} {slots rest : List Slot} {p t : Nat} (hc : Chain F fl p (slots ++ rest) t) {s : Slot} (hs : s ∈ slots) :
    padAt (slots ++ rest) s.p = padAt slots s.p ++ rest := by
  obtain ⟨x, h1, h2⟩ := hc.of_append
  have e2 : padAt rest s.p = rest := padAt_nop (fun s' hs' => by
    have := h2.mem s' hs'
    have := h1.mem s hs
    omega)
  have : padAt (slots ++ rest) s.p = padAt slots s.p ++ padAt rest s.p := by simp [padAt]
  rw [this, e2]

section
variable {g : Geo} {t c e : Nat} {rest : List Slot}

/-- Which entries `delete_if` has yet to visit. -/
def Phase (g : Geo) (del : Nat → Bool) (stop : Nat) (slots : List Slot) (ws : List Nat) : Prop :=
  (∀ off ∈ ws, g.h + off < stop) ∨
  (∃ ws0 new, ws = ws0 ++ [new] ∧ stop ≤ g.h + new ∧ (∀ off ∈ ws0, g.h + off < stop) ∧
    ∀ s ∈ slots, ∀ s' ∈ slots, Del del stop s → Del del stop s' → s = s') ∨
  ∀ s ∈ slots, ¬ Del del stop s

theorem deleteLoop_tri (hF : Sizes F) {del : Nat → Bool} {stop : Nat} : (n : Nat) → ∀ (ws vs : List Nat) (slots : List Slot) (s : St),
    ws.length = n → Log F s.fl g (slots ++ rest) t c e → ((vs ++ ws).map (g.h + ·)).Perm (upos slots) →
    (∀ off ∈ vs, ∀ sl ∈ slots, sl.p = g.h + off → ¬ Del del stop sl) → Phase g del stop slots ws →
    Tri (deleteLoop F g.h stop del n vs.length (vs ++ ws)) s
      (fun es' s' => s'.head = s.head ∧ ∃ slots', Pads (Del del stop) slots slots' ∧ Log F s'.fl g (slots' ++ rest) t c e ∧
        (es'.map (g.h + ·)).Perm (upos slots') ∧ ∀ sl ∈ slots', ¬ Del del stop sl)
      (fun _ _ => False)
      (fun fl' => ∃ slots', Pads (Del del stop) slots slots' ∧ Log F fl' g (slots' ++ rest) t c e)
  | 0, ws, vs, slots, s, hn, L, hp, hv, hph => by
    have : ws = [] := List.length_eq_zero_iff.1 hn
    subst this
    refine tri_pure ⟨rfl, slots, Pads.refl _, L, hp, fun sl hsl hd => ?_⟩
    obtain ⟨h1, k, v, h2, h3⟩ := hd
    have : sl.p ∈ upos slots := upos_mem.2 ⟨sl, hsl, rfl, k, v, h2⟩
    obtain ⟨off, h4, h5⟩ := List.mem_map.1 (hp.mem_iff.2 this)
    rw [List.append_nil] at h4
    exact hv off h4 sl hsl h5.symm ⟨h1, k, v, h2, h3⟩
  | n + 1, ws, vs, slots, s, hn, L, hp, hv, hph => by
    cases ws with
    | nil => simp at hn
    | cons w ws =>
      have hg : (vs ++ w :: ws)[vs.length]? = some w := by simp
      unfold deleteLoop
      rw [hg]
      simp only
      split
      · rename_i hstop
        refine tri_pure ⟨rfl, slots, Pads.refl _, L, hp, fun sl hsl hd => ?_⟩
        rcases hph with h1 | ⟨ws0, new, h1, h2, h3, h4⟩ | h1
        · have := h1 w (by simp); omega
        · have : ws0 = [] := by
            cases ws0 with
            | nil => rfl
            | cons x xs =>
              have e : w = x := by simpa using (List.cons.inj h1).1
              have := h3 x (by simp)
              omega
          subst this
          have hw : w = new ∧ ws = [] := by simpa using h1
          obtain ⟨h5, k, v, h6, h7⟩ := hd
          have : sl.p ∈ upos slots := upos_mem.2 ⟨sl, hsl, rfl, k, v, h6⟩
          obtain ⟨off, h8, h9⟩ := List.mem_map.1 (hp.mem_iff.2 this)
          rw [hw.2] at h8
          rcases List.mem_append.1 h8 with h8 | h8
          · exact hv off h8 sl hsl h9.symm ⟨h5, k, v, h6, h7⟩
          · have : off = w := by simpa using h8
            subst this; omega
        · exact h1 sl hsl hd
      · rename_i hstop
        have hin : g.h + w ∈ upos slots := hp.mem_iff.1 (List.mem_map.2 ⟨w, by simp, rfl⟩)
        obtain ⟨sl, hsl, hslp, k, v, hit⟩ := upos_mem.1 hin
        obtain ⟨_, hch, _⟩ := L.chain.of_append
        have hsl' : sl ∈ slots ++ rest := List.mem_append_left _ hsl
        have hI := (hch.mem sl hsl).2.2.2
        rw [hit] at hI
        obtain ⟨hd, h1, h2, h3, _⟩ := parse_user hF hI
        rw [hslp] at h1
        apply tri_bind
        apply tri_bind
        refine tri_getFl ?_
        refine tri_liftE h1 ?_
        simp only
        rw [h2, h3, ← hslp]
        by_cases hdel : del k = true
        · rw [if_pos hdel]
          apply tri_bind
          have hpad : Pads (Del del stop) slots (padAt slots sl.p) := Pads.padAt (fun s' hs' e1 => by
            rw [hch.uniq hs' hsl e1]
            exact ⟨by omega, k, v, hit, hdel⟩)
          have hpa := padAt_append_left L.chain hsl
          refine tri_fls (L.deletePos hF hsl' hit) ?_ ?_
          · rintro _ s1 e1 e2 ⟨_, L1⟩
            rw [hpa] at L1
            obtain ⟨ws', e3, e4⟩ := swapRemove_append vs ws w
            rw [e3]
            have hl : ws'.length = n := by rw [e4.length_eq]; simpa using hn
            have hp1 : ((vs ++ ws').map (g.h + ·)).Perm (upos (padAt slots sl.p)) := by
              have h4 := upos_padAt hch hsl hit
              have h5 : ((w :: (vs ++ ws')).map (g.h + ·)).Perm ((vs ++ w :: ws).map (g.h + ·)) :=
                ((List.perm_middle.symm).trans ((e4.cons w).append_left vs)).map _
              have h6 := (h5.trans hp).trans h4
              rw [List.map_cons, ← hslp] at h6
              exact h6.cons_inv
            have hmem : ∀ s' ∈ padAt slots sl.p, s' ∈ slots ∧ s' ≠ sl ∨ s'.it = .pad := by
              intro s' hs'
              obtain ⟨s0, h4, rfl⟩ := List.mem_map.1 hs'
              split
              · exact .inr rfl
              · rename_i hne
                exact .inl ⟨h4, fun h => hne (by rw [h])⟩
            have hDel : ∀ s' ∈ padAt slots sl.p, Del del stop s' → s' ∈ slots ∧ s' ≠ sl := by
              intro s' hs' hd'
              rcases hmem s' hs' with h4 | h4
              · exact h4
              · obtain ⟨_, k', v', h5, _⟩ := hd'
                rw [h4] at h5; cases h5
            refine tri_mono (deleteLoop_tri hF n ws' vs (padAt slots sl.p) s1 hl L1 hp1 ?_ ?_) ?_ (fun _ _ h => h) ?_
            · intro off hoff s' hs' e5 hd'
              exact hv off hoff s' (hDel s' hs' hd').1 e5 hd'
            · rcases hph with h4 | ⟨ws0, new, h4, h5, h6, h7⟩ | h4
              · exact .inl (fun off hoff => h4 off (List.mem_cons_of_mem _ (e4.mem_iff.1 hoff)))
              · refine .inr (.inr (fun s' hs' hd' => ?_))
                obtain ⟨h8, h9⟩ := hDel s' hs' hd'
                exact h9 (h7 s' h8 sl hsl hd' ⟨by omega, k, v, hit, hdel⟩)
              · exact absurd ⟨by omega, k, v, hit, hdel⟩ (h4 sl hsl)
            · rintro es' s2 ⟨h4, slots', h5, h6⟩
              exact ⟨h4.trans e1, slots', hpad.trans h5, h6⟩
            · rintro fl' ⟨slots', h5, h6⟩
              exact ⟨slots', hpad.trans h5, h6⟩
          · rintro fl' ⟨_, h4 | h4⟩
            · exact ⟨slots, Pads.refl _, h4⟩
            · rw [hpa] at h4; exact ⟨_, hpad, h4⟩
        · rw [if_neg hdel]
          have hnd : ¬ Del del stop sl := by
            rintro ⟨_, k', v', h4, h5⟩
            rw [hit] at h4
            cases h4
            exact hdel h5
          have := deleteLoop_tri hF (del := del) (stop := stop) n ws (vs ++ [w]) slots s (by simpa using hn) L (by simpa using hp) ?_ ?_
          · simpa using this
          · intro off hoff s' hs' e1
            rcases List.mem_append.1 hoff with h4 | h4
            · exact hv off h4 s' hs' e1
            · have : off = w := by simpa using h4
              subst this
              rw [hch.uniq hs' hsl (e1.trans hslp.symm)]; exact hnd
          · rcases hph with h4 | ⟨ws0, new, h4, h5, h6, h7⟩ | h4
            · exact .inl (fun off hoff => h4 off (List.mem_cons_of_mem _ hoff))
            · cases ws0 with
              | nil =>
                have : w = new ∧ ws = [] := by simpa using h4
                omega
              | cons x xs =>
                have e1 := List.cons.inj h4
                exact .inr (.inl ⟨xs, new, e1.2, h5, fun off hoff => h6 off (List.mem_cons_of_mem _ hoff), h7⟩)
            · exact .inr (.inr h4)

/-- `delete_if`. -/
theorem deleteIf_tri (hF : Sizes F) {del : Nat → Bool} {stop : Nat} {slots : List Slot} {s : St} (L : Log F s.fl g (slots ++ rest) t c e)
    {es : List Nat} (hh : s.head = some g.h) (he : s.entries = some es) (hp : (es.map (g.h + ·)).Perm (upos slots))
    (hph : Phase g del stop slots es) :
    Tri (deleteIf F stop del) s
      (fun _ s' => ∃ slots', Pads (Del del stop) slots slots' ∧ Log F s'.fl g (slots' ++ rest) t c e ∧ Ents s' g slots' ∧ ∀ sl ∈ slots', ¬ Del del stop sl)
      (fun _ _ => False)
      (fun fl' => ∃ slots', Pads (Del del stop) slots slots' ∧ Log F fl' g (slots' ++ rest) t c e) := by
  apply tri_bind
  refine tri_getHead hh ?_
  apply tri_bind
  refine tri_getEntries he ?_
  apply tri_bind
  refine tri_setEntries ?_
  apply tri_bind
  have := deleteLoop_tri hF (del := del) (stop := stop) es.length es [] slots { s with entries := none } rfl L (by simpa using hp)
    (fun off hoff => by simp at hoff) hph
  refine tri_mono this ?_ (fun _ _ h => h) (fun _ h => h)
  rintro es' s' ⟨h1, slots', h2, h3, h4, h5⟩
  refine tri_setEntries ⟨slots', h2, h3, ⟨h1.trans hh, es', rfl, h4⟩, h5⟩

/-- `delete_if` when all the entries are before `stop`. -/
theorem deleteIf_all (hF : Sizes F) {del : Nat → Bool} {stop : Nat} {slots : List Slot} {s : St} (L : Log F s.fl g (slots ++ rest) t c e)
    (hE : Ents s g slots) (hall : ∀ sl ∈ slots, ∀ k v, sl.it = .user k v → sl.p < stop) :
    Tri (deleteIf F stop del) s
      (fun _ s' => ∃ slots', Pads (Del del stop) slots slots' ∧ Log F s'.fl g (slots' ++ rest) t c e ∧ Ents s' g slots' ∧ ∀ sl ∈ slots', ¬ Del del stop sl)
      (fun _ _ => False)
      (fun fl' => ∃ slots', Pads (Del del stop) slots slots' ∧ Log F fl' g (slots' ++ rest) t c e) := by
  obtain ⟨h1, es, h2, h3⟩ := hE
  refine deleteIf_tri hF L h1 h2 h3 (.inl (fun off hoff => ?_))
  obtain ⟨sl, h4, h5, k, v, h6⟩ := upos_mem.1 (h3.mem_iff.1 (List.mem_map.2 ⟨off, hoff, rfl⟩))
  have := hall sl h4 k v h6
  omega

end
end Verif.Store
