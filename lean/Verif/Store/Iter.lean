import Verif.Store.Recover
import Verif.Store.Power

/-!
# Iterating over the entries, and the states of the store
-/
namespace Verif.Store

variable {F : Format}

theorem iterLoop_spec (hF : Sizes F) {fl : Flash} {slots : List Slot} {g : Geo} (hI : ∀ s ∈ slots, ItemAt F fl s.p s.q s.it) : (es : List Nat) →
    (∀ e ∈ es, g.h + e ∈ upos slots) →
    ∃ hs, iterLoop F fl g.h es = .ok hs ∧ hs.map Handle.pos = es.map (g.h + ·) ∧
      ∀ h ∈ hs, ∃ s ∈ slots, ∃ v, s.it = .user h.key v ∧ h.pos = s.p
  | [], _ => ⟨[], rfl, rfl, by simp⟩
  | e :: es, h => by
    obtain ⟨s, h1, h2, k, v, h3⟩ := upos_mem.1 (h e (by simp))
    have hh := handleAt_user hF (hI s h1) h3
    rw [h2] at hh
    obtain ⟨hs, ih1, ih2, ih3⟩ := iterLoop_spec hF hI es (fun e' he' => h e' (List.mem_cons_of_mem _ he'))
    refine ⟨⟨k, g.h + e, v.length⟩ :: hs, by simp only [iterLoop, hh, ih1, bind_okE], by simp [ih2], ?_⟩
    intro x hx
    rcases List.mem_cons.1 hx with rfl | hx
    · exact ⟨s, h1, v, h3, h2.symm⟩
    · exact ih3 x hx

theorem nodup_map_on {α β : Type} {f : α → β} : {l : List α} → (∀ x ∈ l, ∀ y ∈ l, f x = f y → x = y) → l.Nodup → (l.map f).Nodup
  | [], _, _ => by simp
  | a :: l, h, hn => by
    rw [List.nodup_cons] at hn
    rw [List.map_cons, List.nodup_cons]
    refine ⟨fun hm => ?_, nodup_map_on (fun x hx y hy => h x (by simp [hx]) y (by simp [hy])) hn.2⟩
    obtain ⟨b, h1, h2⟩ := List.mem_map.1 hm
    have := h b (by simp [h1]) a (by simp) h2
    subst this
    exact hn.1 h1

theorem nodup_of_map {α β : Type} {f : α → β} : {l : List α} → (l.map f).Nodup → l.Nodup
  | [], _ => by simp
  | a :: l, h => by
    rw [List.map_cons, List.nodup_cons] at h
    rw [List.nodup_cons]
    exact ⟨fun hm => h.1 (List.mem_map_of_mem hm), nodup_of_map h.2⟩

theorem Chain.upos_nodup {fl : Flash} : {slots : List Slot} → {p t : Nat} → Chain F fl p slots t → (upos slots).Nodup
  | [], _, _, _ => by simp [upos]
  | s :: ss, p, t, h => by
    have ih := Chain.upos_nodup h.2.2
    cases hi : s.it with
    | user k v =>
      have h1 : upos (s :: ss) = s.p :: upos ss := by simp [upos, Slot.upos, hi]
      rw [h1, List.nodup_cons]
      refine ⟨fun hm => ?_, ih⟩
      obtain ⟨s', h2, h3, _⟩ := upos_mem.1 hm
      have h4 := (Chain.mem h.2.2 s' h2).1
      have h5 := h.2.1.size
      omega
    | pad =>
      have h1 : upos (s :: ss) = upos ss := by simp [upos, Slot.upos, hi]
      rw [h1]; exact ih
    | int i =>
      have h1 : upos (s :: ss) = upos ss := by simp [upos, Slot.upos, hi]
      rw [h1]; exact ih
    | gap =>
      have h1 : upos (s :: ss) = upos ss := by simp [upos, Slot.upos, hi]
      rw [h1]; exact ih

theorem slot_of_key : {slots : List Slot} → ((uents slots).map Prod.fst).Nodup → {s s' : Slot} → s ∈ slots → s' ∈ slots → {k : Nat} → {v v' : Bytes} →
    s.it = .user k v → s'.it = .user k v' → s = s'
  | [], _, _, _, h, _, _, _, _, _, _ => by simp at h
  | a :: l, hn, s, s', h, h', k, v, v', hi, hi' => by
    have key : ∀ {x : Slot} {w : Bytes}, x ∈ l → x.it = .user k w → ∀ {w'}, a.it = .user k w' → False := by
      intro x w hx hxi w' ha
      have e : uents (a :: l) = (k, w') :: uents l := by simp [uents, Slot.ent, ha]
      rw [e, List.map_cons, List.nodup_cons] at hn
      exact hn.1 (List.mem_map.2 ⟨(k, w), uents_mem.2 ⟨x, hx, hxi⟩, rfl⟩)
    have hn' : ((uents l).map Prod.fst).Nodup := by
      rw [show a :: l = [a] ++ l from rfl, uents_append, List.map_append, List.nodup_append] at hn
      exact hn.2.1
    rcases List.mem_cons.1 h with h1 | h1 <;> rcases List.mem_cons.1 h' with h2 | h2
    · rw [h1, h2]
    · exact (key h2 hi' (h1 ▸ hi)).elim
    · exact (key h1 hi (h2 ▸ hi')).elim
    · exact slot_of_key hn' h1 h2 hi hi'

/-- The iterator gives the entries of the map. -/
theorem Good.iter (hF : Sizes F) {st : St} {g : Geo} {slots : List Slot} {t : Nat} {m : KV} (h : Good F st.fl g slots t m) (hE : Ents st g slots) :
    Lists F st m := by
  have hI : ∀ s ∈ slots, ItemAt F st.fl s.p s.q s.it := fun s hs => (h.log.chain.mem s hs).2.2.2
  obtain ⟨hh, es, he, hp⟩ := hE
  obtain ⟨hs, h1, h2, h3⟩ := iterLoop_spec (g := g) hF hI es (fun e he' => hp.mem_iff.1 (List.mem_map.2 ⟨e, he', rfl⟩))
  have hpn : (hs.map Handle.pos).Nodup := by rw [h2]; exact hp.nodup_iff.2 h.log.chain.upos_nodup
  have hpos : ∀ x ∈ hs, ∀ y ∈ hs, x.pos = y.pos → x = y := by
    intro x hx y hy e
    obtain ⟨a, b, rfl⟩ := List.append_of_mem hx
    rw [List.map_append, List.map_cons, List.nodup_append, List.nodup_cons] at hpn
    rcases List.mem_append.1 hy with h4 | h4
    · exact absurd e.symm (hpn.2.2 y.pos (List.mem_map_of_mem h4) x.pos (by simp))
    · rcases List.mem_cons.1 h4 with h4 | h4
      · exact h4.symm
      · exact absurd (e ▸ List.mem_map_of_mem h4) hpn.2.1.1
  refine ⟨hs, ?_, ?_, ?_, ?_⟩
  · apply tri_const
    apply tri_bind
    refine tri_getHead hh ?_
    apply tri_bind
    refine tri_getEntries he ?_
    apply tri_bind
    refine tri_getFl ?_
    exact tri_liftE h1 ⟨rfl, rfl⟩
  · refine nodup_map_on (fun x hx y hy e => ?_) (nodup_of_map hpn)
    obtain ⟨s, h4, v, h5, h6⟩ := h3 x hx
    obtain ⟨s', h4', v', h5', h6'⟩ := h3 y hy
    rw [← e] at h5'
    have := slot_of_key h.holds.nodup h4 h4' h5 h5'
    subst this
    exact hpos x hx y hy (h6.trans h6'.symm)
  · intro k
    constructor
    · intro hk
      obtain ⟨x, h4, rfl⟩ := List.mem_map.1 hk
      obtain ⟨s, h5, v, h6, _⟩ := h3 x h4
      rw [(h.holds.iff x.key v).2 (uents_mem.2 ⟨s, h5, h6⟩)]
      simp
    · intro hk
      cases hm : m k with
      | none => exact absurd hm hk
      | some v =>
        obtain ⟨s, h4, h5⟩ := uents_mem.1 ((h.holds.iff k v).1 hm)
        have h6 : s.p ∈ hs.map Handle.pos := by
          rw [h2]; exact hp.mem_iff.2 (upos_mem.2 ⟨s, h4, rfl, k, v, h5⟩)
        obtain ⟨x, h7, h8⟩ := List.mem_map.1 h6
        obtain ⟨s', h9, v', h10, h11⟩ := h3 x h7
        refine List.mem_map.2 ⟨x, h7, ?_⟩
        have : s = s' := by
          obtain ⟨a, b, rfl⟩ := List.append_of_mem h4
          obtain ⟨y, hc1, hc2⟩ := h.log.chain.of_append
          have hy : s.p = y := hc2.1
          have hsz := hc2.2.1.size
          rcases List.mem_append.1 h9 with h12 | h12
          · have := hc1.mem s' h12
            omega
          · rcases List.mem_cons.1 h12 with h12 | h12
            · exact h12.symm
            · have := (Chain.mem hc2.2.2 s' h12).1
              omega
        subst this
        rw [h5] at h10
        exact (Item.user.inj h10).1.symm
  · intro x hx
    obtain ⟨s, h4, v, h5, h6⟩ := h3 x hx
    refine ⟨v, (h.holds.iff x.key v).2 (uents_mem.2 ⟨s, h4, h5⟩), ?_⟩
    have hI' := hI s h4
    rw [h5] at hI'
    obtain ⟨hd, e1, e2, e3, e4⟩ := parse_user hF hI'
    have hge := (h.log.chain.mem s h4).1
    apply tri_const
    apply tri_bind
    refine tri_getHead hh ?_
    rw [if_neg (by omega), h6]
    apply tri_bind
    apply tri_bind
    refine tri_getFl ?_
    refine tri_liftE e1 ?_
    apply tri_bind
    refine tri_getFl ?_
    exact tri_liftE (a := v) e4 ⟨rfl, rfl⟩

/-! ## The states of the store -/

theorem Ready.contains (hF : Sizes F) {s : St} {m : KV} (h : Ready F s m) : Contains F s m := by
  obtain ⟨g, slots, t, h1, h2⟩ := h
  exact h1.find hF h2

theorem Contains.unique {s : St} {m m' : KV} (h : Contains F s m) (h' : Contains F s m') : m = m' := by
  funext k
  have := h k
  rw [h' k] at this
  exact (Res.ok.inj (congrArg Prod.fst this)).symm

theorem any_new : Any F blankFlash (fun _ => none) := .inr (.inr ⟨⟨fun _ _ _ => rfl, le_erased _⟩, rfl⟩)

theorem Down.any {fl : Flash} {m : KV} (h : Down F fl m) : Any F fl m := by
  rcases h with h | h
  · exact .inl h
  · exact .inr (.inl h)

theorem any_opened (hF : Sizes F) {fl : Flash} {m : KV} {k : Nat} {o : Nat → Option Flash} (h : Any F fl m) :
    (∃ s, opened F fl k o = (.ok (), s) ∧ Ready F s m) ∨ ∃ s, opened F fl k o = (.crash, s) ∧ Any F s.fl m := by
  have := open_tri hF (st := ⟨fl, none, none, k, o⟩) h
  unfold Tri at this
  unfold opened
  rcases hr : openStore F ⟨fl, none, none, k, o⟩ with ⟨_ | _ | _, s'⟩
  · rw [hr] at this; exact .inl ⟨s', rfl, this⟩
  · rw [hr] at this; exact this.elim
  · rw [hr] at this; exact .inr ⟨s', rfl, this⟩

theorem any_reopen (hF : Sizes F) {fl : Flash} {s : St} (hr : Reopen F fl s) : ∀ {m : KV}, Any F fl m → Ready F s m := by
  induction hr with
  | done h =>
    intro m ha
    rcases any_opened hF ha with ⟨s', h1, h2⟩ | ⟨s', h1, h2⟩
    · rw [h] at h1
      obtain rfl := (Prod.mk.inj h1).2
      exact h2
    · rw [h] at h1
      cases (Prod.mk.inj h1).1
  | again h h' ih =>
    intro m ha
    rcases any_opened hF ha with ⟨s', h1, h2⟩ | ⟨s', h1, h2⟩
    · rw [h] at h1
      cases (Prod.mk.inj h1).1
    · rw [h] at h1
      obtain rfl := (Prod.mk.inj h1).2
      exact ih h2

theorem any_interrupts (hF : Sizes F) {fl fl' : Flash} (hr : Interrupts F fl fl') : ∀ {m : KV}, Any F fl m → Any F fl' m := by
  induction hr with
  | none => exact fun h => h
  | again h h' ih =>
    intro m ha
    rcases any_opened hF ha with ⟨s', h1, h2⟩ | ⟨s', h1, h2⟩
    · rw [h] at h1
      cases (Prod.mk.inj h1).1
    · rw [h] at h1
      obtain rfl := (Prod.mk.inj h1).2
      exact ih h2

theorem Full.refused {m : KV} {u : Nat} {op : Op} {e : Err} (h : (e = .invalidArgument ∧ ¬ op.valid F) ∨ Full F m u op.capacity e) : op.Refused F m u e := by
  rcases h with ⟨rfl, h⟩ | ⟨rfl, h⟩ | ⟨rfl, h⟩ <;> exact h

/-- Every call of an operation. -/
theorem Ready.run (hF : Sizes F) {s s' : St} {m : KV} {op : Op} {r : Res Unit} (h : Ready F s m) (hr : op.run F s = (r, s')) :
    (r = .ok () ∧ op.valid F ∧ Ready F s' (op.apply m)) ∨
    (∃ e u, r = .err e ∧ usedLifetime F s = (.ok u, s) ∧ op.Refused F m u e ∧ Ready F s' m) ∨
    (r = .crash ∧ (Any F s'.fl m ∨ Any F s'.fl (op.apply m))) := by
  obtain ⟨g, slots, t, h1, h2⟩ := h
  have := run_tri hF h1 h2 op
  unfold Tri at this
  rw [hr] at this
  cases r with
  | ok _ => exact .inl ⟨rfl, this⟩
  | err e => exact .inr (.inl ⟨e, t, rfl, h1.tail hF, Full.refused this.1, this.2⟩)
  | crash =>
    refine .inr (.inr ⟨rfl, ?_⟩)
    rcases this with h3 | h3
    · exact .inl h3.any
    · exact .inr h3.any

theorem Reach.ready (hF : Sizes F) {s : St} (h : Reach F s) : ∃ m, Ready F s m := by
  induction h with
  | new h => exact ⟨_, any_reopen hF h any_new⟩
  | ok op h h' ih =>
    obtain ⟨m, ih⟩ := ih
    rcases ih.run hF h' with ⟨_, _, h1⟩ | ⟨_, _, h1, _⟩ | ⟨h1, _⟩
    · exact ⟨_, h1⟩
    · cases h1
    · cases h1
  | err op h h' ih =>
    obtain ⟨m, ih⟩ := ih
    rcases ih.run hF h' with ⟨h1, _⟩ | ⟨_, _, _, _, _, h1⟩ | ⟨h1, _⟩
    · cases h1
    · exact ⟨_, h1⟩
    · cases h1
  | crash op h h' h'' ih =>
    obtain ⟨m, ih⟩ := ih
    rcases ih.run hF h' with ⟨h1, _⟩ | ⟨_, _, h1, _⟩ | ⟨_, h1 | h1⟩
    · cases h1
    · cases h1
    · exact ⟨_, any_reopen hF h'' h1⟩
    · exact ⟨_, any_reopen hF h'' h1⟩
  | cycle h h' ih =>
    obtain ⟨m, g, slots, t, h1, h2⟩ := ih
    exact ⟨m, any_reopen hF h' (.inr (.inl h1.live))⟩

end Verif.Store
