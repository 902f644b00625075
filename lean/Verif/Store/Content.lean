import Verif.Store.LogWrite
import Verif.Store.Spec

/-!
# What a log contains
-/
namespace Verif.Store

variable {F : Format}

/-- The key and value of a user entry. -/
def Slot.ent (s : Slot) : Option (Nat × Bytes) :=
  match s.it with
  | .user k v => some (k, v)
  | _ => none

/-- The position of a user entry. -/
def Slot.upos (s : Slot) : Option Nat :=
  match s.it with
  | .user _ _ => some s.p
  | _ => none

/-- The size of a user entry. -/
def Slot.live (s : Slot) : Nat :=
  match s.it with
  | .user _ _ => s.q - s.p
  | _ => 0

/-- The user entries. -/
def uents (slots : List Slot) : List (Nat × Bytes) := slots.filterMap Slot.ent
/-- The positions of the user entries. -/
def upos (slots : List Slot) : List Nat := slots.filterMap Slot.upos
/-- The size of the user entries. -/
def live (slots : List Slot) : Nat := (slots.map Slot.live).sum
/-- The size of the user entries that start before `x`. -/
def liveTo (slots : List Slot) (x : Nat) : Nat := (slots.map fun s => if s.p < x then s.live else 0).sum

/-- The map that is stored. -/
structure Holds (slots : List Slot) (m : KV) : Prop where
  nodup : ((uents slots).map Prod.fst).Nodup
  iff : ∀ k v, m k = some v ↔ (k, v) ∈ uents slots

theorem uents_append (a b : List Slot) : uents (a ++ b) = uents a ++ uents b := by simp [uents]
theorem upos_append (a b : List Slot) : upos (a ++ b) = upos a ++ upos b := by simp [upos]
theorem live_append (a b : List Slot) : live (a ++ b) = live a + live b := by simp [live]
theorem liveTo_append (a b : List Slot) (x : Nat) : liveTo (a ++ b) x = liveTo a x + liveTo b x := by simp [liveTo]

theorem uents_mem {slots : List Slot} {k : Nat} {v : Bytes} : (k, v) ∈ uents slots ↔ ∃ s ∈ slots, s.it = .user k v := by
  simp only [uents, List.mem_filterMap]
  constructor
  · rintro ⟨s, hs, h⟩
    refine ⟨s, hs, ?_⟩
    cases hi : s.it <;> simp [Slot.ent, hi] at h ⊢
    exact h
  · rintro ⟨s, hs, h⟩
    exact ⟨s, hs, by simp [Slot.ent, h]⟩

theorem upos_mem {slots : List Slot} {p : Nat} : p ∈ upos slots ↔ ∃ s ∈ slots, s.p = p ∧ ∃ k v, s.it = .user k v := by
  simp only [upos, List.mem_filterMap]
  constructor
  · rintro ⟨s, hs, h⟩
    refine ⟨s, hs, ?_⟩
    cases hi : s.it <;> simp [Slot.upos, hi] at h ⊢
    exact h
  · rintro ⟨s, hs, e, k, v, h⟩
    exact ⟨s, hs, by simp [Slot.upos, h, e]⟩

/-! ## Replacing entries by padding -/

/-- The entry replaced by padding. -/
def Slot.pad (s : Slot) : Slot := { s with it := .pad }

/-- Some of the entries with the property are replaced by padding. -/
def Pads (P : Slot → Prop) : List Slot → List Slot → Prop
  | [], [] => True
  | s :: ss, s' :: ss' => (s' = s ∨ (P s ∧ s' = s.pad)) ∧ Pads P ss ss'
  | _, _ => False

section
variable {P P' : Slot → Prop}

theorem Pads.refl : (l : List Slot) → Pads P l l
  | [] => trivial
  | _ :: ss => ⟨.inl rfl, Pads.refl ss⟩

theorem Pads.trans : {a b c : List Slot} → Pads P a b → Pads P b c → Pads P a c
  | [], [], [], _, _ => trivial
  | s :: ss, s' :: ss', s'' :: ss'', h1, h2 => by
    refine ⟨?_, Pads.trans h1.2 h2.2⟩
    rcases h1.1 with h3 | ⟨h3, h4⟩
    · rw [h3] at h2; exact h2.1
    · right
      refine ⟨h3, ?_⟩
      rcases h2.1 with h5 | ⟨_, h5⟩
      · rw [h5, h4]
      · rw [h5, h4]; rfl
  | [], [], _ :: _, _, h2 => h2.elim
  | [], _ :: _, _, h1, _ => h1.elim
  | _ :: _, [], _, h1, _ => h1.elim
  | _ :: _, _ :: _, [], _, h2 => h2.elim

theorem Pads.mono : {a b : List Slot} → (∀ s ∈ a, P s → P' s) → Pads P a b → Pads P' a b
  | [], [], _, _ => trivial
  | s :: ss, s' :: ss', h, h1 => by
    refine ⟨?_, Pads.mono (fun s hs => h s (List.mem_cons_of_mem _ hs)) h1.2⟩
    rcases h1.1 with h3 | ⟨h3, h4⟩
    · exact .inl h3
    · exact .inr ⟨h s (by simp) h3, h4⟩
  | [], _ :: _, _, h1 => h1.elim
  | _ :: _, [], _, h1 => h1.elim

theorem Pads.append : {a a' b b' : List Slot} → Pads P a a' → Pads P b b' → Pads P (a ++ b) (a' ++ b')
  | [], [], _, _, _, h2 => h2
  | _ :: _, _ :: _, _, _, h1, h2 => ⟨h1.1, Pads.append h1.2 h2⟩
  | [], _ :: _, _, _, h1, _ => h1.elim
  | _ :: _, [], _, _, h1, _ => h1.elim

theorem Pads.of_append : {a b c : List Slot} → Pads P (a ++ b) c → ∃ a' b', c = a' ++ b' ∧ Pads P a a' ∧ Pads P b b'
  | [], b, c, h => ⟨[], c, rfl, trivial, h⟩
  | s :: ss, b, s' :: ss', h => by
    obtain ⟨a', b', e, h1, h2⟩ := Pads.of_append (a := ss) (b := b) h.2
    exact ⟨s' :: a', b', by rw [e]; rfl, ⟨h.1, h1⟩, h2⟩
  | _ :: _, _, [], h => h.elim

theorem Pads.mem : {a b : List Slot} → Pads P a b → ∀ s' ∈ b, ∃ s ∈ a, s' = s ∨ (P s ∧ s' = s.pad)
  | [], [], _, s', hs => by simp at hs
  | s :: ss, s0 :: ss', h, s', hs => by
    rcases List.mem_cons.1 hs with rfl | hs
    · exact ⟨s, by simp, h.1⟩
    · obtain ⟨s1, h1, h2⟩ := Pads.mem h.2 s' hs
      exact ⟨s1, List.mem_cons_of_mem _ h1, h2⟩
  | [], _ :: _, h, _, _ => h.elim
  | _ :: _, [], h, _, _ => h.elim

theorem Pads.mem' : {a b : List Slot} → Pads P a b → ∀ s ∈ a, s ∈ b ∨ (P s ∧ s.pad ∈ b)
  | [], [], _, s, hs => by simp at hs
  | s0 :: ss, s1 :: ss', h, s, hs => by
    rcases List.mem_cons.1 hs with rfl | hs
    · rcases h.1 with h1 | ⟨h1, h2⟩
      · exact .inl (by rw [h1]; simp)
      · exact .inr ⟨h1, by rw [h2]; simp⟩
    · rcases Pads.mem' h.2 s hs with h1 | ⟨h1, h2⟩
      · exact .inl (List.mem_cons_of_mem _ h1)
      · exact .inr ⟨h1, List.mem_cons_of_mem _ h2⟩
  | [], _ :: _, h, _, _ => h.elim
  | _ :: _, [], h, _, _ => h.elim

theorem Pads.padAt {p : Nat} : {slots : List Slot} → (∀ s ∈ slots, s.p = p → P s) → Pads P slots (padAt slots p)
  | [], _ => trivial
  | s :: ss, h => by
    refine ⟨?_, Pads.padAt (fun s hs => h s (List.mem_cons_of_mem _ hs))⟩
    by_cases e : s.p = p
    · exact .inr ⟨h s (by simp) e, by simp only [e, if_true]; simp [Slot.pad, ← e]⟩
    · exact .inl (by simp only [if_neg e])

theorem live_pad (s : Slot) : s.pad.live = 0 := rfl

theorem Pads.live_le : {a b : List Slot} → Pads P a b → live b ≤ live a
  | [], [], _ => Nat.le_refl _
  | s :: ss, s' :: ss', h => by
    have ih := Pads.live_le h.2
    simp only [live, List.map_cons, List.sum_cons] at ih ⊢
    rcases h.1 with rfl | ⟨_, rfl⟩
    · omega
    · rw [live_pad]; omega
  | [], _ :: _, h => h.elim
  | _ :: _, [], h => h.elim

theorem Pads.liveTo_le {x : Nat} : {a b : List Slot} → Pads P a b → liveTo b x ≤ liveTo a x
  | [], [], _ => Nat.le_refl _
  | s :: ss, s' :: ss', h => by
    have ih := Pads.liveTo_le (x := x) h.2
    simp only [liveTo, List.map_cons, List.sum_cons] at ih ⊢
    rcases h.1 with rfl | ⟨_, rfl⟩
    · omega
    · simp only [live_pad, ite_self]; omega
  | [], _ :: _, h => h.elim
  | _ :: _, [], h => h.elim

theorem Pads.uents_eq : {a b : List Slot} → Pads P a b → (∀ s ∈ a, P s → ∀ k v, s.it ≠ .user k v) → uents b = uents a ∧ upos b = upos a
  | [], [], _, _ => ⟨rfl, rfl⟩
  | s :: ss, s' :: ss', h, hp => by
    obtain ⟨h1, h2⟩ := Pads.uents_eq h.2 (fun s hs => hp s (List.mem_cons_of_mem _ hs))
    have he : s'.ent = s.ent ∧ s'.upos = s.upos := by
      rcases h.1 with rfl | ⟨h3, rfl⟩
      · exact ⟨rfl, rfl⟩
      · have := hp s (by simp) h3
        cases hi : s.it <;> simp [Slot.ent, Slot.upos, Slot.pad, hi] at this ⊢
    exact ⟨by simp only [uents, List.filterMap_cons, he.1] at h1 ⊢; rw [h1], by simp only [upos, List.filterMap_cons, he.2] at h2 ⊢; rw [h2]⟩
  | [], _ :: _, h, _ => h.elim
  | _ :: _, [], h, _ => h.elim

theorem Pads.sublist : {a b : List Slot} → Pads P a b → (uents b).Sublist (uents a)
  | [], [], _ => List.Sublist.refl _
  | s :: ss, s' :: ss', h => by
    have ih := Pads.sublist h.2
    simp only [uents] at ih
    rcases h.1 with rfl | ⟨_, rfl⟩
    · simp only [uents, List.filterMap_cons]
      cases s'.ent with
      | none => exact ih
      | some x => exact ih.cons_cons _
    · have : s.pad.ent = none := rfl
      simp only [uents, List.filterMap_cons, this]
      cases s.ent with
      | none => exact ih
      | some x => exact ih.cons _
  | [], _ :: _, h => h.elim
  | _ :: _, [], h => h.elim

end

/-- User entries whose keys are deleted. -/
def Del (del : Nat → Bool) (stop : Nat) (s : Slot) : Prop := s.p < stop ∧ ∃ k v, s.it = .user k v ∧ del k = true

theorem nodup_fst {l : List (Nat × Bytes)} (h : (l.map Prod.fst).Nodup) {k : Nat} {v v' : Bytes} (h1 : (k, v) ∈ l) (h2 : (k, v') ∈ l) : v = v' := by
  induction l with
  | nil => simp at h1
  | cons x xs ih =>
    simp only [List.map_cons, List.nodup_cons] at h
    rcases List.mem_cons.1 h1 with e1 | h1 <;> rcases List.mem_cons.1 h2 with e2 | h2
    · rw [← e1] at e2; exact (Prod.mk.inj e2).2.symm
    · exact absurd (List.mem_map.2 ⟨_, h2, by rw [← e1]⟩) h.1
    · exact absurd (List.mem_map.2 ⟨_, h1, by rw [← e2]⟩) h.1
    · exact ih h.2 h1 h2

/-- Deleting some entries. -/
theorem Holds.pads {slots slots' : List Slot} {m : KV} {del : Nat → Bool} {stop : Nat} (h : Holds slots m) (hp : Pads (Del del stop) slots slots') :
    ∃ m', Holds slots' m' ∧ ∀ k, del k = false → m' k = m k := by
  have hn : ((uents slots').map Prod.fst).Nodup := h.nodup.sublist (hp.sublist.map _)
  refine ⟨fun k => ((uents slots').find? (fun x => x.1 == k)).map Prod.snd, ⟨hn, fun k v => ?_⟩, fun k hk => ?_⟩
  · constructor
    · intro h1
      simp only [Option.map_eq_some_iff] at h1
      obtain ⟨⟨k', v'⟩, h2, rfl⟩ := h1
      have h3 := List.find?_some h2
      have h4 := List.mem_of_find?_eq_some h2
      have : k' = k := by simpa using h3
      rw [← this]; exact h4
    · intro h1
      cases hf : (uents slots').find? (fun x => x.1 == k) with
      | none => exact absurd (List.find?_eq_none.1 hf _ h1) (by simp)
      | some y =>
        have h3 := List.find?_some hf
        have h4 := List.mem_of_find?_eq_some hf
        obtain ⟨k', v'⟩ := y
        have : k' = k := by simpa using h3
        subst this
        simp only [Option.map_some]
        rw [nodup_fst hn h4 h1]
  · have hmem : ∀ v, (k, v) ∈ uents slots → (k, v) ∈ uents slots' := by
      intro v hv
      obtain ⟨s, hs, hi⟩ := uents_mem.1 hv
      rcases hp.mem' s hs with h1 | ⟨⟨_, k', v', h2, h3⟩, _⟩
      · exact uents_mem.2 ⟨s, h1, hi⟩
      · rw [hi] at h2
        cases h2
        rw [hk] at h3; cases h3
    show ((uents slots').find? (fun x => x.1 == k)).map Prod.snd = m k
    cases hf : (uents slots').find? (fun x => x.1 == k) with
    | none =>
      cases hm : m k with
      | none => rfl
      | some v => exact absurd (List.find?_eq_none.1 hf _ (hmem v ((h.iff k v).1 hm))) (by simp)
    | some y =>
      have h3 := List.find?_some hf
      have h4 := List.mem_of_find?_eq_some hf
      obtain ⟨k', v'⟩ := y
      have : k' = k := by simpa using h3
      subst this
      exact ((h.iff k' v').2 (hp.sublist.subset h4)).symm

theorem Holds.ext {slots : List Slot} {m m' : KV} (h : Holds slots m) (h' : Holds slots m') : m = m' := by
  funext k
  cases hm : m k with
  | some v => exact ((h'.iff k v).2 ((h.iff k v).1 hm)).symm
  | none =>
    cases hm' : m' k with
    | none => rfl
    | some v =>
      have := (h.iff k v).2 ((h'.iff k v).1 hm')
      rw [hm] at this; cases this

/-- Deleting all the entries with some keys. -/
theorem Holds.pads_all {slots slots' : List Slot} {m : KV} {del : Nat → Bool} {stop : Nat} (h : Holds slots m) (hp : Pads (Del del stop) slots slots')
    (hc : ∀ s ∈ slots', ∀ k v, s.it = .user k v → del k = false) : Holds slots' (fun k => if del k = true then none else m k) := by
  obtain ⟨m', h1, h2⟩ := h.pads hp
  have : m' = fun k => if del k = true then none else m k := by
    funext k
    by_cases hd : del k = true
    · rw [if_pos hd]
      cases hm : m' k with
      | none => rfl
      | some v =>
        obtain ⟨s, hs, hi⟩ := uents_mem.1 ((h1.iff k v).1 hm)
        rw [hc s hs k v hi] at hd; cases hd
    · rw [if_neg hd]; exact h2 k (by simpa using hd)
  rw [← this]; exact h1

theorem Holds.perm {slots slots' : List Slot} {m : KV} (h : Holds slots m) (hp : (uents slots').Perm (uents slots)) : Holds slots' m :=
  ⟨(hp.map _).nodup_iff.2 h.nodup, fun k v => (h.iff k v).trans hp.mem_iff.symm⟩

/-- Adding an entry. -/
theorem Holds.insert {slots : List Slot} {m : KV} {s : Slot} {k : Nat} {v : Bytes} (h : Holds slots m) (hs : s.it = .user k v) (hk : m k = none) :
    Holds (slots ++ [s]) (fun k' => if k' = k then some v else m k') := by
  have he : uents (slots ++ [s]) = uents slots ++ [(k, v)] := by rw [uents_append]; simp [uents, Slot.ent, hs]
  have hnk : ∀ v', (k, v') ∉ uents slots := fun v' hv => by
    have := (h.iff k v').2 hv
    rw [hk] at this; cases this
  refine ⟨?_, fun k' v' => ?_⟩
  · rw [he, List.map_append, List.nodup_append]
    refine ⟨h.nodup, by simp, ?_⟩
    intro a ha b hb e
    subst e
    simp only [List.map_cons, List.map_nil, List.mem_singleton] at hb
    obtain ⟨⟨k', v'⟩, h1, h2⟩ := List.mem_map.1 ha
    simp only at h2
    subst h2; subst hb
    exact hnk _ h1
  · rw [he, List.mem_append, List.mem_singleton]
    by_cases e : k' = k
    · subst e
      simp only [if_true]
      constructor
      · intro h1; right; rw [Option.some.inj h1]
      · rintro (h1 | h1)
        · exact absurd h1 (hnk v')
        · rw [(Prod.mk.inj h1).2]
    · rw [if_neg e]
      constructor
      · intro h1; exact .inl ((h.iff k' v').1 h1)
      · rintro (h1 | h1)
        · exact (h.iff k' v').2 h1
        · exact absurd (Prod.mk.inj h1).1 e

theorem Holds.of_append {a b : List Slot} {m : KV} (h : Holds (a ++ b) m) (hb : uents b = []) : Holds a m := by
  refine ⟨?_, fun k v => ?_⟩
  · have := h.nodup; rw [uents_append, hb, List.append_nil] at this; exact this
  · have := h.iff k v; rw [uents_append, hb, List.append_nil] at this; exact this

theorem Holds.append_pads {a b : List Slot} {m : KV} (h : Holds a m) (hb : uents b = []) : Holds (a ++ b) m := by
  refine ⟨?_, fun k v => ?_⟩
  · rw [uents_append, hb, List.append_nil]; exact h.nodup
  · rw [uents_append, hb, List.append_nil]; exact h.iff k v

theorem uents_none {slots : List Slot} (h : ∀ s ∈ slots, ∀ k v, s.it ≠ .user k v) : uents slots = [] := by
  cases hu : uents slots with
  | nil => rfl
  | cons x xs =>
    obtain ⟨k, v⟩ := x
    have : (k, v) ∈ uents slots := by rw [hu]; simp
    obtain ⟨s, hs, hi⟩ := uents_mem.1 this
    exact absurd hi (h s hs k v)

theorem upos_none {slots : List Slot} (h : ∀ s ∈ slots, ∀ k v, s.it ≠ .user k v) : upos slots = [] := by
  cases hu : upos slots with
  | nil => rfl
  | cons x xs =>
    have : x ∈ upos slots := by rw [hu]; simp
    obtain ⟨s, hs, _, k, v, hi⟩ := upos_mem.1 this
    exact absurd hi (h s hs k v)

theorem live_none : {slots : List Slot} → (∀ s ∈ slots, ∀ k v, s.it ≠ .user k v) → live slots = 0
  | [], _ => rfl
  | s :: ss, h => by
    have ih := live_none (slots := ss) (fun s hs => h s (List.mem_cons_of_mem _ hs))
    have h1 := h s (by simp)
    have : s.live = 0 := by cases hi : s.it <;> simp [Slot.live, hi] at h1 ⊢
    simp only [live, List.map_cons, List.sum_cons] at ih ⊢
    omega

theorem liveTo_le : (slots : List Slot) → (x : Nat) → liveTo slots x ≤ live slots
  | [], _ => Nat.le_refl _
  | s :: ss, x => by
    have ih := liveTo_le ss x
    simp only [live, liveTo, List.map_cons, List.sum_cons] at ih ⊢
    split <;> omega

theorem liveTo_all : {slots : List Slot} → {x : Nat} → (∀ s ∈ slots, s.p < x) → liveTo slots x = live slots
  | [], _, _ => rfl
  | s :: ss, x, h => by
    have ih := liveTo_all (slots := ss) (x := x) (fun s hs => h s (List.mem_cons_of_mem _ hs))
    simp only [live, liveTo, List.map_cons, List.sum_cons] at ih ⊢
    rw [if_pos (h s (by simp)), ih]

theorem liveTo_zero : {slots : List Slot} → {x : Nat} → (∀ s ∈ slots, x ≤ s.p) → liveTo slots x = 0
  | [], _, _ => rfl
  | s :: ss, x, h => by
    have ih := liveTo_zero (slots := ss) (x := x) (fun s hs => h s (List.mem_cons_of_mem _ hs))
    have := h s (by simp)
    simp only [liveTo, List.map_cons, List.sum_cons] at ih ⊢
    rw [if_neg (by omega), ih]

theorem Slot.live_le (s : Slot) : s.live ≤ s.q - s.p := by
  unfold Slot.live; split <;> omega

theorem Chain.live_le {fl : Flash} : {slots : List Slot} → {p t : Nat} → Chain F fl p slots t → live slots ≤ t - p
  | [], _, _, _ => by simp [live]
  | s :: ss, p, t, h => by
    have ih := Chain.live_le h.2.2
    have h1 := h.2.1.size
    have h2 := h.2.2.le
    have h3 := h.1
    have h4 := s.live_le
    simp only [live, List.map_cons, List.sum_cons] at ih ⊢
    omega

theorem Chain.live_split {fl : Flash} {x : Nat} : {slots : List Slot} → {p t : Nat} → Chain F fl p slots t → x ≤ t →
    live slots ≤ liveTo slots x + (t - x)
  | [], _, _, _, _ => by simp [live]
  | s :: ss, p, t, h, hx => by
    have ih := Chain.live_split (x := x) h.2.2 hx
    have h1 := h.2.1.size
    have h2 := h.2.2.le
    have h3 := h.1
    have h4 := s.live_le
    have h5 := Chain.live_le h.2.2
    simp only [live, liveTo, List.map_cons, List.sum_cons] at ih h5 ⊢
    split
    · omega
    · omega

/-! ## Capacity -/

/-- The invariant that leaves room for compactions: `x` is where the log ended when there was room for a reservation, and `i` is the number
of compactions since then. -/
structure Cap (F : Format) (g : Geo) (slots : List Slot) (t : Nat) : Prop where
  live : live slots ≤ F.C
  ex : ∃ x i, g.h ≤ x ∧ x ≤ t ∧ i + 2 ≤ F.N ∧ t + liveTo slots x ≤ F.C + i + x ∧ t ≤ g.h + F.V + i ∧ x + i * F.Q + F.Q ≤ g.b * F.Q + F.N * F.Q

theorem Cap.bound (hF : Sizes F) {g : Geo} {slots : List Slot} {t : Nat} (h : Cap F g slots t) (hM : g.h ≤ g.b * F.Q + F.M) :
    t + 1 ≤ g.h + F.W ∧ t + F.Q + 1 ≤ g.b * F.Q + F.N * F.Q := by
  obtain ⟨x, i, h1, h2, h3, h4, h5, h6⟩ := h.ex
  have := hF.v
  have := hF.wn
  omega

theorem Cap.pads {P : Slot → Prop} {g : Geo} {slots slots' : List Slot} {t : Nat} (h : Cap F g slots t) (hp : Pads P slots slots') : Cap F g slots' t := by
  obtain ⟨x, i, h1, h2, h3, h4, h5, h6⟩ := h.ex
  have h7 := hp.liveTo_le (x := x)
  exact ⟨Nat.le_trans hp.live_le h.live, x, i, h1, h2, h3, by omega, h5, h6⟩

theorem Cap.reset (hF : Sizes F) {g : Geo} {slots : List Slot} {t : Nat} (hl : Store.live slots ≤ F.C) (hM : g.h ≤ g.b * F.Q + F.M) (h0 : g.h ≤ t)
    (ht : t ≤ g.h + F.V) : Cap F g slots t := by
  have := hF.v
  have := hF.c
  have := hF.wn
  have := hF.n3
  have h1 := liveTo_le slots t
  exact ⟨hl, t, 0, h0, Nat.le_refl _, by omega, by omega, by omega, by omega⟩

/-- Compacting a page. -/
theorem Cap.compact (hF : Sizes F) {fl : Flash} {b h h' t : Nat} {w w' : Word} {A B cs : List Slot}
    (hc : Cap F ⟨b, h, w⟩ (A ++ B) t) (hA : Chain F fl h A h') (hB : Chain F fl h' B t)
    (hcs : ∀ s ∈ cs, t ≤ s.p) (hl : Store.live cs = Store.live A) (h1 : b * F.Q + F.Q ≤ h')
    (h2 : h' ≤ b * F.Q + F.Q + F.M) : Cap F ⟨b + 1, h', w'⟩ (B ++ cs) (t + Store.live A + 1) := by
  obtain ⟨x, i, e1, e2, e3, e4, e5, e6⟩ := hc.ex
  have hlive : Store.live (B ++ cs) ≤ F.C := by
    have := hc.live
    rw [live_append] at this ⊢; omega
  simp only at e1 e5 e6
  have hb1 : (b + 1) * F.Q = b * F.Q + F.Q := succ_mul' _
  have hAl := hA.live_le
  have hAle := hA.le
  have hBle := hB.le
  rw [liveTo_append] at e4
  have hn := hF.n3
  have hmq := hF.mq
  have hw := hF.wn
  have hv := hF.v
  have hcc := hF.c
  have hBmem := fun s hs => hB.mem s hs
  have hAmem := fun s hs => hA.mem s hs
  refine ⟨hlive, ?_⟩
  have hz : ∀ x, x ≤ t → liveTo cs x = 0 := fun x hx => liveTo_zero (fun s hs => Nat.le_trans hx (hcs s hs))
  by_cases hx : h' ≤ x
  · have hAx : liveTo A x = Store.live A := liveTo_all (fun s hs => by have := hAmem s hs; omega)
    by_cases hi : i + 3 ≤ F.N
    · refine ⟨x, i + 1, hx, by omega, by omega, ?_, by simp only; omega, ?_⟩
      · rw [liveTo_append, hz x e2]; omega
      · simp only [hb1, succ_mul']; omega
    · have hi' : i + 2 = F.N := by omega
      have e : i * F.Q + 2 * F.Q = F.N * F.Q := by rw [← Nat.add_mul, hi']
      refine ⟨t + Store.live A + 1, 0, by simp only; omega, by omega, by omega, ?_, by simp only; omega, ?_⟩
      · have := liveTo_le (B ++ cs) (t + Store.live A + 1); omega
      · simp only [hb1]; omega
  · have hx' : x ≤ h' := by omega
    have hsp := hA.live_split hx'
    have hBz : liveTo B h' = 0 := liveTo_zero (fun s hs => (hBmem s hs).1)
    by_cases hi : i + 3 ≤ F.N
    · refine ⟨h', i + 1, Nat.le_refl _, by omega, by omega, ?_, by simp only; omega, ?_⟩
      · rw [liveTo_append, hz h' hBle, hBz]; omega
      · have : (i + 3) * F.Q ≤ F.N * F.Q := mul_mono hi
        rw [Nat.add_mul] at this
        simp only [hb1, succ_mul']; omega
    · have hi' : i + 2 = F.N := by omega
      have e : i * F.Q + 2 * F.Q = F.N * F.Q := by rw [← Nat.add_mul, hi']
      refine ⟨t + Store.live A + 1, 0, by simp only; omega, by omega, by omega, ?_, by simp only; omega, ?_⟩
      · have := liveTo_le (B ++ cs) (t + Store.live A + 1); omega
      · simp only [hb1]; omega

/-- Compacting the only page. -/
theorem Cap.gap (hF : Sizes F) {b : Nat} {w' : Word} {cs : List Slot} (hl : Store.live cs ≤ F.C) :
    (hcs : ∀ s ∈ cs, b * F.Q + F.Q ≤ s.p) → Cap F ⟨b + 1, b * F.Q + F.Q, w'⟩ cs (b * F.Q + F.Q + Store.live cs + 1) := by
  intro hcs
  have hn := hF.n3
  have hcc := hF.c
  refine ⟨hl, b * F.Q + F.Q, 1, Nat.le_refl _, by omega, by omega, ?_, by simp only; omega, ?_⟩
  · rw [liveTo_zero hcs]; omega
  · have : 3 * F.Q ≤ F.N * F.Q := mul_mono hn
    simp only [succ_mul']; omega

end Verif.Store
