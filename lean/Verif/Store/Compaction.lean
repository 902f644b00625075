import Verif.Store.Compact

/-!
# The functions of the compaction
-/
namespace Verif.Store

variable {F : Format}

theorem users_split {stop : Nat} {A B : List Slot} (hA : ∀ s ∈ A, stop ≤ s.p → s.it = .pad) (hB : ∀ s ∈ B, stop ≤ s.p) :
    users stop (A ++ B) = uitems (uents A) := by
  rw [users_eq, List.filter_append, uents_append]
  have h1 : B.filter (fun s => decide (s.p < stop)) = [] := by
    rw [List.filter_eq_nil_iff]
    intro s hs
    have := hB s hs
    simp; omega
  have h2 : uents (A.filter fun s => decide (s.p < stop)) = uents A := uents_filter (fun s hs h => by
    have : stop ≤ s.p := by simpa using h
    simp [Slot.ent, hA s hs this])
  rw [h1, h2]
  simp [uents]

theorem upos_split {stop : Nat} {A B : List Slot} (hA : ∀ s ∈ A, stop ≤ s.p → s.it = .pad) (hB : ∀ s ∈ B, stop ≤ s.p) :
    upos ((A ++ B).filter fun s => decide (stop ≤ s.p)) = upos B := by
  rw [List.filter_append, upos_append]
  have h1 : B.filter (fun s => decide (stop ≤ s.p)) = B := List.filter_eq_self.2 (fun s hs => by simpa using hB s hs)
  have h2 : upos (A.filter fun s => decide (stop ≤ s.p)) = [] := upos_none (fun s hs k v hi => by
    have := List.mem_filter.1 hs
    rw [hA s this.1 (by simpa using this.2)] at hi
    cases hi)
  rw [h1, h2]; rfl

/-- There is room for the copies. -/
theorem Src.of (hF : Sizes F) {fl : Flash} {g : Geo} {slots : List Slot} {t : Nat} {m : KV} (L : Log F fl g slots t t t)
    (items : ∀ s ∈ slots, UP s) (ne : g.b ≠ 0 → g.h < t) (holds : Holds slots m) (cap : Cap F g slots t) (hE : g.b < F.E * F.N) :
    ∃ T G, Src F g slots t T G m := by
  refine ⟨_, _, rfl, rfl, items, ne, holds, cap, hE, ?_⟩
  have hb := L.hb
  have hM := L.hM
  have hwn := hF.wn
  have hv := hF.v
  have hc := hF.c
  have hn := hF.n3
  have hmem := L.chain.mem
  rcases Nat.lt_or_ge t (g.b * F.Q + F.Q) with h1 | h1
  · rw [Nat.max_eq_right (by omega)]
    have := users_split (stop := g.b * F.Q + F.Q) (A := slots) (B := []) (fun s hs h => by have := hmem s hs; omega) (by simp)
    rw [List.append_nil] at this
    rw [this, total_uitems, ← L.chain.live_eq]
    have := cap.live
    omega
  · rw [Nat.max_eq_left h1]
    have hx : ∃ x, g.b * F.Q + F.Q ≤ x ∧ x ≤ g.b * F.Q + F.Q + F.M ∧ Bound slots t x ∧ ∀ s ∈ slots, g.b * F.Q + F.Q ≤ s.p → s.p < x → s.it = .pad := by
      rcases Nat.eq_or_lt_of_le h1 with h2 | h2
      · exact ⟨t, h1, by omega, .inl rfl, fun s hs h3 h4 => by omega⟩
      · obtain ⟨x, c1, c2, _, c4, c5⟩ := L.cov (g.b + 1) (by omega) (by rw [succ_mul']; exact h2)
        rw [succ_mul'] at c1 c2 c5
        exact ⟨x, c1, c2, c4, c5⟩
    obtain ⟨x, x1, x2, x3, x4⟩ := hx
    obtain ⟨A, B, rfl, hA, hB⟩ := L.chain.split x x3
    have hu := users_split (stop := g.b * F.Q + F.Q) (A := A) (B := B) (fun s hs h => x4 s (by simp [hs]) h (by have := hA.mem s hs; omega))
      (fun s hs => by have := hB.mem s hs; omega)
    rw [hu, total_uitems, ← hA.live_eq]
    have hcap : Cap F ⟨g.b, g.h, g.w⟩ (A ++ B) t := cap
    have := hcap.compact hF (w' := erasedWord) hA hB (cs := place t (uitems (uents A))) (fun s hs => (place_mem s hs).1)
      (by rw [live_place, hA.live_eq]) x1 x2
    have := (this.bound hF (by simp only [succ_mul']; omega)).2
    simp only [succ_mul'] at this
    omega

section
variable {fl : Flash} {g : Geo} {slots : List Slot} {t T : Nat} {G : List Slot} {m : KV}

theorem Src.gap_ne (h : Src F g slots t T G m) : ∀ s ∈ G, s.it = .gap ∧ s.q = g.b * F.Q + F.Q ∧ T = g.b * F.Q + F.Q ∧ s.p = t := by
  intro s hs
  have hT := h.hT
  rw [h.hG] at hs
  split at hs
  · have : s = ⟨t, T, .gap⟩ := by simpa using hs
    subst this
    exact ⟨rfl, by simp only; omega, by omega, rfl⟩
  · simp at hs

theorem Src.users (h : Src F g slots t T G m) (stop : Nat) : Store.users stop (slots ++ G) = Store.users stop slots := by
  have : uents (G.filter fun s => decide (s.p < stop)) = [] := uents_none (fun s hs k v hi => by
    have := (h.gap_ne s (List.mem_filter.1 hs).1).1
    rw [this] at hi; cases hi)
  rw [users_eq, users_eq, List.filter_append, uents_append, this, List.append_nil]

theorem Src.tail (hF : Sizes F) (h : Src F g slots t T G m) (hb : g.b * F.Q ≤ g.h) (hM : g.h ≤ g.b * F.Q + F.M) :
    g.b * F.Q < T ∧ g.b * F.Q + F.Q ≤ T ∧ g.h ≤ T ∧ T - g.h ≤ F.W := by
  have hT := h.hT
  have h1 := (h.cap.bound hF hM).1
  have := hF.q6
  have := hF.wq
  have := hF.mq
  omega

/-- The log with the end of its first page skipped. -/
theorem Src.log (hF : Sizes F) (h : Src F g slots t T G m) (L : Log F fl g slots t t t) : Log F fl g (slots ++ G) T T T := by
  have hT := h.hT
  rw [h.hG]
  split
  · exact L.skip hF (by omega) (by omega)
  · have : T = t := by omega
    rw [this, List.append_nil]; exact L

/-- How much a compaction lengthens the log: positions are moved by at most one word more than the entries that were before `x`. -/
structure Moved (h : Nat) (slots : List Slot) (t h' : Nat) (slots' : List Slot) (t' : Nat) : Prop where
  le : t ≤ t'
  to : ∀ x, h ≤ x → x ≤ t →
    (h' ≤ x ∧ t' + liveTo slots' x ≤ t + liveTo slots x + 1) ∨ (x < h' ∧ t' + x ≤ h' + t + liveTo slots x + 1)

/-- The page can be erased. -/
theorem Src.advance (hF : Sizes F) (h : Src F g slots t T G m)
    (L : Log F fl g (slots ++ G ++ place T (Store.users (g.b * F.Q + F.Q) slots ++ [eraseItem F g.b])) (T + total (Store.users (g.b * F.Q + F.Q) slots) + 1)
      (T + total (Store.users (g.b * F.Q + F.Q) slots) + 1) (T + total (Store.users (g.b * F.Q + F.Q) slots) + 1)) :
    ∃ g' sl, g.h ≤ g'.h ∧ Erasing F fl g.b g.h g' sl ⟨T + total (Store.users (g.b * F.Q + F.Q) slots), T + total (Store.users (g.b * F.Q + F.Q) slots) + 1, eraseItem F g.b⟩
        (T + total (Store.users (g.b * F.Q + F.Q) slots) + 1) m ∧
      upos sl = upos ((slots ++ G).filter fun s => decide (g.b * F.Q + F.Q ≤ s.p)) ++ upos (place T (Store.users (g.b * F.Q + F.Q) slots)) ∧
      Moved g.h slots t g'.h sl (T + total (Store.users (g.b * F.Q + F.Q) slots) + 1) := by
  have hb := L.hb
  have hM := L.hM
  have hmq := hF.mq
  obtain ⟨h0, hT1, _, _⟩ := h.tail hF hb hM
  obtain ⟨U, hU⟩ : ∃ U, U = Store.users (g.b * F.Q + F.Q) slots := ⟨_, rfl⟩
  rw [← hU] at L ⊢
  obtain ⟨h', A, B, hS, hA, hB, h1, h2, h3, h4, L'⟩ := L.advance hF hT1 (by simp) (fun it hit => by
    rcases List.mem_append.1 hit with h5 | h5
    · rw [hU, users_eq, uitems] at h5
      obtain ⟨kv, _, rfl⟩ := List.mem_map.1 h5
      simp
    · have : it = eraseItem F g.b := by simpa using h5
      rw [this]; simp [eraseItem]) h.hE
  have hBm : ∀ s ∈ B, g.b * F.Q + F.Q ≤ s.p := fun s hs => by have := hB.mem s hs; omega
  have hUA : U = uitems (uents A) := by rw [hU, ← h.users, hS]; exact users_split h4 hBm
  have huG : uents G = [] := uents_none (fun s hs k v hi => by rw [(h.gap_ne s hs).1] at hi; cases hi)
  have hHolds : Holds (A ++ B) m := by rw [← hS]; exact h.holds.append_pads huG
  have hlA : live A = usz (uents A) := hA.live_eq
  have e0 : B ++ place T (U ++ [eraseItem F g.b]) = (B ++ place T U) ++ [⟨T + total U, T + total U + 1, eraseItem F g.b⟩] := by
    rw [place_append, List.append_assoc]; rfl
  have hUP : ∀ s ∈ B ++ place T U, UP s := by
    intro s hs
    rcases List.mem_append.1 hs with h5 | h5
    · have h6 : s ∈ slots ++ G := by rw [hS]; simp [h5]
      rcases List.mem_append.1 h6 with h7 | h7
      · exact h.items s h7
      · have h8 := h.gap_ne s h7
        have h9 := hB.mem s h5
        have h10 := hBm s h5
        omega
    · have h6 := (place_mem s h5).2
      rw [hUA, uitems] at h6
      obtain ⟨kv, _, h7⟩ := List.mem_map.1 h6
      exact .user h7.symm
  have hcap : Cap F ⟨g.b + 1, h', erasedWord⟩ ((B ++ place T U) ++ [⟨T + total U, T + total U + 1, eraseItem F g.b⟩]) (T + total U + 1) := by
    rw [← e0]
    have hlp : live (place T (U ++ [eraseItem F g.b])) = live A := by
      rw [place_append, live_append, hUA, live_place, hlA]
      simp [place, live, Slot.live, eraseItem]
    have htU : total U = live A := by rw [hUA, total_uitems, hlA]
    have hT := h.hT
    by_cases hg : t < T
    · have hTe : T = g.b * F.Q + F.Q := by omega
      have hhe : h' = T := by omega
      have hBn : B = [] := by
        cases B with
        | nil => rfl
        | cons s B =>
          have h5 := hB.mem s (by simp)
          omega
      subst hBn
      rw [List.append_nil] at hS
      have hGs : slots ++ G = slots ++ [⟨t, T, .gap⟩] := by rw [h.hG, if_pos hg]
      have hl : live A ≤ F.C := by
        rw [← hS, hGs, live_append]
        have := h.cap.live
        simp [live, Slot.live] at this ⊢
        exact this
      have := Cap.gap hF (b := g.b) (w' := erasedWord) (cs := place T (U ++ [eraseItem F g.b])) (by rw [hlp]; exact hl) (fun s hs => by
        have := (place_mem s hs).1; omega)
      rw [hlp, ← htU] at this
      rw [List.nil_append, hhe, hTe]
      rw [hTe] at this
      exact this
    · have hTe : T = t := by omega
      have hGs : slots ++ G = slots := by rw [h.hG, if_neg hg, List.append_nil]
      have hc : Cap F ⟨g.b, g.h, g.w⟩ (A ++ B) t := by rw [← hS, hGs]; exact h.cap
      have := hc.compact hF (w' := erasedWord) hA (hTe ▸ hB) (cs := place T (U ++ [eraseItem F g.b])) (fun s hs => by
        have := (place_mem s hs).1; omega) hlp h1 h2
      rw [htU, hTe]
      rw [hTe] at this
      exact this
  refine ⟨⟨g.b + 1, h', erasedWord⟩, B ++ place T U, by simp only; omega, ⟨by rw [← e0]; exact L', rfl, rfl, rfl, by rw [L.ini0]; exact Le.refl _, hb, hM, h.hE, hUP, ?_, hcap⟩, ?_, ?_⟩
  · refine hHolds.perm ?_
    rw [uents_append, uents_append, hUA, uents_place]
    exact List.perm_append_comm
  · rw [hS, upos_split h4 hBm, upos_append]
  · have htU : total U = live A := by rw [hUA, total_uitems, hlA]
    have hT := h.hT
    refine ⟨by omega, fun x hx1 hx2 => ?_⟩
    simp only
    rw [htU]
    by_cases hg : t < T
    · right
      have hhe : h' = T := by omega
      have hBn : B = [] := by
        cases B with
        | nil => rfl
        | cons s B =>
          have h5 := hB.mem s (by simp)
          omega
      subst hBn
      rw [List.append_nil] at hS
      have hGs : slots ++ G = slots ++ [⟨t, T, .gap⟩] := by rw [h.hG, if_pos hg]
      have hl : live A = live slots := by
        rw [← hS, hGs, live_append]
        simp [live, Slot.live]
      have hA' := hA
      rw [← hS, hGs] at hA'
      obtain ⟨y, hA1, hA2⟩ := hA'.of_append
      have hy : t = y := hA2.1
      subst hy
      have := hA1.live_split hx2
      omega
    · have hTe : T = t := by omega
      have hGs : slots = A ++ B := by rw [← hS, h.hG, if_neg hg, List.append_nil]
      rw [hGs, liveTo_append A B]
      by_cases hx : h' ≤ x
      · left
        have hAx : liveTo A x = live A := liveTo_all (fun s hs => by have := hA.mem s hs; omega)
        have hz : liveTo (place T U) x = 0 := liveTo_zero (fun s hs => by have := (place_mem s hs).1; omega)
        rw [liveTo_append]
        omega
      · right
        have := hA.live_split (x := x) (by omega)
        omega

end

/-! ## Erasing -/

theorem rebase_ok {h0 h' : Nat} (h1 : h0 ≤ h') (h2 : h' - h0 < 65536) : (es : List Nat) → (∀ e ∈ es, h' - h0 ≤ e) →
    rebase h0 h' es = .ok (es.map (· - (h' - h0)))
  | [], _ => rfl
  | e :: es, h => by
    have ih := rebase_ok h1 h2 es (fun e he => h e (List.mem_cons_of_mem _ he))
    have he := h e (by simp)
    simp only [rebase, offsetOf]
    rw [if_neg (by omega)]
    simp only [bind, Except.bind, ih]
    rw [if_neg (by omega)]
    rfl

/-- The fields of the store before the head changes. -/
def Rebasable (i : Bool) (st : St) (g : Geo) (sl : List Slot) : Prop :=
  match i with
  | true => ∃ h0, h0 ≤ g.h ∧ g.h - h0 < 65536 ∧ st.head = some h0 ∧ ∃ es, st.entries = some es ∧ (es.map (h0 + ·)).Perm (upos sl)
  | false => st.entries = none

theorem tri_rebase {i : Bool} {st : St} {g : Geo} {sl : List Slot} (h : Rebasable i st g sl) (hsl : ∀ s ∈ sl, g.h ≤ s.p) {P : Unit → St → Prop}
    {E : Err → St → Prop} {C : Flash → Prop} (hP : ∀ st', st'.fl = st.fl → EntsI i { st' with head := some g.h } g sl → P () st') :
    Tri (fun s => rebaseEntries g.h s.entries s) st P E C := by
  show Tri (rebaseEntries g.h st.entries) st P E C
  cases i with
  | false =>
    have h' : st.entries = none := h
    rw [h']
    exact tri_pure (hP st rfl ⟨rfl, h'⟩)
  | true =>
    obtain ⟨h0, h1, h2, h3, es, h4, h5⟩ := h
    rw [h4]
    have hes : ∀ e ∈ es, g.h - h0 ≤ e := by
      intro e he
      have : h0 + e ∈ upos sl := h5.mem_iff.1 (List.mem_map.2 ⟨e, he, rfl⟩)
      obtain ⟨s, hs, e1, _⟩ := upos_mem.1 this
      have := hsl s hs
      omega
    apply tri_bind
    refine tri_getHead h3 ?_
    apply tri_bind
    refine tri_liftE (a := g.h - h0) (by rw [offsetOf, if_neg (by omega)]) ?_
    apply tri_bind
    refine tri_liftE (rebase_ok h1 h2 es hes) ?_
    refine tri_setEntries (hP _ rfl ⟨rfl, _, rfl, ?_⟩)
    have : (es.map (· - (g.h - h0))).map (g.h + ·) = es.map (h0 + ·) := by
      rw [List.map_map]
      refine List.map_congr_left (fun e he => ?_)
      have := hes e he
      simp only [Function.comp]; omega
    rw [this]; exact h5

section
variable {fl fl' : Flash} {b h : Nat} {g : Geo} {sl slots : List Slot} {es : Slot} {t : Nat} {m : KV}

/-- The last page of a log that has room is erased. -/
theorem Log.erased (hF : Sizes F) (L : Log F fl g slots t t t) (hb : g.b = b + 1) (ht : t + F.Q ≤ g.b * F.Q + F.N * F.Q)
    (h : ∀ p i, p ≠ b % F.N → fl' p i = fl p i) (h' : ∀ i, i < F.pageWords → fl' (b % F.N) i = erasedWord) : Log F fl' g slots t t t := by
  have hn := hF.n3
  have hq := hF.q6
  have hpw := hF.pw
  have e1 : (b + F.N) * F.Q = b * F.Q + F.N * F.Q := Nat.add_mul _ _ _
  have e2 : g.b * F.Q = b * F.Q + F.Q := by rw [hb, succ_mul']
  have hpg : ∀ a, b < a → a < b + 1 + F.N → a ≠ b + F.N → a % F.N ≠ b % F.N := fun a h1 h2 h3 e => by
    have := mod_inj (N := F.N) (b := b) (by omega) (by omega) (Nat.le_refl _) (by omega) e
    omega
  have hl : (b + F.N) % F.N = b % F.N := by simp
  refine L.congr hF (fun a h1 h2 => ?_) (fun x h1 h2 => ?_)
  · by_cases ha : a = b + F.N
    · subst ha
      rw [L.inie (b + F.N) (by omega) h2 (by omega), L.cmpe (b + F.N) (by omega) h2]
      show fl' ((b + F.N) % F.N) 0 = _ ∧ fl' ((b + F.N) % F.N) 1 = _
      rw [hl]
      exact ⟨h' 0 (by omega), h' 1 (by omega)⟩
    · exact ⟨h _ _ (hpg a (by omega) (by omega) ha), h _ _ (hpg a (by omega) (by omega) ha)⟩
  · have hd := div_bounds (Q := F.Q) (x := x) (by omega)
    have hhb := L.hb
    by_cases hx : b * F.Q + F.N * F.Q ≤ x
    · rw [L.blank x (by omega) h2, rd_eq, div_of (a := b + F.N) (by omega) (by omega), hl]
      exact h' _ (by have := Nat.mod_lt x (show 0 < F.Q by omega); omega)
    · rw [rd_eq, rd_eq]
      refine h _ _ (hpg _ ?_ ?_ ?_)
      · apply lt_of_mul (Q := F.Q); omega
      · have := page_of_lt (F := F) (b := b + 1) (a := x / F.Q) (x := x + 1) (by omega) (by rw [succ_mul']; omega)
        omega
      · intro e
        rw [e] at hd
        omega

theorem Erasing.bound (hF : Sizes F) (h1 : Erasing F fl b h g sl es t m) : t + F.Q + 1 ≤ g.b * F.Q + F.N * F.Q := (h1.cap.bound hF h1.log.hM).2

theorem erase_same {fl fl' : Flash} {p : Nat} (h : ∀ q i, q ≠ p → fl' q i = fl q i) : fl'.erase p = fl.erase p := by
  funext q i
  simp only [Flash.erase]
  split
  · rfl
  · rename_i h1; exact h q i h1

/-- The page is erased. -/
theorem Erasing.done (hF : Sizes F) (h1 : Erasing F fl b h g sl es t m) (h2 : ∀ p i, p ≠ b % F.N → fl' p i = fl p i)
    (h3 : ∀ i, i < F.pageWords → fl' (b % F.N) i = erasedWord) : Log F fl' g (sl ++ [es]) t t t := by
  have := h1.bound hF
  refine h1.log.erased hF h1.hb (by omega) (fun p i hp => ?_) h3
  simp only [Flash.erase]
  rw [if_neg hp]; exact h2 p i hp

/-- Once the page is erased, it may be erased again. -/
theorem Erasing.again (hF : Sizes F) (h1 : Erasing F fl b h g sl es t m) (L : Log F fl' g (sl ++ [es]) t t t) : Erasing F fl' b h g sl es t m := by
  have hn := hF.n3
  have hb := h1.bound hF
  have e : g.b * F.Q = b * F.Q + F.Q := by rw [h1.hb, succ_mul']
  refine ⟨L.erased hF h1.hb (by omega) (fun p i hp => ?_) (fun i hi => ?_), h1.hb, h1.w, h1.it, ?_, h1.h1, h1.h2, h1.hE, h1.items, h1.holds, h1.cap⟩
  · simp [Flash.erase, hp]
  · simp [Flash.erase]
  · have := L.inie (b + F.N) (by have := h1.hb; omega) (by have := h1.hb; omega) (by rw [Nat.add_mul]; omega)
    have e2 : Store.ini F fl' b = Store.ini F fl' (b + F.N) := by simp [Store.ini]
    rw [e2, this]; exact le_erased _

theorem Erasing.split (_h1 : Erasing F fl b h g sl es t m) {fl' : Flash} (L : Log F fl' g (sl ++ [es]) t t t) :
    es.q = t ∧ padAt (sl ++ [es]) es.p = sl ++ [es.pad] := by
  obtain ⟨x, c1, c2⟩ := L.chain.of_append
  refine ⟨c2.2.2, ?_⟩
  have hm := c1.mem
  have e1 : padAt (sl ++ [es]) es.p = padAt sl es.p ++ padAt [es] es.p := by simp [padAt]
  rw [e1, padAt_nop (fun s hs => by have := hm s hs; have := c2.1; omega)]
  simp [padAt, Slot.pad]

theorem Erasing.good (_hF : Sizes F) (h1 : Erasing F fl b h g sl es t m) {fl' : Flash} (L : Log F fl' g (sl ++ [es.pad]) t t t) :
    Good F fl' g (sl ++ [es.pad]) t m := by
  have hm := L.chain.mem es.pad (by simp)
  refine ⟨L, h1.w, ?_, fun _ => by omega, h1.holds.append_pads (by simp [uents, Slot.ent, Slot.pad]), ?_⟩
  · intro s hs
    rcases List.mem_append.1 hs with h2 | h2
    · exact h1.items s h2
    · have : s = es.pad := by simpa using h2
      rw [this]; exact .inl rfl
  · exact h1.cap.pads (P := fun _ => True) (Pads.append (Pads.refl _) ⟨.inr ⟨trivial, rfl⟩, trivial⟩)

end

theorem compactErase_tri (hF : Sizes F) {st : St} {b h t : Nat} {g : Geo} {sl : List Slot} {es : Slot} {m : KV} {i : Bool}
    (h1 : Erasing F st.fl b h g sl es t m) (hr : Rebasable i st g sl) :
    Tri (compactErase F es.p) st
      (fun _ st' => Good F st'.fl g (sl ++ [es.pad]) t m ∧ EntsI i st' g (sl ++ [es.pad]))
      (fun _ _ => False)
      (fun fl' => Comp F fl' m ∨ Live F fl' m) := by
  have hn := hF.n3
  have hq := hF.q6
  have hbd := h1.bound hF
  have hgb := h1.hb
  have eQ : g.b * F.Q = b * F.Q + F.Q := by rw [hgb, succ_mul']
  have hmem := h1.log.chain.mem es (by simp)
  have hhb := h1.log.hb
  have hhM := h1.log.hM
  have hmq := hF.mq
  have hit : ItemAt F (st.fl.erase (b % F.N)) es.p es.q (.int (.erase (b % F.N))) := by
    have := hmem.2.2.2
    rw [h1.it] at this
    exact this
  have hqs := hit.2.2
  have hrd : rd F (st.fl.erase (b % F.N)) es.p = rd F st.fl es.p := by
    have hd := div_bounds (Q := F.Q) (x := es.p) (by omega)
    rw [rd_eq, rd_eq]
    simp only [Flash.erase]
    rw [if_neg]
    intro e
    have ha1 : b < es.p / F.Q := by apply lt_of_mul (Q := F.Q); omega
    have ha2 : es.p / F.Q < b + F.N := page_of_lt (x := es.p + 1) (by omega) (by omega)
    have := mod_inj (N := F.N) (b := b) (by omega) ha2 (Nat.le_refl _) (by omega) e
    omega
  have hparse : parseEntry F st.fl es.p = .ok (.internal (.erase (b % F.N)), es.q) :=
    parse_int hF (hit.congr hF (fun x hx hx' => by
      have : x = es.p := by omega
      rw [this, hrd]))
  have hslh : ∀ s ∈ sl, g.h ≤ s.p := fun s hs => (h1.log.chain.mem s (by simp [hs])).1
  apply tri_bind
  show Tri (getFl >>= fun fl => liftE (parseEntry F fl es.p)) st _ _ _
  apply tri_bind
  refine tri_getFl ?_
  refine tri_liftE hparse ?_
  apply tri_bind
  refine tri_liftE (a := b % F.N) rfl ?_
  apply tri_bind
  refine tri_fls (storageErase_fls F (b % F.N) st.fl) ?_ ?_
  · rintro _ st1 e1 e2 ⟨hE1, hE2⟩
    have L1 := h1.done hF hE1 hE2
    have hpage : (b % F.N + 1) % F.N = g.b % F.N := by rw [hgb, Nat.mod_add_mod]
    have hhead := L1.head hF
    have hph := hhead.pageHead hF
    apply tri_bind
    refine tri_getFl ?_
    apply tri_bind
    refine tri_liftE (a := .valid ⟨g.b / F.N, g.h - g.b * F.Q⟩) (by rw [hpage]; exact hhead.word) ?_
    apply tri_bind
    refine tri_liftE (a := ⟨g.b / F.N, g.h - g.b * F.Q⟩) rfl ?_
    rw [hpage, hph]
    have hr1 : Rebasable i st1 g sl := by
      cases i with
      | true =>
        obtain ⟨h0, r1, r2, r3, es', r4, r5⟩ := hr
        exact ⟨h0, r1, r2, e1.trans r3, es', e2.trans r4, r5⟩
      | false =>
        have : st.entries = none := hr
        exact e2.trans this
    apply tri_bind
    refine tri_rebase hr1 hslh ?_
    intro st2 f2 hE2'
    apply tri_bind
    refine tri_setHead ?_
    have hpb : F.pageBegin g.h = g.b * F.Q := by
      rw [Format.pageBegin, div_of (a := g.b) (by omega) (by omega)]
    rw [hpb]
    have L2 : Log F st2.fl g (sl ++ [es]) t t t := by rw [f2]; exact L1
    have hwipe := wipe_fls (fl := st2.fl) hF (b := g.b) (p := g.b * F.Q) (n := g.h - g.b * F.Q) (Nat.le_refl _) (by omega) (by omega)
    have hafter : ∀ fl', Fr F g.b st2.fl fl' (g.b * F.Q) (g.b * F.Q + (g.h - g.b * F.Q)) → Log F fl' g (sl ++ [es]) t t t := fun fl' hf =>
      L2.congr hF (fun a _ _ => ⟨hf.ini a, hf.cmp a⟩) (fun x h3 h4 => hf.other x ⟨by omega, by omega⟩ (by omega))
    apply tri_bind
    refine tri_fls hwipe ?_ ?_
    · rintro _ st3 e3 e4 ⟨hf, _⟩
      have L3 := hafter _ hf
      obtain ⟨hq', hpad⟩ := h1.split L3
      refine tri_fls (L3.setPadding hF (s := es) (by simp) h1.it) ?_ ?_
      · rintro _ st4 e5 e6 ⟨_, L4⟩
        rw [hpad] at L4
        refine ⟨h1.good hF L4, hE2'.congr (e5.trans e3) (e6.trans e4) ?_⟩
        have : upos [es.pad] = [] := rfl
        rw [upos_append, this, List.append_nil]
      · rintro fl' ⟨_, L4 | L4⟩
        · exact .inl (.erase (h1.again hF L4))
        · rw [hpad] at L4
          exact .inr (h1.good hF L4).live
    · rintro fl' ⟨hf, _⟩
      exact .inl (.erase (h1.again hF (hafter _ hf)))
  · rintro fl' ⟨hE1, hE2⟩
    have e := erase_same hE1
    exact .inl (.erase ⟨by rw [e]; exact h1.log, h1.hb, h1.w, h1.it, Le.trans h1.ini (hE2 0), h1.h1, h1.h2, h1.hE, h1.items, h1.holds, h1.cap⟩)

/-! ## Copying -/

theorem Prog.nil {fl : Flash} {g : Geo} {S : List Slot} {T : Nat} (h : Prog F fl g S T []) : Log F fl g S T T T := by
  obtain ⟨more, rest, h1, c, e, L, h2⟩ := h
  obtain ⟨rfl, rfl⟩ := List.append_eq_nil_iff.1 h1.symm
  simp only [place, total, List.append_nil, List.map_nil, List.sum_nil, Nat.add_zero] at L h2
  rcases h2 with ⟨rfl, rfl | ⟨_, _, h3, _⟩⟩ | ⟨_, h3⟩
  · exact L
  · cases h3
  · exact absurd rfl h3

theorem Prog.log {fl : Flash} {g : Geo} {S : List Slot} {T : Nat} {its : List Item} (h : Prog F fl g S T its) : ∃ S' t c e, Log F fl g S' t c e := by
  obtain ⟨more, rest, _, c, e, L, _⟩ := h
  exact ⟨_, _, _, _, L⟩

/-- The end of `compact_copy`: the entry to erase the page, and erasing it. -/
theorem compactCopy_end (hF : Sizes F) {st1 : St} {g : Geo} {slots G : List Slot} {t T : Nat} {m : KV} {i : Bool} {U : List Item}
    (hs : Src F g slots t T G m) (hU : U = users (g.b * F.Q + F.Q) slots) (hb : g.b * F.Q ≤ g.h) (hM : g.h ≤ g.b * F.Q + F.M)
    (hlift : ∀ fl', Prog F fl' g (slots ++ G ++ place T U) (T + total U) [eraseItem F g.b] → Comp F fl' m)
    (P1 : Prog F st1.fl g (slots ++ G ++ place T U) (T + total U) [eraseItem F g.b])
    (I1 : EntsI i st1 g ((slots ++ G).filter (fun s => decide (g.b * F.Q + F.Q ≤ s.p)) ++ place T U)) :
    Tri (liftE (buildInternal (.erase (g.b % F.N))) >>= fun w => writeSlice F (T + total U) [w] >>= fun _ =>
        initPage F (T + total U) (T + total U) >>= fun _ => compactErase F (T + total U)) st1
      (fun _ st' => ∃ g' slots' t', g'.b = g.b + 1 ∧ Good F st'.fl g' slots' t' m ∧ EntsI i st' g' slots' ∧ Moved g.h slots t g'.h slots' t')
      (fun _ _ => False)
      (fun fl' => Comp F fl' m ∨ Live F fl' m) := by
  have hn := hF.n3
  have hq := hF.q6
  have hmq := hF.mq
  have hnq := hF.nq
  obtain ⟨hT0, hT1, hT2, hT3⟩ := hs.tail hF hb hM
  have hok := eraseItem_ok hF g.b
  have hfit := hs.fit
  rw [← hU] at hfit
  apply tri_bind
  have hin : (Internal.erase (g.b % F.N)).InRange F := hok
  refine tri_liftE (a := intWord (.erase (g.b % F.N))) (intWord_spec hF hin).1 ?_
  apply tri_bind
  have hsz : (eraseItem F g.b).size = 1 := rfl
  have hwd : (eraseItem F g.b).words = [intWord (.erase (g.b % F.N))] := rfl
  have hwrite := P1.write hF hok (by rw [hsz]; omega)
  rw [hwd] at hwrite
  refine tri_fls hwrite ?_ (fun fl' h => .inl (hlift fl' h))
  rintro _ st2 e1 e2 ⟨more, rest, hmr, hPS⟩
  apply tri_bind
  have hinit := Prog.init hF hmr hPS hok (by omega)
  rw [hsz, Nat.sub_self, Nat.add_zero] at hinit
  refine tri_fls hinit ?_ (fun fl' h => .inl (hlift fl' h))
  intro _ st3 e3 e4 P3
  have L3 := P3.nil
  have e5 : slots ++ G ++ place T U ++ [⟨T + total U, T + total U + 1, eraseItem F g.b⟩] = slots ++ G ++ place T (U ++ [eraseItem F g.b]) := by
    rw [place_append, List.append_assoc]; rfl
  rw [e5, hU] at L3
  obtain ⟨g', sl, hh, hEr, hup, hmv⟩ := hs.advance hF L3
  rw [← hU] at hEr hup hmv
  have hgb := hEr.hb
  have hhM := hEr.log.hM
  have hhb := hEr.log.hb
  have eQ : g'.b * F.Q = g.b * F.Q + F.Q := by rw [hgb, succ_mul']
  have hN3 : 3 * F.Q ≤ F.N * F.Q := mul_mono hn
  have hreb : Rebasable i st3 g' sl := by
    cases i with
    | false => exact e4.trans (e2.trans I1.2)
    | true =>
      obtain ⟨i1, es, i2, i3⟩ := I1
      refine ⟨g.h, hh, by omega, e3.trans (e1.trans i1), es, e4.trans (e2.trans i2), ?_⟩
      rw [hup, ← upos_append]; exact i3
  obtain ⟨es, hes⟩ : ∃ es : Slot, es = ⟨T + total U, T + total U + 1, eraseItem F g.b⟩ := ⟨_, rfl⟩
  have hesp : T + total U = es.p := by rw [hes]
  rw [← hes] at hEr
  rw [hesp]
  refine tri_mono (compactErase_tri hF hEr hreb) ?_ (fun _ _ h => h) (fun _ h => h)
  rintro _ st4 ⟨h1, h2⟩
  refine ⟨g', _, _, hgb, h1, h2, hmv.le, fun x h3 h4 => ?_⟩
  have := hmv.to x h3 h4
  rw [liveTo_append, show liveTo [es.pad] x = 0 by simp [liveTo, live_pad], Nat.add_zero]
  exact this

theorem compactCopy_tri (hF : Sizes F) {st : St} {g : Geo} {slots G : List Slot} {t T : Nat} {m : KV} {i : Bool}
    (hP : Prog F st.fl g (slots ++ G) T (users (g.b * F.Q + F.Q) slots ++ [eraseItem F g.b])) (hw : g.w = compWord (T - g.h))
    (hs : Src F g slots t T G m) (hI : EntsI i st g slots) :
    Tri (compactCopy F) st
      (fun _ st' => ∃ g' slots' t', g'.b = g.b + 1 ∧ Good F st'.fl g' slots' t' m ∧ EntsI i st' g' slots' ∧ Moved g.h slots t g'.h slots' t')
      (fun _ _ => False)
      (fun fl' => Comp F fl' m ∨ Live F fl' m) := by
  have hn := hF.n3
  have hq := hF.q6
  have hmq := hF.mq
  obtain ⟨_, _, _, _, L0⟩ := hP.log
  have hb := L0.hb
  have hM := L0.hM
  obtain ⟨hT0, hT1, hT2, hT3⟩ := hs.tail hF hb hM
  have hdiv : g.h / F.Q = g.b := div_of (a := g.b) (by omega) (by omega)
  have hpage : F.page g.h = g.b % F.N := by rw [Format.page, hdiv]
  have hnext : F.nextPage g.h = g.b * F.Q + F.Q := by rw [Format.nextPage, hdiv, succ_mul']
  have hok := eraseItem_ok hF g.b
  have hfit := hs.fit
  have hnq := hF.nq
  apply tri_bind
  refine tri_getHead hI.1 ?_
  apply tri_bind
  refine tri_getFl ?_
  apply tri_bind
  refine tri_liftE (a := .valid (T - g.h)) (by
    have := L0.cmp0
    rw [cmp] at this
    rw [hpage, this, hw]
    exact parse_compWord hF hT3) ?_
  apply tri_bind
  refine tri_liftE (a := T - g.h) rfl ?_
  rw [hnext, hpage, show g.h + (T - g.h) = T by omega]
  apply tri_bind
  unfold checkTail
  rw [if_neg (by omega)]
  refine tri_pure ?_
  have hI0 : EntsI i st g ((slots ++ G) ++ place T []) := by
    refine hI.congr rfl rfl ?_
    have : upos G = [] := upos_none (fun s hs' k v hi => by rw [(hs.gap_ne s hs').1] at hi; cases hi)
    rw [upos_append, upos_append, this]
    simp [place, upos]
  have hu := hs.users (g.b * F.Q + F.Q)
  have hP' := hP
  rw [← hu] at hP'
  have hcopy := copyLoop_tri hF (g := g) (S := slots ++ G) (T := T) (stop := g.b * F.Q + F.Q) (i := i) hT0 hT1 hok
    (g.b * F.Q + F.Q - g.h) (slots ++ G) [] [] g.h st (Nat.le_refl _) rfl hP.chain.starts
    (fun s hs' => by
      rcases List.mem_append.1 hs' with h1 | h1
      · exact .inl (hs.items s h1)
      · have := hs.gap_ne s h1
        exact .inr ⟨this.1, this.2.1, this.2.2.1⟩)
    (by rw [hu]; simp only [total, List.map_nil, List.sum_nil]; simp only [total] at hfit; omega)
    (by simpa [place, total] using hP') hI0
  rw [hu] at hcopy
  obtain ⟨U, hU⟩ : ∃ U, U = users (g.b * F.Q + F.Q) slots := ⟨_, rfl⟩
  rw [← hU] at hcopy hfit hP
  simp only [List.nil_append, place, total, List.map_nil, List.sum_nil, Nat.add_zero, List.append_nil] at hcopy
  have hlift : ∀ fl', Prog F fl' g (slots ++ G ++ place T U) (T + total U) [eraseItem F g.b] → Comp F fl' m := fun fl' h =>
    .copy (by rw [← hU]; exact Prog.append (S := slots ++ G) h) hw hs
  apply tri_bind
  refine tri_mono hcopy ?_ (fun _ _ h => h.elim) (fun fl' h => .inl (.copy (by rw [← hU]; exact h) hw hs))
  rintro r st1 ⟨hr, P1, I1⟩
  have hr' : r = T + total U := hr
  subst hr'
  exact compactCopy_end hF hs hU hb hM hlift P1 I1

/-! ## Compacting -/

theorem compact_tri (hF : Sizes F) {st : St} {g : Geo} {slots : List Slot} {t : Nat} {m : KV} {i : Bool} (L : Log F st.fl g slots t t t)
    (hw : Le (compWord (max t (g.b * F.Q + F.Q) - g.h)) g.w) (items : ∀ s ∈ slots, UP s) (ne : g.b ≠ 0 → g.h < t) (holds : Holds slots m)
    (cap : Cap F g slots t) (hI : EntsI i st g slots) :
    Tri (compact F) st
      (fun _ st' => ∃ g' slots' t', g'.b = g.b + 1 ∧ Good F st'.fl g' slots' t' m ∧ EntsI i st' g' slots' ∧ Moved g.h slots t g'.h slots' t')
      (fun e st' => e = .noLifetime ∧ F.E * F.N ≤ g.b ∧ st' = st)
      (fun fl' => Comp F fl' m ∨ Live F fl' m) := by
  have hn := hF.n3
  have hq := hF.q6
  have hmq := hF.mq
  have hb := L.hb
  have hM := L.hM
  have hdiv : g.h / F.Q = g.b := div_of (a := g.b) (by omega) (by omega)
  have hpage : F.page g.h = g.b % F.N := by rw [Format.page, hdiv]
  have hnext : F.nextPage g.h = g.b * F.Q + F.Q := by rw [Format.nextPage, hdiv, succ_mul']
  have hcyc : F.cycle g.h = g.b / F.N := by simp only [Format.cycle, hdiv]
  apply tri_bind
  refine tri_getHead hI.1 ?_
  apply tri_bind
  unfold checkLifetime
  rw [hcyc]
  split
  · rename_i h
    refine tri_fail ⟨rfl, ?_, rfl⟩
    exact (Nat.le_div_iff_mul_le (by omega)).1 h
  · rename_i h
    refine tri_pure ?_
    have hE : g.b < F.E * F.N := (Nat.div_lt_iff_lt_mul (by omega)).1 (by omega)
    obtain ⟨T, G, hs⟩ := Src.of hF L items ne holds cap hE
    have hT := hs.hT
    have hbound := cap.bound hF hM
    have hgap : ∀ s ∈ slots, s.it ≠ .gap := fun s hs' => by
      rcases items s hs' with h1 | ⟨k, v, h1⟩ <;> simp [h1]
    have htail : tailOf F st.fl = .ok t := L.tail hF hgap (by omega)
    apply tri_bind
    show Tri (getFl >>= fun fl => liftE (tailOf F fl)) st _ _ _
    apply tri_bind
    refine tri_getFl ?_
    refine tri_liftE htail ?_
    rw [hnext, hpage, ← hT]
    rw [← hT] at hw
    obtain ⟨hT0, hT1, hT2, hT3⟩ := hs.tail hF hb hM
    have hnq := hF.nq
    have hwn := hF.wn
    apply tri_bind
    refine tri_liftE (compWord_spec (by omega)).1 ?_
    apply tri_bind
    have hc0 : st.fl (g.b % F.N) 1 = g.w := L.cmp0
    refine tri_fls (storageWrite_fls (page := g.b % F.N) [compWord (T - g.h)] 1 st.fl (fun j hj => ?_)) ?_ ?_
    · have : j = 0 := by simpa using hj
      subst this
      simp only [List.getElem_cons_zero, Nat.add_zero, hc0]; exact hw
    · intro _ st1 e1 e2 hW
      have hset : Log F st1.fl ⟨g.b, g.h, compWord (T - g.h)⟩ slots t t t :=
        L.setW hF (fun p j hpj => hW.other p j (by simp only [List.length_singleton]; omega)) (by simpa using hW.here 0 (by simp))
      have hs' : Src F ⟨g.b, g.h, compWord (T - g.h)⟩ slots t T G m := ⟨hs.hT, hs.hG, hs.items, hs.ne, hs.holds, ⟨hs.cap.live, hs.cap.ex⟩, hs.hE, hs.fit⟩
      have hP : Prog F st1.fl ⟨g.b, g.h, compWord (T - g.h)⟩ (slots ++ G) T (users (g.b * F.Q + F.Q) slots ++ [eraseItem F g.b]) := Prog.start (hs'.log hF hset)
      have hI' : EntsI i st1 ⟨g.b, g.h, compWord (T - g.h)⟩ slots := by
        have := hI.congr (s' := st1) e1 e2 (List.Perm.refl _)
        cases i <;> exact this
      exact tri_mono (compactCopy_tri hF hP rfl hs' hI') (fun _ _ h => h) (fun _ _ h => h.elim) (fun _ h => h)
    · intro fl' hW
      left
      refine .start (g := ⟨g.b, g.h, fl' (g.b % F.N) 1⟩) (slots := slots) (t := t) (T := T) (G := G)
        (L.setW hF (fun p j hpj => hW.other p j (by simp only [List.length_singleton]; omega)) rfl) ?_
        ⟨hs.hT, hs.hG, hs.items, hs.ne, hs.holds, ⟨hs.cap.live, hs.cap.ex⟩, hs.hE, hs.fit⟩
      simpa using hW.above 0 (by simp)

end Verif.Store
