import Verif.Store.Copy

/-!
# Compaction
-/
namespace Verif.Store

variable {F : Format}

section
variable {fl fl' : Flash} {g : Geo} {t c e : Nat} {slots : List Slot}

/-- The log only depends on the window after its head. -/
theorem Log.congr (hF : Sizes F) (L : Log F fl g slots t c e)
    (h1 : ∀ a, g.b ≤ a → a < g.b + F.N → ini F fl' a = ini F fl a ∧ cmp F fl' a = cmp F fl a)
    (h2 : ∀ x, g.h ≤ x → x < g.b * F.Q + F.N * F.Q → rd F fl' x = rd F fl x) : Log F fl' g slots t c e := by
  have hn := hF.n3
  have hct := L.ct hF
  have hew := L.ew
  have hte := L.te
  refine ⟨L.hb, L.hM, L.h0, L.hE, by rw [(h1 g.b (Nat.le_refl _) (by omega)).1]; exact L.ini0,
    L.chain.congr hF (fun x h3 h4 => h2 x h3 (by omega)), ?_, ?_, ?_, by rw [(h1 g.b (Nat.le_refl _) (by omega)).2]; exact L.cmp0, ?_, ?_,
    L.te, L.ew, L.hc, L.size⟩
  · intro a h3 h4
    exact (L.cov a h3 h4).congr (h1 a (by omega) (page_of_lt h4 (by omega))).1 (fun _ h => h) (fun _ _ _ s h5 _ _ => .inr h5)
  · intro a h3 h4 h5
    rw [(h1 a (by omega) (page_of_lt h5 hew)).1]; exact L.pend a h3 h4 h5
  · intro a h3 h4 h5
    rw [(h1 a (by omega) h4).1]; exact L.inie a h3 h4 h5
  · intro a h3 h4
    rw [(h1 a (by omega) h4).2]; exact L.cmpe a h3 h4
  · intro x h3 h4
    rw [h2 x (by omega) h4]; exact L.blank x h3 h4

/-- Writing the compact word. -/
theorem Log.setW (hF : Sizes F) (L : Log F fl g slots t c e) {w : Word} (h : ∀ p i, (p ≠ g.b % F.N ∨ i ≠ 1) → fl' p i = fl p i)
    (hw : fl' (g.b % F.N) 1 = w) : Log F fl' ⟨g.b, g.h, w⟩ slots t c e := by
  have hi : ∀ a, ini F fl' a = ini F fl a := fun a => h _ _ (by omega)
  have hr : ∀ x, rd F fl' x = rd F fl x := fun x => h _ _ (by omega)
  refine ⟨L.hb, L.hM, L.h0, L.hE, by rw [hi]; exact L.ini0, L.chain.congr hF (fun x _ _ => hr x), ?_, ?_, ?_, hw, ?_, ?_, L.te, L.ew, L.hc, L.size⟩
  · intro a h3 h4
    exact (L.cov a h3 h4).congr (hi a) (fun _ h => h) (fun _ _ _ s h5 _ _ => .inr h5)
  · intro a h3 h4 h5
    rw [hi]; exact L.pend a h3 h4 h5
  · intro a h3 h4 h5
    rw [hi]; exact L.inie a h3 h4 h5
  · intro a h3 h4
    simp only at h3 h4
    have hne : a % F.N ≠ g.b % F.N := fun e => by
      have := mod_inj (N := F.N) (b := g.b) (by omega) h4 (Nat.le_refl _) (by have := hF.n3; omega) e
      omega
    show fl' (a % F.N) 1 = erasedWord
    rw [h _ _ (.inl hne)]; exact L.cmpe a h3 h4
  · intro x h3 h4
    rw [hr]; exact L.blank x h3 h4

/-- Skipping the end of the first page. -/
theorem Log.skip (hF : Sizes F) (L : Log F fl g slots t t t) {T : Nat} (h1 : t < T) (h2 : T = g.b * F.Q + F.Q) :
    Log F fl g (slots ++ [⟨t, T, .gap⟩]) T T T := by
  have hn := hF.n3
  have hb := L.hb
  have hct := L.ct hF
  have hN : g.b * F.Q + F.Q ≤ g.b * F.Q + F.N * F.Q := page_in_window (by omega)
  refine ⟨L.hb, L.hM, L.h0, L.hE, L.ini0, L.chain.append ⟨rfl, ⟨h1, by simp only; omega, fun x h3 h4 => L.blank x h3 (by simp only at h4; omega)⟩, rfl⟩, ?_, ?_, ?_,
    L.cmp0, L.cmpe, fun x h3 h4 => L.blank x (by omega) h4, Nat.le_refl _, by omega, .inl rfl, by omega⟩
  · intro a h3 h4
    have := mul_step (Q := F.Q) h3
    omega
  · intro a h3 h4 h5
    omega
  · intro a h3 h4 h5
    exact L.inie a h3 h4 (by omega)

end

/-- The size of user entries. -/
def usz (l : List (Nat × Bytes)) : Nat := (l.map fun kv => 1 + bytesToWords kv.2.length).sum

theorem Chain.live_eq {fl : Flash} : {slots : List Slot} → {p t : Nat} → Chain F fl p slots t → live slots = usz (uents slots)
  | [], _, _, _ => rfl
  | s :: ss, p, t, h => by
    have ih := Chain.live_eq h.2.2
    have hI := h.2.1
    cases hi : s.it with
    | user k v =>
      rw [hi] at hI
      have hq := hI.2.2.1
      have e1 : live (s :: ss) = (s.q - s.p) + live ss := by simp [live, Slot.live, hi]
      have e2 : uents (s :: ss) = (k, v) :: uents ss := by simp [uents, Slot.ent, hi]
      rw [e1, e2, ih]
      simp only [usz, List.map_cons, List.sum_cons]
      omega
    | pad =>
      have e1 : live (s :: ss) = live ss := by simp [live, Slot.live, hi]
      have e2 : uents (s :: ss) = uents ss := by simp [uents, Slot.ent, hi]
      rw [e1, e2, ih]
    | int x =>
      have e1 : live (s :: ss) = live ss := by simp [live, Slot.live, hi]
      have e2 : uents (s :: ss) = uents ss := by simp [uents, Slot.ent, hi]
      rw [e1, e2, ih]
    | gap =>
      have e1 : live (s :: ss) = live ss := by simp [live, Slot.live, hi]
      have e2 : uents (s :: ss) = uents ss := by simp [uents, Slot.ent, hi]
      rw [e1, e2, ih]

/-- Entries that are copied. -/
def uitems (l : List (Nat × Bytes)) : List Item := l.map fun kv => .user kv.1 kv.2

theorem users_eq (stop : Nat) (src : List Slot) : users stop src = uitems (uents (src.filter fun s => decide (s.p < stop))) := rfl

theorem total_uitems : (l : List (Nat × Bytes)) → total (uitems l) = usz l
  | [] => rfl
  | kv :: l => by
    have := total_uitems l
    simp only [total, uitems, usz, List.map_cons, List.sum_cons, Item.size] at this ⊢
    omega

theorem uents_place : (l : List (Nat × Bytes)) → (T : Nat) → uents (place T (uitems l)) = l
  | [], _ => rfl
  | kv :: l, T => by
    show uents (⟨T, T + (Item.user kv.1 kv.2).size, .user kv.1 kv.2⟩ :: place _ (uitems l)) = _
    have := uents_place l (T + (Item.user kv.1 kv.2).size)
    simp only [uents, List.filterMap_cons, Slot.ent] at this ⊢
    rw [this]

theorem live_place : (l : List (Nat × Bytes)) → (T : Nat) → live (place T (uitems l)) = usz l
  | [], _ => rfl
  | kv :: l, T => by
    show live (⟨T, T + (Item.user kv.1 kv.2).size, .user kv.1 kv.2⟩ :: place _ (uitems l)) = _
    have := live_place l (T + (Item.user kv.1 kv.2).size)
    simp only [live, usz, List.map_cons, List.sum_cons, Slot.live, Item.size] at this ⊢
    omega

theorem uents_filter {f : Slot → Bool} : {A : List Slot} → (∀ s ∈ A, f s = false → s.ent = none) → uents (A.filter f) = uents A
  | [], _ => rfl
  | s :: A, h => by
    have ih := uents_filter (A := A) (fun s' hs' => h s' (List.mem_cons_of_mem _ hs'))
    rw [List.filter_cons]
    split
    · simp only [uents, List.filterMap_cons] at ih ⊢
      rw [ih]
    · rename_i hf
      have := h s (by simp) (by simpa using hf)
      simp only [uents, List.filterMap_cons, this] at ih ⊢
      exact ih

/-- What does not change while a page is compacted. -/
structure Src (F : Format) (g : Geo) (slots : List Slot) (t T : Nat) (G : List Slot) (m : KV) : Prop where
  hT : T = max t (g.b * F.Q + F.Q)
  hG : G = if t < T then [⟨t, T, .gap⟩] else []
  items : ∀ s ∈ slots, UP s
  ne : g.b ≠ 0 → g.h < t
  holds : Holds slots m
  cap : Cap F g slots t
  hE : g.b < F.E * F.N
  fit : T + total (users (g.b * F.Q + F.Q) slots) + 2 ≤ g.b * F.Q + F.N * F.Q

/-- The entry that tells to erase a page. -/
def eraseItem (F : Format) (b : Nat) : Item := .int (.erase (b % F.N))

/-- The copies are complete, and the page is to be erased. -/
structure Erasing (F : Format) (fl : Flash) (b h : Nat) (g : Geo) (sl : List Slot) (es : Slot) (t : Nat) (m : KV) : Prop where
  log : Log F (fl.erase (b % F.N)) g (sl ++ [es]) t t t
  hb : g.b = b + 1
  w : g.w = erasedWord
  it : es.it = eraseItem F b
  ini : Le (initWord (b / F.N) (h - b * F.Q)) (ini F fl b)
  h1 : b * F.Q ≤ h
  h2 : h ≤ b * F.Q + F.M
  hE : b < F.E * F.N
  items : ∀ s ∈ sl, UP s
  holds : Holds sl m
  cap : Cap F g (sl ++ [es]) t

/-- The storage after loss of power during a compaction. -/
inductive Comp (F : Format) (fl : Flash) (m : KV) : Prop
  | start {g slots t T G} (L : Log F fl g slots t t t) (hw : Le (compWord (T - g.h)) g.w) (hs : Src F g slots t T G m)
  | copy {g slots t T G} (P : Prog F fl g (slots ++ G) T (users (g.b * F.Q + F.Q) slots ++ [eraseItem F g.b])) (hw : g.w = compWord (T - g.h)) (hs : Src F g slots t T G m)
  | erase {b h g sl es t} (h : Erasing F fl b h g sl es t m)

theorem eraseItem_ok (hF : Sizes F) (b : Nat) : (eraseItem F b).Ok F := by
  have hn := hF.n3
  have := Nat.mod_lt b (show 0 < F.N by omega)
  simp only [eraseItem, Item.Ok, Internal.InRange, Internal.invalid]
  simp; omega

/-- The first page is replaced by the second one. -/
theorem Log.advance (hF : Sizes F) {fl : Flash} {g : Geo} {S : List Slot} {T : Nat} {its : List Item} {T' : Nat}
    (L : Log F fl g (S ++ place T its) T' T' T') (hT : g.b * F.Q + F.Q ≤ T) (hne : its ≠ []) (hok : ∀ it ∈ its, it ≠ .pad) (hE : g.b < F.E * F.N) :
    ∃ h' A B, S = A ++ B ∧ Chain F fl g.h A h' ∧ Chain F fl h' B T ∧ g.b * F.Q + F.Q ≤ h' ∧ h' ≤ g.b * F.Q + F.Q + F.M ∧ h' ≤ T ∧
      (∀ s ∈ A, g.b * F.Q + F.Q ≤ s.p → s.it = .pad) ∧
      Log F (fl.erase (g.b % F.N)) ⟨g.b + 1, h', erasedWord⟩ (B ++ place T its) T' T' T' := by
  have hn := hF.n3
  have hq := hF.q6
  have hmq := hF.mq
  have hew := L.ew
  cases its with
  | nil => exact absurd rfl hne
  | cons it its =>
    have hslot : (⟨T, T + it.size, it⟩ : Slot) ∈ S ++ place T (it :: its) := by simp [place]
    have hm := L.chain.mem _ hslot
    simp only at hm
    obtain ⟨x, c1, c2, c3, c4, c5⟩ := L.cov (g.b + 1) (by omega) (by rw [succ_mul']; omega)
    rw [succ_mul'] at c1 c2 c3 c5
    have hxT : x ≤ T := by
      rcases Nat.lt_or_ge T x with h | h
      · exact absurd (c5 _ hslot (by simp only; omega) h) (hok it (by simp))
      · exact h
    obtain ⟨z, hz1, hz2⟩ := L.chain.of_append
    have hz : T = z := hz2.1
    subst hz
    have hxb : Bound S T x := by
      rcases c4 with h | ⟨s, hs, h⟩
      · omega
      · rcases List.mem_append.1 hs with hs | hs
        · exact .inr ⟨s, hs, h⟩
        · have := (place_mem s hs).1
          exact .inl (by omega)
    obtain ⟨A, B, hS, hA, hB⟩ := hz1.split x hxb
    have hA' := hA.mem
    have hB' := hB.mem
    have hpg : ∀ a, g.b < a → a < g.b + F.N → a % F.N ≠ g.b % F.N := fun a h1 h2 e => by
      have := mod_inj (N := F.N) (b := g.b) (by omega) h2 (Nat.le_refl _) (by omega) e
      omega
    have hini : ∀ a i, g.b < a → a < g.b + F.N → (fl.erase (g.b % F.N)) (a % F.N) i = fl (a % F.N) i := fun a i h1 h2 => by
      simp only [Flash.erase]
      rw [if_neg (hpg a h1 h2)]
    have hlast : ∀ i, (fl.erase (g.b % F.N)) ((g.b + F.N) % F.N) i = erasedWord := fun i => by
      simp [Flash.erase]
    have hrd : ∀ y, g.b * F.Q + F.Q ≤ y → y < g.b * F.Q + F.N * F.Q → rd F (fl.erase (g.b % F.N)) y = rd F fl y := by
      intro y h1 h2
      have hd := div_bounds (Q := F.Q) (x := y) (by omega)
      rw [rd_eq, rd_eq]
      refine hini _ _ ?_ ?_
      · apply lt_of_mul (Q := F.Q); omega
      · exact page_of_lt (x := y + 1) (by omega) (by omega)
    refine ⟨x, A, B, hS, hA, hB, by omega, by omega, hxT, ?_, ?_⟩
    · intro s hs h1
      have := hA' s hs
      exact c5 s (by rw [hS]; simp [hs]) h1 (by omega)
    · have hb1 : (g.b + 1) * F.Q = g.b * F.Q + F.Q := succ_mul' _
      refine ⟨by simp only [hb1]; omega, by simp only [hb1]; omega, fun h => by simp at h, by simp only; omega, ?_, ?_, ?_, ?_, ?_, ?_, ?_, ?_, Nat.le_refl _, ?_, .inl rfl, by omega⟩
      · simp only [hb1]
        show (fl.erase (g.b % F.N)) ((g.b + 1) % F.N) 0 = _
        rw [hini _ _ (by omega) (by omega)]
        exact c3
      · refine (hB.append hz2).congr hF (fun y h1 h2 => hrd y ?_ (by omega))
        omega
      · intro a h1 h2
        simp only at h1
        have ha2 : a < g.b + F.N := page_of_lt h2 hew
        have ha3 := mul_step (Q := F.Q) h1
        rw [hb1] at ha3
        obtain ⟨y, d1, d2, d3, d4, d5⟩ := L.cov a (by omega) h2
        refine ⟨y, d1, d2, ?_, ?_, ?_⟩
        · show (fl.erase (g.b % F.N)) (a % F.N) 0 = _
          rw [hini _ _ (by omega) ha2]; exact d3
        · rcases d4 with h | ⟨s, hs, h⟩
          · exact .inl h
          · rw [hS, List.append_assoc] at hs
            rcases List.mem_append.1 hs with hs | hs
            · have := hA' s hs
              omega
            · exact .inr ⟨s, hs, h⟩
        · intro s hs h3 h4
          exact d5 s (by rw [hS, List.append_assoc]; exact List.mem_append_right _ hs) h3 h4
      · intro a h1 h2 h3
        omega
      · intro a h1 h2 h3
        simp only at h1 h2
        by_cases hl : a = g.b + F.N
        · subst hl
          exact hlast 0
        · show (fl.erase (g.b % F.N)) (a % F.N) 0 = _
          rw [hini _ _ (by omega) (by omega)]
          exact L.inie a (by omega) (by omega) h3
      · show (fl.erase (g.b % F.N)) ((g.b + 1) % F.N) 1 = _
        rw [hini _ _ (by omega) (by omega)]
        exact L.cmpe (g.b + 1) (by omega) (by omega)
      · intro a h1 h2
        simp only at h1 h2
        by_cases hl : a = g.b + F.N
        · subst hl
          exact hlast 1
        · show (fl.erase (g.b % F.N)) (a % F.N) 1 = _
          rw [hini _ _ (by omega) (by omega)]
          exact L.cmpe a (by omega) (by omega)
      · intro y h1 h2
        simp only [hb1] at h2
        rcases Nat.lt_or_ge y (g.b * F.Q + F.N * F.Q) with h3 | h3
        · rw [hrd y (by omega) h3]; exact L.blank y h1 h3
        · have e : (g.b + F.N) * F.Q = g.b * F.Q + F.N * F.Q := Nat.add_mul _ _ _
          rw [rd_eq, div_of (a := g.b + F.N) (by omega) (by omega)]
          exact hlast _
      · simp only [hb1]; omega

end Verif.Store
