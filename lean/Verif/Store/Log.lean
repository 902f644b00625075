import Verif.Store.Items

/-!
# The log
-/
namespace Verif.Store

variable {F : Format}

/-! ## Chains of entries -/

/-- The entries follow each other from `p` to `t`. -/
def Chain (F : Format) (fl : Flash) : Nat → List Slot → Nat → Prop
  | p, [], t => p = t
  | p, s :: ss, t => s.p = p ∧ ItemAt F fl s.p s.q s.it ∧ Chain F fl s.q ss t

theorem Chain.le {fl : Flash} : {slots : List Slot} → {p t : Nat} → Chain F fl p slots t → p ≤ t
  | [], _, _, h => Nat.le_of_eq h
  | s :: ss, p, t, h => by
    have := h.2.1.size
    have := Chain.le h.2.2
    have := h.1
    omega

theorem Chain.mem {fl : Flash} : {slots : List Slot} → {p t : Nat} → Chain F fl p slots t → ∀ s ∈ slots,
    p ≤ s.p ∧ s.p < s.q ∧ s.q ≤ t ∧ ItemAt F fl s.p s.q s.it
  | [], _, _, _, s, hs => by simp at hs
  | s0 :: ss, p, t, h, s, hs => by
    have h1 := h.2.1.size
    have h2 := Chain.le h.2.2
    have h3 := h.1
    rcases List.mem_cons.1 hs with rfl | hs
    · exact ⟨by omega, h1, h2, h.2.1⟩
    · obtain ⟨h4, h5, h6, h7⟩ := Chain.mem h.2.2 s hs
      exact ⟨by omega, h5, h6, h7⟩

theorem Chain.append {fl : Flash} : {s1 : List Slot} → {p x t : Nat} → {s2 : List Slot} → Chain F fl p s1 x → Chain F fl x s2 t →
    Chain F fl p (s1 ++ s2) t
  | [], _, _, _, _, h1, h2 => by
    have : _ = _ := h1
    subst this; exact h2
  | _ :: _, _, _, _, _, h1, h2 => ⟨h1.1, h1.2.1, Chain.append h1.2.2 h2⟩

theorem Chain.of_append {fl : Flash} : {s1 : List Slot} → {p t : Nat} → {s2 : List Slot} → Chain F fl p (s1 ++ s2) t →
    ∃ x, Chain F fl p s1 x ∧ Chain F fl x s2 t
  | [], p, _, _, h => ⟨p, rfl, h⟩
  | _ :: _, _, _, _, h => by
    obtain ⟨x, h1, h2⟩ := Chain.of_append h.2.2
    exact ⟨x, ⟨h.1, h.2.1, h1⟩, h2⟩

theorem Chain.congr (hF : Sizes F) {fl fl' : Flash} : {slots : List Slot} → {p t : Nat} → Chain F fl p slots t →
    (∀ x, p ≤ x → x < t → rd F fl' x = rd F fl x) → Chain F fl' p slots t
  | [], _, _, h, _ => h
  | s :: ss, p, t, h, he => by
    have h1 := h.2.1.size
    have h2 := Chain.le h.2.2
    have h3 := h.1
    exact ⟨h.1, h.2.1.congr hF (fun x hx hx' => he x (by omega) (by omega)),
      Chain.congr hF h.2.2 (fun x hx hx' => he x (by omega) hx')⟩

/-- The position is the end of the chain or of an entry. -/
def Bound (slots : List Slot) (t x : Nat) : Prop := x = t ∨ ∃ s ∈ slots, s.p = x

theorem Chain.split {fl : Flash} : {slots : List Slot} → {p t : Nat} → Chain F fl p slots t → ∀ x, Bound slots t x →
    ∃ s1 s2, slots = s1 ++ s2 ∧ Chain F fl p s1 x ∧ Chain F fl x s2 t
  | [], p, t, h, x, hx => by
    rcases hx with rfl | ⟨s, hs, _⟩
    · exact ⟨[], [], rfl, h, rfl⟩
    · simp at hs
  | s0 :: ss, p, t, h, x, hx => by
    by_cases hp : x = s0.p
    · subst hp
      exact ⟨[], s0 :: ss, rfl, h.1.symm, rfl, h.2.1, h.2.2⟩
    · have : Bound ss t x := by
        rcases hx with hx | ⟨s, hs, e⟩
        · exact .inl hx
        · rcases List.mem_cons.1 hs with rfl | hs
          · exact absurd e.symm hp
          · exact .inr ⟨s, hs, e⟩
      obtain ⟨s1, s2, e, h1, h2⟩ := Chain.split h.2.2 x this
      exact ⟨s0 :: s1, s2, by rw [e]; rfl, ⟨h.1, h.2.1, h1⟩, h2⟩

/-- Entries do not overlap. -/
theorem Chain.disjoint {fl : Flash} : {slots : List Slot} → {p t : Nat} → Chain F fl p slots t →
    ∀ s ∈ slots, ∀ s' ∈ slots, s = s' ∨ s.q ≤ s'.p ∨ s'.q ≤ s.p
  | [], _, _, _, s, hs, _, _ => by simp at hs
  | s0 :: ss, p, t, h, s, hs, s', hs' => by
    rcases List.mem_cons.1 hs with h1 | h1 <;> rcases List.mem_cons.1 hs' with h2 | h2
    · exact .inl (h1.trans h2.symm)
    · subst h1; exact .inr (.inl (Chain.mem h.2.2 s' h2).1)
    · subst h2; exact .inr (.inr (Chain.mem h.2.2 s h1).1)
    · exact Chain.disjoint h.2.2 s h1 s' h2

theorem Chain.uniq {fl : Flash} {slots : List Slot} {p t : Nat} (h : Chain F fl p slots t) {s s' : Slot} (hs : s ∈ slots)
    (hs' : s' ∈ slots) (e : s.p = s'.p) : s = s' := by
  have h1 := h.mem s hs
  have h2 := h.mem s' hs'
  rcases h.disjoint s hs s' hs' with h3 | h3 | h3
  · exact h3
  · omega
  · omega

/-- The entry that starts at `p` becomes padding. -/
def padAt (slots : List Slot) (p : Nat) : List Slot := slots.map fun s => if s.p = p then { s with it := .pad } else s

theorem Bound.padAt {slots : List Slot} {t x p : Nat} (h : Bound slots t x) : Bound (padAt slots p) t x := by
  rcases h with h | ⟨s, hs, e⟩
  · exact .inl h
  · refine .inr ⟨if s.p = p then { s with it := .pad } else s, List.mem_map_of_mem hs, ?_⟩
    split
    · exact e
    · exact e

theorem Bound.append {slots ns : List Slot} {fl : Flash} {t t' x : Nat} (hc : Chain F fl t ns t') (h : Bound slots t x) :
    Bound (slots ++ ns) t' x := by
  rcases h with rfl | ⟨s, hs, e⟩
  · cases ns with
    | nil => exact .inl hc
    | cons n ns => exact .inr ⟨n, by simp, hc.1⟩
  · exact .inr ⟨s, by simp [hs], e⟩

theorem padAt_nop {slots : List Slot} {p : Nat} (h : ∀ s ∈ slots, s.p ≠ p) : padAt slots p = slots := by
  unfold padAt
  have : slots.map (fun s => if s.p = p then { s with it := Item.pad } else s) = slots.map id :=
    List.map_congr_left (fun s hs => by rw [if_neg (h s hs)]; rfl)
  rw [this, List.map_id]

/-- An entry becomes padding and the others are not modified. -/
theorem Chain.padAt (hF : Sizes F) {fl fl' : Flash} {p q : Nat} (hi : ItemAt F fl' p q .pad) :
    {slots : List Slot} → {h t : Nat} → Chain F fl h slots t → (∀ s ∈ slots, s.p = p → s.q = q) →
    (∀ x, h ≤ x → x < t → (x < p ∨ q ≤ x) → rd F fl' x = rd F fl x) → (∀ s ∈ slots, s.p = p ∨ s.q ≤ p ∨ q ≤ s.p) →
    Chain F fl' h (padAt slots p) t
  | [], _, _, h, _, _, _ => h
  | s :: ss, h, t, hc, hq, he, hd => by
    have h1 := hc.2.1.size
    have h2 := Chain.le hc.2.2
    have h3 := hc.1
    have hss : Chain F fl' s.q (Store.padAt ss p) t :=
      Chain.padAt hF hi hc.2.2 (fun s' hs' => hq s' (List.mem_cons_of_mem _ hs')) (fun x hx hx' => he x (by omega) hx')
        (fun s' hs' => hd s' (List.mem_cons_of_mem _ hs'))
    show Chain F fl' h ((if s.p = p then { s with it := .pad } else s) :: Store.padAt ss p) t
    split
    · rename_i e
      have := hq s (by simp) e
      refine ⟨h3, ?_, hss⟩
      show ItemAt F fl' s.p s.q .pad
      rw [e, this]; exact hi
    · rename_i e
      refine ⟨h3, hc.2.1.congr hF (fun x hx hx' => he x (by omega) (by omega) ?_), hss⟩
      rcases hd s (by simp) with h4 | h4 | h4
      · exact absurd h4 e
      · omega
      · omega

/-! ## Page heads -/

/-- The page `a` is initialized and its first entry starts at `x`. -/
structure HeadAt (F : Format) (fl : Flash) (a x : Nat) : Prop where
  word : parseInit F (ini F fl a) = .ok (.valid ⟨a / F.N, x - a * F.Q⟩)
  lo : a * F.Q ≤ x
  hi : x < a * F.Q + F.Q

/-- The page `a` is not initialized. -/
def NoHead (F : Format) (fl : Flash) (a : Nat) : Prop := parseInit F (ini F fl a) = .ok .erased ∨ parseInit F (ini F fl a) = .ok .partly

theorem HeadAt.of_word (hF : Sizes F) {fl : Flash} {a x : Nat} (h1 : a * F.Q ≤ x) (h2 : x ≤ a * F.Q + F.M) (ha : a / F.N ≤ F.E)
    (h : ini F fl a = initWord (a / F.N) (x - a * F.Q)) : HeadAt F fl a x := by
  have := hF.mq
  exact ⟨by rw [h]; exact parse_initWord hF ha (by omega), h1, by omega⟩

theorem HeadAt.pageHead (hF : Sizes F) {fl : Flash} {a x : Nat} (h : HeadAt F fl a x) :
    Store.pageHead F ⟨a / F.N, x - a * F.Q⟩ (a % F.N) = x := by
  simp only [Store.pageHead, Format.pos]
  rw [Nat.mul_comm (a / F.N), Nat.div_add_mod]
  have := h.lo
  omega

theorem noHead_erased {fl : Flash} {a : Nat} (h : ini F fl a = erasedWord) : NoHead F fl a := by
  left; rw [h]; simp [parseInit]

theorem NoHead.not_head {fl : Flash} {a x : Nat} (h : NoHead F fl a) : ¬ HeadAt F fl a x := by
  intro hh
  rcases h with h | h <;> (rw [hh.word] at h; cases Except.ok.inj h)

theorem extremum_spec {fl : Flash} {better : Nat → Nat → Bool} (h1 : ∀ x, better x x = false)
    (h3 : ∀ x y p, better y x = false → better p x = true → better y p = false) :
    (n : Nat) → (∀ i, i < n → ∃ st, parseInit F (fl i 0) = .ok st) →
    ∃ r, extremum F fl better n = .ok r ∧
      (r = none → ∀ i, i < n → ∀ x, parseInit F (fl i 0) ≠ .ok (.valid x)) ∧
      ∀ x, r = some x → (∃ i, i < n ∧ ∃ y, parseInit F (fl i 0) = .ok (.valid y) ∧ x = pageHead F y i) ∧
        ∀ i, i < n → ∀ y, parseInit F (fl i 0) = .ok (.valid y) → better (pageHead F y i) x = false
  | 0, _ => ⟨none, rfl, fun _ i hi => absurd hi (by omega), fun x hx => by cases hx⟩
  | n + 1, h => by
    obtain ⟨r, e1, e2, e3⟩ := extremum_spec h1 h3 n (fun i hi => h i (by omega))
    obtain ⟨st, hst⟩ := h n (by omega)
    have split : ∀ i, i < n + 1 → i = n ∨ i < n := fun i hi => by omega
    cases st with
    | erased =>
      refine ⟨r, by simp only [extremum, e1, hst, bind, Except.bind], fun hr i hi x hx => ?_, fun x hx => ?_⟩
      · rcases split i hi with rfl | hi
        · rw [hst] at hx; cases Except.ok.inj hx
        · exact e2 hr i hi x hx
      · obtain ⟨⟨i, h4, h5⟩, h6⟩ := e3 x hx
        refine ⟨⟨i, by omega, h5⟩, fun i hi y hy => ?_⟩
        rcases split i hi with rfl | hi
        · rw [hst] at hy; cases Except.ok.inj hy
        · exact h6 i hi y hy
    | partly =>
      refine ⟨r, by simp only [extremum, e1, hst, bind, Except.bind], fun hr i hi x hx => ?_, fun x hx => ?_⟩
      · rcases split i hi with rfl | hi
        · rw [hst] at hx; cases Except.ok.inj hx
        · exact e2 hr i hi x hx
      · obtain ⟨⟨i, h4, h5⟩, h6⟩ := e3 x hx
        refine ⟨⟨i, by omega, h5⟩, fun i hi y hy => ?_⟩
        rcases split i hi with rfl | hi
        · rw [hst] at hy; cases Except.ok.inj hy
        · exact h6 i hi y hy
    | valid y =>
      cases r with
      | none =>
        refine ⟨some (pageHead F y n), by simp only [extremum, e1, hst, bind, Except.bind], fun hr => by (cases hr), fun x hx => ?_⟩
        obtain rfl := Option.some.inj hx
        refine ⟨⟨n, by omega, y, hst, rfl⟩, fun i hi y' hy' => ?_⟩
        rcases split i hi with rfl | hi
        · rw [hst] at hy'
          obtain rfl := WordState.valid.inj (Except.ok.inj hy')
          exact h1 _
        · exact absurd hy' (e2 rfl i hi y')
      | some z =>
        obtain ⟨⟨i0, h4, y0, h5, h5'⟩, h6⟩ := e3 z rfl
        by_cases hb : better (pageHead F y n) z = true
        · refine ⟨some (pageHead F y n), by simp only [extremum, e1, hst, bind, Except.bind, hb, if_true], fun hr => by (cases hr), fun x hx => ?_⟩
          obtain rfl := Option.some.inj hx
          refine ⟨⟨n, by omega, y, hst, rfl⟩, fun i hi y' hy' => ?_⟩
          rcases split i hi with rfl | hi
          · rw [hst] at hy'
            obtain rfl := WordState.valid.inj (Except.ok.inj hy')
            exact h1 _
          · exact h3 _ _ _ (h6 i hi y' hy') hb
        · have hb' : better (pageHead F y n) z = false := by simpa using hb
          refine ⟨some z, by simp only [extremum, e1, hst, bind, Except.bind, hb', Bool.false_eq_true, if_false], fun hr => by (cases hr), fun x hx => ?_⟩
          obtain rfl := Option.some.inj hx
          refine ⟨⟨i0, by omega, y0, h5, h5'⟩, fun i hi y' hy' => ?_⟩
          rcases split i hi with rfl | hi
          · rw [hst] at hy'
            obtain rfl := WordState.valid.inj (Except.ok.inj hy')
            exact hb'
          · exact h6 i hi y' hy'

/-- The best page head, for the pages of a window. -/
theorem extremum_window (hF : Sizes F) {fl : Flash} {b a0 x0 : Nat} {better : Nat → Nat → Bool} (h1 : ∀ x, better x x = false)
    (h3 : ∀ x y p, better y x = false → better p x = true → better y p = false) (h4 : ∀ x y, better x y = false → better y x = false → x = y)
    (h0 : HeadAt F fl a0 x0) (hb : b ≤ a0) (hb' : a0 < b + F.N)
    (h : ∀ a, b ≤ a → a < b + F.N → NoHead F fl a ∨ ∃ x, HeadAt F fl a x ∧ better x x0 = false) :
    extremumPageHead F fl better = .ok x0 := by
  have hn := hF.n3
  have hall : ∀ i, i < F.N → ∃ st, parseInit F (fl i 0) = .ok st := by
    intro i hi
    obtain ⟨a, h5, h6, h7⟩ := exists_page (b := b) hi
    have e : parseInit F (fl i 0) = parseInit F (ini F fl a) := by simp only [ini, h7]
    rcases h a h5 h6 with (h8 | h8) | ⟨x, h8, _⟩
    · exact ⟨_, e.trans h8⟩
    · exact ⟨_, e.trans h8⟩
    · exact ⟨_, e.trans h8.word⟩
  obtain ⟨r, e1, e2, e3⟩ := extremum_spec (F := F) (fl := fl) h1 h3 F.N hall
  have hi0 : a0 % F.N < F.N := Nat.mod_lt _ (by omega)
  cases r with
  | none => exact absurd h0.word (e2 rfl _ hi0 _)
  | some x =>
    obtain ⟨⟨i, h5, y, h6, h7⟩, h8⟩ := e3 x rfl
    have hx0 := h8 _ hi0 _ h0.word
    rw [h0.pageHead hF] at hx0
    have : better x x0 = false := by
      obtain ⟨a, h9, h10, h11⟩ := exists_page (b := b) h5
      have e : parseInit F (fl i 0) = parseInit F (ini F fl a) := by simp only [ini, h11]
      rcases h a h9 h10 with (h12 | h12) | ⟨x', h12, h13⟩
      · rw [e, h12] at h6; cases Except.ok.inj h6
      · rw [e, h12] at h6; cases Except.ok.inj h6
      · have hw := h12.word
        rw [← e, h6] at hw
        obtain rfl := WordState.valid.inj (Except.ok.inj hw)
        have := h12.pageHead hF
        rw [h11] at this
        rw [h7, this]; exact h13
    simp only [extremumPageHead, e1, bind, Except.bind]
    rw [h4 x x0 this hx0]

theorem newest_window (hF : Sizes F) {fl : Flash} {b a0 x0 : Nat} (h0 : HeadAt F fl a0 x0) (hb : b ≤ a0) (hb' : a0 < b + F.N)
    (h : ∀ a, b ≤ a → a < b + F.N → NoHead F fl a ∨ ∃ x, HeadAt F fl a x ∧ a ≤ a0) : newestHead F fl = .ok x0 := by
  refine extremum_window hF (fun x => by simp) (fun x y p h5 h6 => ?_) (fun x y h5 h6 => ?_) h0 hb hb' (fun a h5 h6 => ?_)
  · simp only [decide_eq_false_iff_not, decide_eq_true_eq] at h5 h6 ⊢; omega
  · simp only [decide_eq_false_iff_not] at h5 h6; omega
  · rcases h a h5 h6 with h7 | ⟨x, h7, h8⟩
    · exact .inl h7
    · refine .inr ⟨x, h7, ?_⟩
      simp only [decide_eq_false_iff_not]
      intro hlt
      rcases Nat.lt_or_ge a a0 with h9 | h9
      · have := mul_step (Q := F.Q) h9
        have := h7.hi
        have := h0.lo
        omega
      · have : a = a0 := by omega
        subst this
        have e := h7.word
        rw [h0.word] at e
        have := congrArg InitInfo.pre (WordState.valid.inj (Except.ok.inj e))
        simp only at this
        have := h7.lo
        have := h0.lo
        omega

theorem oldest_window (hF : Sizes F) {fl : Flash} {b x0 : Nat} (h0 : HeadAt F fl b x0)
    (h : ∀ a, b ≤ a → a < b + F.N → NoHead F fl a ∨ ∃ x, HeadAt F fl a x) : oldestHead F fl = .ok x0 := by
  have hn := hF.n3
  refine extremum_window hF (fun x => by simp) (fun x y p h5 h6 => ?_) (fun x y h5 h6 => ?_) h0 (Nat.le_refl _) (by omega) (fun a h5 h6 => ?_)
  · simp only [decide_eq_false_iff_not, decide_eq_true_eq] at h5 h6 ⊢; omega
  · simp only [decide_eq_false_iff_not] at h5 h6; omega
  · rcases h a h5 h6 with h7 | ⟨x, h7⟩
    · exact .inl h7
    · refine .inr ⟨x, h7, ?_⟩
      simp only [decide_eq_false_iff_not]
      intro hlt
      rcases Nat.lt_or_ge b a with h9 | h9
      · have := mul_step (Q := F.Q) h9
        have := h7.lo
        have := h0.hi
        omega
      · have : a = b := by omega
        subst this
        have e := h7.word
        rw [h0.word] at e
        have := congrArg InitInfo.pre (WordState.valid.inj (Except.ok.inj e))
        simp only at this
        have := h7.lo
        have := h0.lo
        omega

/-- There is a last page with a head. -/
theorem last_head {fl : Flash} {b x0 : Nat} (h0 : HeadAt F fl b x0) (n : Nat) (hn : 0 < n)
    (h : ∀ a, b ≤ a → a < b + n → NoHead F fl a ∨ ∃ x, HeadAt F fl a x) :
    ∃ a x, b ≤ a ∧ a < b + n ∧ HeadAt F fl a x ∧ ∀ a', a < a' → a' < b + n → NoHead F fl a' := by
  induction n with
  | zero => omega
  | succ n ih =>
    rcases h (b + n) (by omega) (by omega) with h1 | ⟨x, h1⟩
    · rcases Nat.eq_zero_or_pos n with rfl | hp
      · exact absurd h0 h1.not_head
      · obtain ⟨a, x, h2, h3, h4, h5⟩ := ih hp (fun a h6 h7 => h a h6 (by omega))
        refine ⟨a, x, h2, by omega, h4, fun a' h6 h7 => ?_⟩
        by_cases e : a' = b + n
        · rw [e]; exact h1
        · exact h5 a' h6 (by omega)
    · exact ⟨b + n, x, by omega, by omega, h1, fun a' h6 h7 => by omega⟩

/-! ## The log -/

/-- The page `a` is initialized, with its first entry; what starts before it in the page is padding. -/
def Cov (F : Format) (fl : Flash) (slots : List Slot) (t a : Nat) : Prop :=
  ∃ x, a * F.Q ≤ x ∧ x ≤ a * F.Q + F.M ∧ ini F fl a = initWord (a / F.N) (x - a * F.Q) ∧ Bound slots t x ∧
    ∀ s ∈ slots, a * F.Q ≤ s.p → s.p < x → s.it = .pad

/-- The first page of a log, where its first entry starts, and its compact word. -/
structure Geo where
  b : Nat
  h : Nat
  w : Word

/-- The storage as a log that starts with page `g.b` and position `g.h`, and whose first page has the compact word `g.w`. The entries end at `t`; the pages that start before `c` are
initialized; an entry in `[c, e)` is written or its page is initialized; the rest is erased. -/
structure Log (F : Format) (fl : Flash) (g : Geo) (slots : List Slot) (t c e : Nat) : Prop where
  hb : g.b * F.Q ≤ g.h
  hM : g.h ≤ g.b * F.Q + F.M
  h0 : g.b = 0 → g.h = 0
  hE : g.b ≤ F.E * F.N
  ini0 : ini F fl g.b = initWord (g.b / F.N) (g.h - g.b * F.Q)
  chain : Chain F fl g.h slots t
  cov : ∀ a, g.b < a → a * F.Q < c → Cov F fl slots t a
  pend : ∀ a, g.b < a → c ≤ a * F.Q → a * F.Q < e → Le (tgt F c e a) (ini F fl a)
  inie : ∀ a, g.b < a → a < g.b + F.N → e ≤ a * F.Q → ini F fl a = erasedWord
  cmp0 : cmp F fl g.b = g.w
  cmpe : ∀ a, g.b < a → a < g.b + F.N → cmp F fl a = erasedWord
  blank : Blank F fl e (g.b * F.Q + F.N * F.Q)
  te : t ≤ e
  ew : e ≤ g.b * F.Q + F.N * F.Q
  hc : c = t ∨ (e = t ∧ ∃ s1 s, slots = s1 ++ [s] ∧ s.p = c ∧ s.it ≠ .gap)
  size : e ≤ c + 1 + F.M

theorem cyc_le (hF : Sizes F) {b a : Nat} (hE : b ≤ F.E * F.N) (ha : a < b + F.N) : a / F.N ≤ F.E := by
  have hn := hF.n3
  have : a / F.N < F.E + 1 := (Nat.div_lt_iff_lt_mul (by omega)).2 (by rw [succ_mul']; omega)
  omega

theorem Log.ct (_hF : Sizes F) {fl : Flash} {g : Geo} {t c e : Nat} {slots : List Slot} (L : Log F fl g slots t c e) : c ≤ t ∧ g.h ≤ c := by
  have := L.chain.le
  rcases L.hc with rfl | ⟨_, s1, s, rfl, rfl, _⟩
  · exact ⟨Nat.le_refl _, this⟩
  · have := L.chain.mem s (by simp)
    omega

/-- A page of the window starts before the end of the window. -/
theorem page_in_window {b a : Nat} (ha : a < b + F.N) : a * F.Q + F.Q ≤ b * F.Q + F.N * F.Q := by
  rw [← Nat.add_mul]; exact mul_step ha

theorem page_of_lt {b a x : Nat} (h : a * F.Q < x) (hx : x ≤ b * F.Q + F.N * F.Q) : a < b + F.N := by
  apply lt_of_mul (Q := F.Q); rw [Nat.add_mul]; omega

theorem Log.head (hF : Sizes F) {fl : Flash} {g : Geo} {t c e : Nat} {slots : List Slot} (L : Log F fl g slots t c e) : HeadAt F fl g.b g.h :=
  .of_word hF L.hb L.hM (cyc_le hF L.hE (by have := hF.n3; omega)) L.ini0

/-- Every page of the window is initialized or not, and what its head is. -/
theorem Log.heads (hF : Sizes F) {fl : Flash} {g : Geo} {t c e : Nat} {slots : List Slot} (L : Log F fl g slots t c e) {a : Nat}
    (h1 : g.b ≤ a) (h2 : a < g.b + F.N) :
    (a = g.b ∧ HeadAt F fl a g.h) ∨ (g.b < a ∧ a * F.Q < c ∧ ∃ x, HeadAt F fl a x ∧ Bound slots t x) ∨
    (g.b < a ∧ c ≤ a * F.Q ∧ a * F.Q < e ∧ ini F fl a = tgt F c e a ∧ HeadAt F fl a (if a * F.Q = c then c else e)) ∨
    (g.b < a ∧ c ≤ a * F.Q ∧ NoHead F fl a) := by
  have hct := L.ct hF
  have hte := L.te
  have hsz := L.size
  have hmq := hF.mq
  by_cases hab : a = g.b
  · subst hab; exact .inl ⟨rfl, L.head hF⟩
  · have hab : g.b < a := by omega
    rcases Nat.lt_or_ge (a * F.Q) c with h3 | h3
    · obtain ⟨x, c1, c2, c3, c4, _⟩ := L.cov a hab h3
      exact .inr (.inl ⟨hab, h3, x, .of_word hF c1 c2 (cyc_le hF L.hE h2) c3, c4⟩)
    · rcases Nat.lt_or_ge (a * F.Q) e with h4 | h4
      · have hle := L.pend a hab h3 h4
        have := hF.e16
        have := hF.m256
        have hcy := cyc_le hF L.hE h2
        obtain ⟨hp, hseal⟩ := tgt_spec hF (by omega) L.size h3 h4 hcy
        by_cases he : ini F fl a = tgt F c e a
        · refine .inr (.inr (.inl ⟨hab, h3, h4, he, ?_⟩))
          split
          · rename_i e1
            exact .of_word hF (by omega) (by omega) hcy (by rw [he, tgt, if_pos e1, e1, Nat.sub_self])
          · rename_i e1
            exact .of_word hF (by omega) (by omega) hcy (by rw [he, tgt, if_neg e1])
        · refine .inr (.inr (.inr ⟨hab, h3, ?_⟩))
          have := parseInit_above F hseal hle he
          split at this
          · exact .inl this
          · exact .inr this
      · exact .inr (.inr (.inr ⟨hab, h3, noHead_erased (L.inie a hab h2 h4)⟩))

theorem Log.heads' (hF : Sizes F) {fl : Flash} {g : Geo} {t c e : Nat} {slots : List Slot} (L : Log F fl g slots t c e) {a : Nat}
    (h1 : g.b ≤ a) (h2 : a < g.b + F.N) : NoHead F fl a ∨ ∃ x, HeadAt F fl a x := by
  rcases L.heads hF h1 h2 with ⟨_, h3⟩ | ⟨_, _, x, h3, _⟩ | ⟨_, _, _, _, h3⟩ | ⟨_, _, h3⟩
  · exact .inr ⟨_, h3⟩
  · exact .inr ⟨_, h3⟩
  · exact .inr ⟨_, h3⟩
  · exact .inl h3

theorem Log.oldest (hF : Sizes F) {fl : Flash} {g : Geo} {t c e : Nat} {slots : List Slot} (L : Log F fl g slots t c e) :
    oldestHead F fl = .ok g.h :=
  oldest_window hF (L.head hF) (fun _ h1 h2 => L.heads' hF h1 h2)

theorem Bound.head {slots : List Slot} {fl : Flash} {h t : Nat} (hc : Chain F fl h slots t) : Bound slots t h := by
  cases slots with
  | nil => exact .inl hc
  | cons s ss => exact .inr ⟨s, by simp, hc.1⟩

/-- The newest page: its head is the start of an entry or the end of the entry that is being written, and the page ends after
the entries that are complete. -/
theorem Log.newest (hF : Sizes F) {fl : Flash} {g : Geo} {t c e : Nat} {slots : List Slot} (L : Log F fl g slots t c e) :
    ∃ a x, newestHead F fl = .ok x ∧ g.b ≤ a ∧ a < g.b + F.N ∧ F.nextPage x = a * F.Q + F.Q ∧ x < a * F.Q + F.Q ∧
      c ≤ a * F.Q + F.Q ∧ a * F.Q ≤ x ∧ (Bound slots t x ∨ x = e) ∧
      (c < a * F.Q + F.Q ∨ a + 1 = g.b + F.N ∨ ini F fl (a + 1) ≠ tgt F c e (a + 1)) ∧ HeadAt F fl a x ∧
      ∀ a', a < a' → a' < g.b + F.N → NoHead F fl a' := by
  have hn := hF.n3
  have hct := L.ct hF
  have hte := L.te
  have hq := hF.q6
  obtain ⟨a, x, h1, h2, h3, h4⟩ := last_head (L.head hF) F.N (by omega) (fun _ h1 h2 => L.heads' hF h1 h2)
  refine ⟨a, x, ?_, h1, h2, ?_, h3.hi, ?_, h3.lo, ?_, ?_, h3, h4⟩
  · refine newest_window hF h3 h1 h2 (fun a' h5 h6 => ?_)
    rcases Nat.lt_or_ge a a' with h7 | h7
    · exact .inl (h4 a' h7 h6)
    · rcases L.heads' hF h5 h6 with h8 | ⟨x, h8⟩
      · exact .inl h8
      · exact .inr ⟨x, h8, h7⟩
  · rw [Format.nextPage, div_of h3.lo h3.hi, succ_mul']
  · rcases Nat.lt_or_ge (a + 1) (g.b + F.N) with h5 | h5
    · rcases L.heads hF (a := a + 1) (by omega) h5 with ⟨h6, _⟩ | ⟨_, _, x', h6, _⟩ | ⟨_, h6, _, _, _⟩ | ⟨_, h6, _⟩
      · omega
      · exact absurd h6 (h4 _ (by omega) h5).not_head
      · rw [succ_mul'] at h6; exact h6
      · rw [succ_mul'] at h6; exact h6
    · have hab : a + 1 = g.b + F.N := by omega
      have e : (a + 1) * F.Q = g.b * F.Q + F.N * F.Q := by rw [hab, Nat.add_mul]
      rw [succ_mul'] at e
      have := L.ew
      omega
  · have uniq : ∀ y, HeadAt F fl a y → y = x := by
      intro y hy
      have e := hy.word
      rw [h3.word] at e
      have := congrArg InitInfo.pre (WordState.valid.inj (Except.ok.inj e))
      simp only at this
      have := hy.lo
      have := h3.lo
      omega
    rcases L.heads hF h1 h2 with ⟨_, h6⟩ | ⟨_, _, x', h6, h7⟩ | ⟨_, _, _, _, h6⟩ | ⟨_, _, h6⟩
    · rw [← uniq _ h6]; exact .inl (Bound.head L.chain)
    · rw [← uniq _ h6]; exact .inl h7
    · rw [← uniq _ h6]
      split
      · left
        rcases L.hc with h7 | ⟨_, s1, s, h7, h8, _⟩
        · exact .inl h7
        · exact .inr ⟨s, by rw [h7]; simp, h8⟩
      · exact .inr rfl
    · exact absurd h3 h6.not_head
  · rcases Nat.lt_or_ge (a + 1) (g.b + F.N) with h5 | h5
    · rcases L.heads hF (a := a + 1) (by omega) h5 with ⟨h6, _⟩ | ⟨_, _, x', h6, _⟩ | ⟨_, _, _, _, h6⟩ | ⟨h7, h8, h6⟩
      · omega
      · exact absurd h6 (h4 _ (by omega) h5).not_head
      · exact absurd h6 (h4 _ (by omega) h5).not_head
      · by_cases h9 : c < a * F.Q + F.Q
        · exact .inl h9
        · right; right
          intro he
          rcases Nat.lt_or_ge ((a + 1) * F.Q) e with h10 | h10
          · obtain ⟨hp, _⟩ := tgt_spec hF (first := c) (stop := e) (a := a + 1) (by omega) L.size h8 h10 (cyc_le hF L.hE h5)
            rw [NoHead, he, hp] at h6
            rcases h6 with h6 | h6 <;> cases Except.ok.inj h6
          · rw [L.inie (a + 1) h7 h5 h10] at he
            have hs : Sealed (tgt F c e (a + 1)) := by
              have := hF.e16
              have := cyc_le hF L.hE h5
              have hmm := hF.m256
              refine (initWord_spec (by omega) ?_).2.1
              split
              · omega
              · have := L.size; omega
            exact hs.ne_erased he.symm
    · exact .inr (.inl (by omega))

end Verif.Store
