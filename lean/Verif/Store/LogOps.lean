import Verif.Store.Log

/-!
# How the log changes
-/
namespace Verif.Store

variable {F : Format}

section
variable {fl fl' : Flash} {g : Geo} {t c e : Nat} {slots : List Slot}

theorem Log.inWin (L : Log F fl g slots t c e) {x : Nat} (h1 : g.h ≤ x) (h2 : x < e) : InWin F g.b x := by
  have := L.hb
  have := L.ew
  exact ⟨by omega, by omega⟩

theorem InWin.of_le {b x : Nat} (h1 : b * F.Q ≤ x) (h2 : x < b * F.Q + F.N * F.Q) : InWin F b x := ⟨h1, h2⟩

theorem Cov.congr {slots' : List Slot} {t' a : Nat} (h : Cov F fl slots t a) (hi : ini F fl' a = ini F fl a)
    (hb : ∀ x, Bound slots t x → Bound slots' t' x)
    (hp : ∀ x, x ≤ a * F.Q + F.M → Bound slots t x → ∀ s ∈ slots', a * F.Q ≤ s.p → s.p < x → s.it = .pad ∨ s ∈ slots) :
    Cov F fl' slots' t' a := by
  obtain ⟨x, h1, h2, h3, h4, h5⟩ := h
  refine ⟨x, h1, h2, by rw [hi]; exact h3, hb x h4, fun s hs h6 h7 => ?_⟩
  rcases hp x h2 h4 s hs h6 h7 with h8 | h8
  · exact h8
  · exact h5 s h8 h6 h7

/-- An entry becomes padding. -/
theorem Log.pad (hF : Sizes F) (L : Log F fl g slots t c e) {s : Slot} (hs : s ∈ slots) (hf : Fr F g.b fl fl' s.p s.q)
    (hi : ItemAt F fl' s.p s.q .pad) : Log F fl' g (padAt slots s.p) t c e := by
  have hct := L.ct hF
  have hte := L.te
  have hb := L.hb
  have hew := L.ew
  have hm := L.chain.mem s hs
  refine ⟨L.hb, L.hM, L.h0, L.hE, by rw [hf.ini]; exact L.ini0, ?_, ?_, ?_, ?_, by rw [hf.cmp]; exact L.cmp0, ?_, ?_, L.te, L.ew, ?_, L.size⟩
  · refine Chain.padAt hF hi L.chain (fun s' hs' e1 => ?_) (fun x h1 h2 h3 => hf.other x ⟨by omega, by omega⟩ h3) (fun s' hs' => ?_)
    · rw [L.chain.uniq hs' hs e1]
    · rcases L.chain.disjoint s' hs' s hs with h1 | h1 | h1
      · rw [h1]; exact .inl rfl
      · exact .inr (.inl h1)
      · exact .inr (.inr h1)
  · intro a h1 h2
    refine (L.cov a h1 h2).congr (hf.ini a) (fun x h => h.padAt) (fun x _ _ s' hs' _ _ => ?_)
    obtain ⟨s0, h3, rfl⟩ := List.mem_map.1 hs'
    split
    · exact .inl rfl
    · exact .inr h3
  · intro a h1 h2 h3
    rw [hf.ini]; exact L.pend a h1 h2 h3
  · intro a h1 h2 h3
    rw [hf.ini]; exact L.inie a h1 h2 h3
  · intro a h1 h2
    rw [hf.cmp]; exact L.cmpe a h1 h2
  · intro x h1 h2
    rw [hf.other x ⟨by omega, h2⟩ (by omega)]; exact L.blank x h1 h2
  · rcases L.hc with h1 | ⟨h1, s1, s2, h2, h3, h4⟩
    · exact .inl h1
    · refine .inr ⟨h1, padAt s1 s.p, if s2.p = s.p then { s2 with it := .pad } else s2, ?_, ?_, ?_⟩
      · rw [h2]; simp [padAt]
      · split <;> exact h3
      · split
        · simp
        · exact h4

/-- The words of the log are not modified. -/
theorem Log.same (hF : Sizes F) (L : Log F fl g slots t c e) {p q : Nat} (hf : Fr F g.b fl fl' p q)
    (hs : ∀ x, p ≤ x → x < q → rd F fl' x = rd F fl x) : Log F fl' g slots t c e := by
  have hb := L.hb
  have hew := L.ew
  have hte := L.te
  have hct := L.ct hF
  have hall : ∀ x, g.b * F.Q ≤ x → x < g.b * F.Q + F.N * F.Q → rd F fl' x = rd F fl x := fun x h1 h2 => by
    by_cases h : p ≤ x ∧ x < q
    · exact hs x h.1 h.2
    · exact hf.other x ⟨h1, h2⟩ (by omega)
  exact ⟨L.hb, L.hM, L.h0, L.hE, by rw [hf.ini]; exact L.ini0, L.chain.congr hF (fun x h1 h2 => hall x (by omega) (by omega)),
    fun a h1 h2 => (L.cov a h1 h2).congr (hf.ini a) (fun _ h => h) (fun _ _ _ s h3 _ _ => .inr h3),
    fun a h1 h2 h3 => by rw [hf.ini]; exact L.pend a h1 h2 h3, fun a h1 h2 h3 => by rw [hf.ini]; exact L.inie a h1 h2 h3,
    by rw [hf.cmp]; exact L.cmp0, fun a h1 h2 => by rw [hf.cmp]; exact L.cmpe a h1 h2,
    fun x h1 h2 => by rw [hall x (by omega) h2]; exact L.blank x h1 h2, L.te, L.ew, L.hc, L.size⟩

/-- Words after the last entry are written. -/
theorem Log.open (hF : Sizes F) (L : Log F fl g slots t t t) {q e' : Nat} (hf : Fr F g.b fl fl' t q) (h1 : t ≤ e')
    (h2 : e' ≤ q) (h3 : e' ≤ t + 1 + F.M) (h4 : q ≤ g.b * F.Q + F.N * F.Q) (hbl : Blank F fl' e' q) : Log F fl' g slots t t e' := by
  have hb := L.hb
  have hct := L.ct hF
  refine ⟨L.hb, L.hM, L.h0, L.hE, by rw [hf.ini]; exact L.ini0,
    L.chain.congr hF (fun x h5 h6 => hf.other x ⟨by omega, by omega⟩ (by omega)),
    fun a h5 h6 => (L.cov a h5 h6).congr (hf.ini a) (fun _ h => h) (fun _ _ _ s h3 _ _ => .inr h3), ?_, ?_,
    by rw [hf.cmp]; exact L.cmp0, ?_, ?_, h1, by omega, .inl rfl, h3⟩
  · intro a h5 h6 h7
    rw [hf.ini, L.inie a h5 (page_of_lt h7 (by omega)) h6]; exact le_erased _
  · intro a h5 h6 h7
    rw [hf.ini]; exact L.inie a h5 h6 (by omega)
  · intro a h5 h6
    rw [hf.cmp]; exact L.cmpe a h5 h6
  · intro x h5 h6
    rcases Nat.lt_or_ge x q with h7 | h7
    · exact hbl x h5 h7
    · rw [hf.other x ⟨by omega, h6⟩ (by omega)]; exact L.blank x (by omega) h6

/-- Words of the entry that is being written are modified. -/
theorem Log.rewrite (hF : Sizes F) (L : Log F fl g slots t t e) (hf : Fr F g.b fl fl' t e) : Log F fl' g slots t t e := by
  have hb := L.hb
  have hct := L.ct hF
  have hte := L.te
  have hew := L.ew
  exact ⟨L.hb, L.hM, L.h0, L.hE, by rw [hf.ini]; exact L.ini0,
    L.chain.congr hF (fun x h5 h6 => hf.other x ⟨by omega, by omega⟩ (by omega)),
    fun a h5 h6 => (L.cov a h5 h6).congr (hf.ini a) (fun _ h => h) (fun _ _ _ s h3 _ _ => .inr h3),
    fun a h1 h2 h3 => by rw [hf.ini]; exact L.pend a h1 h2 h3, fun a h1 h2 h3 => by rw [hf.ini]; exact L.inie a h1 h2 h3,
    by rw [hf.cmp]; exact L.cmp0, fun a h1 h2 => by rw [hf.cmp]; exact L.cmpe a h1 h2,
    fun x h1 h2 => by rw [hf.other x ⟨by omega, h2⟩ (by omega)]; exact L.blank x h1 h2, L.te, L.ew, .inl rfl, L.size⟩

/-- The entry that is being written is complete. -/
theorem Log.push (hF : Sizes F) (L : Log F fl g slots t t e) {it : Item} (hi : ItemAt F fl t e it) (hg : it ≠ .gap) :
    Log F fl g (slots ++ [⟨t, e, it⟩]) e t e := by
  have hc : Chain F fl t [⟨t, e, it⟩] e := ⟨rfl, hi, rfl⟩
  have hsz := hi.size
  refine ⟨L.hb, L.hM, L.h0, L.hE, L.ini0, L.chain.append hc, ?_, L.pend, L.inie, L.cmp0, L.cmpe, L.blank, Nat.le_refl _, L.ew,
    .inr ⟨rfl, slots, _, rfl, rfl, hg⟩, L.size⟩
  intro a h1 h2
  refine (L.cov a h1 h2).congr rfl (fun x h => h.append hc) (fun x h3 h4 s hs h5 h6 => ?_)
  rcases List.mem_append.1 hs with hs | hs
  · exact .inr hs
  · have : s = ⟨t, e, it⟩ := by simpa using hs
    subst this
    exfalso
    simp only at h5 h6
    rcases h4 with rfl | ⟨s', h7, rfl⟩
    · omega
    · have := L.chain.mem s' h7; omega

/-- Init words of the entry that is being written are modified. -/
theorem Log.reinit (hF : Sizes F) (L : Log F fl g slots t c e) (hf : FrI F g.b fl fl' c e)
    (hi : ∀ a, c ≤ a * F.Q → a * F.Q < e → Le (tgt F c e a) (ini F fl' a) ∧ Le (ini F fl' a) (ini F fl a)) :
    Log F fl' g slots t c e := by
  have hn := hF.n3
  have hct := L.ct hF
  have hte := L.te
  have hb := L.hb
  have hM := L.hM
  have hw := L.ew
  refine ⟨L.hb, L.hM, L.h0, L.hE, ?_, L.chain.congr hF (fun x _ _ => hf.rd x), ?_, fun a _ h2 h3 => (hi a h2 h3).1, ?_,
    by rw [hf.cmp]; exact L.cmp0, fun a h1 h2 => by rw [hf.cmp]; exact L.cmpe a h1 h2, fun x h1 h2 => by rw [hf.rd]; exact L.blank x h1 h2,
    L.te, L.ew, L.hc, L.size⟩
  · by_cases h1 : c ≤ g.b * F.Q ∧ g.b * F.Q < e
    · have hh : g.h = g.b * F.Q := by omega
      obtain ⟨h2, h3⟩ := hi g.b h1.1 h1.2
      have h4 : tgt F c e g.b = ini F fl g.b := by rw [L.ini0, tgt, if_pos (by omega), hh, Nat.sub_self]
      rw [h4] at h2
      rw [Le.antisymm h3 h2]; exact L.ini0
    · rw [hf.other g.b (Nat.le_refl _) (by omega) (by omega)]; exact L.ini0
  · intro a h1 h2
    refine (L.cov a h1 h2).congr (hf.other a (by omega) (page_of_lt (x := c) h2 (by omega)) (.inl h2)) (fun _ h => h) (fun _ _ _ s h3 _ _ => .inr h3)
  · intro a h1 h2 h3
    rw [hf.other a (by omega) h2 (.inr h3)]; exact L.inie a h1 h2 h3

/-- The page of the last entry is initialized. -/
theorem Log.done (hF : Sizes F) (L : Log F fl g slots t c t) (hi : ∀ a, g.b < a → c ≤ a * F.Q → a * F.Q < t → ini F fl a = tgt F c t a) :
    Log F fl g slots t t t := by
  have hn := hF.n3
  have hct := L.ct hF
  have hsz := L.size
  have hmq := hF.mq
  refine ⟨L.hb, L.hM, L.h0, L.hE, L.ini0, L.chain, ?_, fun a h1 h2 h3 => by omega, L.inie, L.cmp0, L.cmpe, L.blank, L.te, L.ew, .inl rfl, by omega⟩
  intro a h1 h2
  rcases Nat.lt_or_ge (a * F.Q) c with h3 | h3
  · exact L.cov a h1 h3
  · have h4 := hi a h1 h3 h2
    have hlast : ∃ s1 s, slots = s1 ++ [s] ∧ s.p = c := by
      rcases L.hc with h5 | ⟨_, s1, s, h5, h6, _⟩
      · omega
      · exact ⟨s1, s, h5, h6⟩
    obtain ⟨s1, s, h5, h6⟩ := hlast
    by_cases e1 : a * F.Q = c
    · refine ⟨c, by omega, by omega, by rw [h4, tgt, if_pos e1, e1, Nat.sub_self], .inr ⟨s, by rw [h5]; simp, h6⟩, fun s' _ h7 h8 => by omega⟩
    · refine ⟨t, by omega, by omega, by rw [h4, tgt, if_neg e1], .inl rfl, fun s' hs' h7 h8 => ?_⟩
      exfalso
      rw [h5] at hs'
      have hc := L.chain
      rw [h5] at hc
      obtain ⟨x, h9, h10⟩ := hc.of_append
      rcases List.mem_append.1 hs' with hs' | hs'
      · have := h9.mem s' hs'
        have := h10.1
        omega
      · have : s' = s := by simpa using hs'
        subst this; omega

/-- An entry that was not complete became padding. -/
theorem Log.wiped (hF : Sizes F) (L : Log F fl g slots t t e) {ns : List Slot} (hc : Chain F fl t ns e) (hne : ns ≠ [])
    (hp : ∀ s ∈ ns, s.it = .pad) (hi : ∀ a, g.b < a → t ≤ a * F.Q → a * F.Q < e → ini F fl a = tgt F t e a) :
    Log F fl g (slots ++ ns) e e e := by
  have hmq := hF.mq
  have hsz := L.size
  refine ⟨L.hb, L.hM, L.h0, L.hE, L.ini0, L.chain.append hc, ?_, fun a h1 h2 h3 => by omega, L.inie, L.cmp0, L.cmpe, L.blank,
    Nat.le_refl _, L.ew, .inl rfl, by omega⟩
  intro a h1 h2
  rcases Nat.lt_or_ge (a * F.Q) t with h3 | h3
  · refine (L.cov a h1 h3).congr rfl (fun x h => h.append hc) (fun x _ _ s hs _ _ => ?_)
    rcases List.mem_append.1 hs with hs | hs
    · exact .inr hs
    · exact .inl (hp s hs)
  · have h4 := hi a h1 h3 h2
    have hps : ∀ s ∈ slots ++ ns, a * F.Q ≤ s.p → s.it = .pad := by
      intro s hs h5
      rcases List.mem_append.1 hs with hs | hs
      · have := L.chain.mem s hs; omega
      · exact hp s hs
    by_cases e1 : a * F.Q = t
    · refine ⟨t, by omega, by omega, by rw [h4, tgt, if_pos e1, e1, Nat.sub_self], ?_, fun s' _ h7 h8 => by omega⟩
      cases ns with
      | nil => exact absurd rfl hne
      | cons n ns => exact .inr ⟨n, by simp, hc.1⟩
    · exact ⟨e, by omega, by omega, by rw [h4, tgt, if_neg e1], .inl rfl, fun s' hs' h7 h8 => hps s' hs' h7⟩

/-- `init_page` for the entry that is being written. -/
theorem Log.initPage (hF : Sizes F) (L : Log F fl g slots t c e) (hce : c < e) :
    Fls (initPage F c (c + (e - c - 1))) fl
      (fun _ fl' => FrI F g.b fl fl' c e ∧ Log F fl' g slots t c e ∧ ∀ a, g.b < a → c ≤ a * F.Q → a * F.Q < e → ini F fl' a = tgt F c e a)
      (fun fl' => FrI F g.b fl fl' c e ∧ Log F fl' g slots t c e) := by
  have hn := hF.n3
  have hct := L.ct hF
  have hb := L.hb
  have hM := L.hM
  have hw := L.ew
  have hpre : ∀ a, c ≤ a * F.Q → a * F.Q < e → Le (tgt F c e a) (ini F fl a) := by
    intro a h1 h2
    rcases Nat.lt_or_ge g.b a with h3 | h3
    · exact L.pend a h3 h1 h2
    · have := mul_mono (Q := F.Q) h3
      have hh : a * F.Q = g.b * F.Q := by omega
      have hq := hF.q6
      have e1 : a = g.b := Nat.eq_of_mul_eq_mul_right (by omega) hh
      subst e1
      rw [L.ini0, tgt, if_pos (by omega), show g.h = g.b * F.Q by omega, Nat.sub_self]
      exact Le.refl _
  refine fls_mono (initPage_fls hF hce L.size ⟨by omega, by omega⟩ L.ew (cyc_le hF L.hE (by omega)) hpre) ?_ ?_
  · rintro _ fl' ⟨h1, h2⟩
    exact ⟨h1, L.reinit hF h1 (fun a h3 h4 => by rw [h2 a h3 h4]; exact ⟨Le.refl _, hpre a h3 h4⟩), fun a _ h3 h4 => h2 a h3 h4⟩
  · rintro fl' ⟨h1, h2⟩
    exact ⟨h1, L.reinit hF h1 h2⟩

/-- Finding the tail. -/
theorem tailLoop_chain (hF : Sizes F) {stop : Nat} : {slots : List Slot} → {x t : Nat} → (fuel : Nat) → Chain F fl x slots t →
    (∀ s ∈ slots, s.it ≠ .gap) → t ≤ stop → stop - x ≤ fuel → (t < stop → parseEntry F fl t = .ok (.tail, t)) →
    tailLoop F fl stop fuel x = .ok t
  | [], x, t, fuel, hc, hg, h1, h2, h3 => by
    have : x = t := hc
    subst this
    cases fuel with
    | zero => rfl
    | succ fuel =>
      simp only [tailLoop]
      split
      · rename_i h4; rw [h3 h4]
      · rfl
  | s :: ss, x, t, fuel, hc, hg, h1, h2, h3 => by
    have h4 := hc.2.1.size
    have h5 := Chain.le hc.2.2
    have h6 := hc.1
    cases fuel with
    | zero => omega
    | succ fuel =>
      have ih := tailLoop_chain hF fuel hc.2.2 (fun s' hs' => hg s' (List.mem_cons_of_mem _ hs')) h1 (by omega) h3
      simp only [tailLoop]
      rw [if_pos (by omega)]
      have hi := hc.2.1
      rw [h6] at hi
      have hgs := hg s (by simp)
      cases hit : s.it with
      | user k v =>
        rw [hit] at hi
        obtain ⟨hd, h7, _⟩ := parse_user hF hi
        rw [h7]; exact ih
      | pad => rw [hit] at hi; rw [parse_pad hi]; exact ih
      | int e => rw [hit] at hi; rw [parse_int hF hi]; exact ih
      | gap => exact absurd hit hgs

theorem Log.tail (hF : Sizes F) (L : Log F fl g slots t t t) (hg : ∀ s ∈ slots, s.it ≠ .gap) (ht : t + F.M ≤ g.b * F.Q + F.N * F.Q) :
    tailOf F fl = .ok t := by
  obtain ⟨a, x, h1, _, _, h4, _, h6, _, h7, _⟩ := L.newest hF
  have hx : Bound slots t x := by
    rcases h7 with h7 | h7
    · exact h7
    · exact .inl h7
  obtain ⟨s1, s2, e1, _, hc2⟩ := L.chain.split x hx
  simp only [tailOf, h1, bind, Except.bind]
  rw [h4]
  refine tailLoop_chain hF _ hc2 (fun s hs => hg s (by rw [e1]; simp [hs])) h6 (Nat.le_refl _) (fun _ => ?_)
  exact parse_tail hF.m1 (fun y h8 h9 => L.blank y h8 (by omega))

end
end Verif.Store
