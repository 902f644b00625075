import Verif.Store.RecoverTrans

/-!
# Recovery: looking for a page to erase
-/
namespace Verif.Store

variable {F : Format}

section
variable {fl : Flash}

theorem eraseLoop_stop {stop p q fuel : Nat} {r : Parsed} (h : parseEntry F fl p = .ok (r, q)) (hr : r.stops = true) :
    eraseLoop F fl stop fuel p = .ok none := by
  cases fuel with
  | zero => rfl
  | succ f =>
    rw [eraseLoop]
    split
    · rw [h]
      cases r <;> first | rfl | cases hr
    · rfl

theorem eraseLoop_end {stop p fuel : Nat} (h : stop ≤ p) : eraseLoop F fl stop fuel p = .ok none := by
  cases fuel with
  | zero => rfl
  | succ f => rw [eraseLoop, if_neg (by omega)]

/-- An erased word ends the search. -/
theorem eraseLoop_blank {stop p fuel : Nat} (h : p < stop → rd F fl p = erasedWord) : eraseLoop F fl stop fuel p = .ok none := by
  rcases Nat.lt_or_ge p stop with h1 | h1
  · have h0 : readWord F fl p = erasedWord := h h1
    obtain ⟨r, q, hp, hr⟩ : ∃ r q, parseEntry F fl p = .ok (r, q) ∧ r.stops = true := by
      simp only [parseEntry, h0, parseWord_erased]
      exact ⟨_, _, rfl, parsePartly_stops fl p⟩
    exact eraseLoop_stop hp hr
  · exact eraseLoop_end h1

/-- Nothing is to be erased among the entries. -/
theorem eraseLoop_none (hF : Sizes F) {stop t : Nat} (hend : ∀ fuel, eraseLoop F fl stop fuel t = .ok none) :
    (fuel : Nat) → (sl : List Slot) → (p : Nat) → Chain F fl p sl t → (∀ s ∈ sl, ∀ n, s.it ≠ .int (.erase n)) →
    eraseLoop F fl stop fuel p = .ok none
  | 0, _, _, _, _ => rfl
  | fuel + 1, [], p, hc, _ => by
    have : p = t := hc
    subst this; exact hend _
  | fuel + 1, s :: sl, p, hc, hs => by
    have hp : s.p = p := hc.1
    subst hp
    have ih := eraseLoop_none hF hend fuel sl s.q hc.2.2 (fun s' hs' => hs s' (List.mem_cons_of_mem _ hs'))
    have hit := hc.2.1
    rw [eraseLoop]
    split
    · cases hi : s.it with
      | pad =>
        rw [hi] at hit
        rw [parse_pad hit]
        exact ih
      | user k v =>
        rw [hi] at hit
        obtain ⟨hd, hpar, _⟩ := parse_user hF hit
        rw [hpar]
        exact ih
      | int i =>
        rw [hi] at hit
        rw [parse_int hF hit]
        cases i with
        | erase n => exact absurd hi (hs s (by simp) n)
        | _ => rfl
      | gap =>
        rw [hi] at hit
        rcases gap_parse hit with h | ⟨n, h, _⟩ <;> rw [h]
    · rfl

/-- The entry to erase a page is found. -/
theorem eraseLoop_some (hF : Sizes F) {stop : Nat} {es : Slot} {n : Nat} (hes : ItemAt F fl es.p es.q (.int (.erase n))) (hst : es.p < stop) :
    (fuel : Nat) → (sl : List Slot) → (p : Nat) → Chain F fl p sl es.p → (∀ s ∈ sl, UP s) → stop ≤ p + fuel →
    eraseLoop F fl stop fuel p = .ok (some es.p)
  | 0, sl, p, hc, _, hf => by
    have := hc.le
    omega
  | fuel + 1, [], p, hc, _, _ => by
    have : p = es.p := hc
    subst this
    rw [eraseLoop, if_pos hst, parse_int hF hes]
  | fuel + 1, s :: sl, p, hc, hs, hf => by
    have hp : s.p = p := hc.1
    subst hp
    have hsz := hc.2.1.size
    have hle := hc.2.2.le
    have ih := eraseLoop_some hF hes hst fuel sl s.q hc.2.2 (fun s' hs' => hs s' (List.mem_cons_of_mem _ hs')) (by omega)
    have hit := hc.2.1
    rw [eraseLoop, if_pos (by omega)]
    rcases hs s (by simp) with hi | ⟨k, v, hi⟩
    · rw [hi] at hit
      rw [parse_pad hit]
      exact ih
    · rw [hi] at hit
      obtain ⟨hd, hpar, _⟩ := parse_user hF hit
      rw [hpar]
      exact ih

end

theorem tri_eraseNone {st : St} {x : Nat} (h1 : newestHead F st.fl = .ok x) (h2 : ∀ fuel, eraseLoop F st.fl (F.nextPage x) fuel x = .ok none)
    {P : Unit → St → Prop} {E : Err → St → Prop} {C : Flash → Prop} (hP : P () st) : Tri (recoverErase F) st P E C := by
  apply tri_bind
  refine tri_getFl ?_
  apply tri_bind
  refine tri_liftE h1 ?_
  apply tri_bind
  refine tri_liftE (h2 _) ?_
  exact tri_pure hP

/-- Nothing is to be erased in a log without erase entries. -/
theorem Log.noErase (hF : Sizes F) {st : St} {g : Geo} {slots : List Slot} {t c e : Nat} (L : Log F st.fl g slots t c e)
    (hs : ∀ s ∈ slots, ∀ n, s.it ≠ .int (.erase n))
    (hend : ∀ stop, stop ≤ g.b * F.Q + F.N * F.Q → ∀ fuel, eraseLoop F st.fl stop fuel t = .ok none)
    {P : Unit → St → Prop} {E : Err → St → Prop} {C : Flash → Prop} (hP : P () st) : Tri (recoverErase F) st P E C := by
  obtain ⟨a, x, h1, h2, h3, h4, h5, h6, h7, h8, _⟩ := L.newest hF
  have hw := page_in_window h3
  refine tri_eraseNone h1 (fun fuel => ?_) hP
  rw [h4]
  rcases h8 with h8 | h8
  · obtain ⟨A, B, hAB, hA, hB⟩ := L.chain.split x h8
    exact eraseLoop_none hF (hend _ hw) fuel B x hB (fun s hs' => hs s (by rw [hAB]; simp [hs']))
  · subst h8
    exact eraseLoop_blank (fun h9 => L.blank x (Nat.le_refl _) (by omega))

/-- Nothing is to be erased after an operation. -/
theorem LogT.noErase (hF : Sizes F) {st : St} {g : Geo} {slots : List Slot} {t c e : Nat} (L : LogT F st.fl g slots t c e)
    (hs : ∀ s ∈ slots, ∀ n, s.it ≠ .int (.erase n)) (he : e + F.Q + 1 ≤ g.b * F.Q + F.N * F.Q)
    {P : Unit → St → Prop} {E : Err → St → Prop} {C : Flash → Prop} (hP : P () st) : Tri (recoverErase F) st P E C := by
  refine L.log.noErase hF hs (fun stop _ fuel => ?_) hP
  rcases L.parse_end hF he with ⟨_, h1⟩ | ⟨_, _, _, h1⟩ | ⟨_, _, _, h1⟩ <;> exact eraseLoop_stop h1 rfl

/-- The page to erase is found, and erased. -/
theorem Erasing.recover (hF : Sizes F) {st : St} {b h t : Nat} {g : Geo} {sl : List Slot} {es : Slot} {m : KV}
    (h1 : Erasing F st.fl b h g sl es t m) (he : st.entries = none) :
    Tri (recoverErase F) st (fun _ st' => st'.entries = none ∧ Live F st'.fl m) (fun _ _ => False) (fun fl' => Comp F fl' m ∨ Live F fl' m) := by
  have hn := hF.n3
  have hq := hF.q6
  have hmq := hF.mq
  have hbd := h1.bound hF
  have hgb := h1.hb
  have eQ : g.b * F.Q = b * F.Q + F.Q := by rw [hgb, succ_mul']
  have eN : (b + F.N) * F.Q = b * F.Q + F.N * F.Q := Nat.add_mul _ _ _
  have L := h1.log
  have hhb := L.hb
  have hE := L.hE
  obtain ⟨a, x, n1, n2, n3, n4, n5, n6, n7, n8, n9, n10, n11⟩ := L.newest hF
  have hpg : ∀ a, b < a → a < b + F.N → a % F.N ≠ b % F.N := fun a h1 h2 e => by
    have := mod_inj (N := F.N) (b := b) (by omega) h2 (Nat.le_refl _) (by omega) e
    omega
  have hsame : ∀ a i, b < a → a < b + F.N → (st.fl.erase (b % F.N)) (a % F.N) i = st.fl (a % F.N) i := fun a i h1 h2 => by
    simp only [Flash.erase]
    rw [if_neg (hpg a h1 h2)]
  have hab : a ≠ b + F.N := by
    rintro rfl
    have := L.inie (b + F.N) (by omega) (by omega) (by omega)
    exact (noHead_erased this).not_head n10
  have hini : ∀ a, b < a → a < b + F.N → Store.ini F (st.fl.erase (b % F.N)) a = Store.ini F st.fl a := fun a h1 h2 => hsame a 0 h1 h2
  have hHead : ∀ a y, b < a → a < b + F.N → HeadAt F (st.fl.erase (b % F.N)) a y → HeadAt F st.fl a y := by
    intro a y h2 h3 h4
    exact ⟨by rw [← hini a h2 h3]; exact h4.word, h4.lo, h4.hi⟩
  have hNo : ∀ a, b < a → a < b + F.N → NoHead F (st.fl.erase (b % F.N)) a → NoHead F st.fl a := by
    intro a h2 h3 h4
    unfold NoHead at h4 ⊢
    rw [← hini a h2 h3]; exact h4
  have hnew : newestHead F st.fl = .ok x := by
    refine newest_window hF (b := b) (hHead a x (by omega) (by omega) n10) (by omega) (by omega) (fun a' h2 h3 => ?_)
    by_cases hb' : a' = b
    · subst hb'
      have hcy : a' / F.N ≤ F.E := cyc_le hF (Nat.le_of_lt h1.hE) (by omega)
      by_cases hw : Store.ini F st.fl a' = initWord (a' / F.N) (h - a' * F.Q)
      · exact .inr ⟨h, HeadAt.of_word hF h1.h1 h1.h2 hcy hw, by omega⟩
      · left
        have hspec := initWord_spec (c := a' / F.N) (p := h - a' * F.Q) (by have := hF.e16; omega) (by have := hF.m256; have := h1.h2; omega)
        have := parseInit_above F hspec.2.1 h1.ini hw
        split at this
        · exact .inl this
        · exact .inr this
    · rcases Nat.lt_or_ge a a' with h4 | h4
      · exact .inl (hNo a' (by omega) h3 (n11 a' h4 (by omega)))
      · rcases L.heads' hF (a := a') (by omega) (by omega) with h5 | ⟨y, h5⟩
        · exact .inl (hNo a' (by omega) h3 h5)
        · exact .inr ⟨y, hHead a' y (by omega) h3 h5, h4⟩
  have hrd : ∀ y, g.h ≤ y → y < t → rd F st.fl y = rd F (st.fl.erase (b % F.N)) y := by
    intro y h2 h3
    have hd := div_bounds (Q := F.Q) (x := y) (by omega)
    rw [rd_eq, rd_eq]
    refine (hsame _ _ ?_ ?_).symm
    · apply lt_of_mul (Q := F.Q); omega
    · exact page_of_lt (x := y + 1) (by omega) (by omega)
  have hch : Chain F st.fl g.h (sl ++ [es]) t := L.chain.congr hF hrd
  obtain ⟨y, hc1, hc2⟩ := hch.of_append
  have hy : es.p = y := hc2.1
  subst hy
  have hit := hc2.2.1
  rw [h1.it] at hit
  have hesz := hit.size
  have heq : es.q = t := hc2.2.2
  have hesq : es.q = es.p + 1 := hit.2.2
  have hxle : x ≤ es.p ∧ Bound sl es.p x := by
    have hcases : x = t ∨ ∃ s ∈ sl ++ [es], s.p = x := by
      rcases n8 with (h2 | h2) | h2
      · exact .inl h2
      · exact .inr h2
      · exact .inl h2
    rcases hcases with hxt | ⟨s, hs, hsx⟩
    · exfalso
      by_cases hag : a = g.b
      · subst hag
        have e1 := n10.word
        rw [(L.head hF).word] at e1
        have e2 := congrArg InitInfo.pre (WordState.valid.inj (Except.ok.inj e1))
        simp only at e2
        have := hc1.le
        omega
      · have hac : a * F.Q < t := by
          rcases Nat.lt_or_ge (a * F.Q) t with h2 | h2
          · exact h2
          · exact absurd n10 (noHead_erased (L.inie a (by omega) n3 h2)).not_head
        obtain ⟨x', c1, c2, c3, c4, c5⟩ := L.cov a (by omega) hac
        have hx' : x' = x := by
          have e1 := (HeadAt.of_word hF c1 c2 (cyc_le hF L.hE n3) c3).word
          rw [n10.word] at e1
          have e2 := congrArg InitInfo.pre (WordState.valid.inj (Except.ok.inj e1))
          simp only at e2
          omega
        have := c5 es (by simp) (by omega) (by omega)
        rw [h1.it] at this
        cases this
    · have hm := hch.mem s hs
      rcases List.mem_append.1 hs with h2 | h2
      · have := hc1.mem s h2
        exact ⟨by omega, .inr ⟨s, h2, hsx⟩⟩
      · have : s = es := by simpa using h2
        subst this
        exact ⟨by omega, .inl hsx.symm⟩
  obtain ⟨A, B, hAB, hA, hB⟩ := hc1.split x hxle.2
  have hfound := eraseLoop_some hF (stop := F.nextPage x) hit (by omega) (F.nextPage x - x) B x hB
    (fun s hs => h1.items s (by rw [hAB]; simp [hs])) (by omega)
  apply tri_bind
  refine tri_getFl ?_
  apply tri_bind
  refine tri_liftE hnew ?_
  apply tri_bind
  refine tri_liftE hfound ?_
  refine tri_mono (compactErase_tri hF h1 (i := false) he) ?_ (fun _ _ h => h) (fun _ h => h)
  rintro _ st' ⟨h2, h3⟩
  exact ⟨h3.2, h2.live⟩

end Verif.Store
