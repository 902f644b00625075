import Verif.Store.Scan

/-!
# Recovery: compaction, and the whole recovery
-/
namespace Verif.Store

variable {F : Format}

theorem users_ok {fl : Flash} {h t stop : Nat} {slots : List Slot} (hc : Chain F fl h slots t) :
    ∀ it ∈ users stop slots, ∃ k v, it = .user k v ∧ k ≤ maxKey ∧ v.length ≤ F.maxValueLen := by
  intro it hit
  obtain ⟨⟨k, v⟩, h1, h2⟩ := List.mem_map.1 hit
  obtain ⟨s, h3, h4⟩ := uents_mem.1 h1
  have hI := (hc.mem s (List.mem_filter.1 h3).1).2.2.2
  rw [h4] at hI
  exact ⟨k, v, h2.symm, hI.1, hI.2.1⟩

/-- The storage after loss of power during a compaction, before the page is to be erased. -/
inductive Copying (F : Format) (fl : Flash) (m : KV) : Prop
  | start {g slots t T G} (L : Log F fl g slots t t t) (hw : Le (compWord (T - g.h)) g.w) (hs : Src F g slots t T G m)
  | copy {g slots t T G} (P : Prog F fl g (slots ++ G) T (users (g.b * F.Q + F.Q) slots ++ [eraseItem F g.b])) (hw : g.w = compWord (T - g.h)) (hs : Src F g slots t T G m)

theorem Copying.comp {fl : Flash} {m : KV} (h : Copying F fl m) : Comp F fl m := by
  cases h with
  | start L hw hs => exact .start L hw hs
  | copy P hw hs => exact .copy P hw hs

/-- What `recover_erase` leaves. -/
def AfterErase (F : Format) (st' : St) (m : KV) : Prop := st'.entries = none ∧ (Copying F st'.fl m ∨ Live F st'.fl m)

/-- The entry to erase the page is written. -/
theorem recoverErase_written (hF : Sizes F) {st : St} {g : Geo} {slots G : List Slot} {t T c : Nat} {m : KV} (he : st.entries = none)
    (hs : Src F g slots t T G m) (hw : g.w = compWord (T - g.h))
    (L : Log F st.fl g (slots ++ G ++ place T (users (g.b * F.Q + F.Q) slots ++ [eraseItem F g.b])) (T + total (users (g.b * F.Q + F.Q) slots) + 1) c
      (T + total (users (g.b * F.Q + F.Q) slots) + 1)) :
    Tri (recoverErase F) st (fun _ st' => AfterErase F st' m) (fun _ _ => False) (fun fl' => Comp F fl' m ∨ Live F fl' m) := by
  have hn := hF.n3
  have hq := hF.q6
  have hct := L.ct hF
  obtain ⟨tt, htt⟩ : ∃ tt, tt = T + total (users (g.b * F.Q + F.Q) slots) + 1 := ⟨_, rfl⟩
  have hdone : Log F st.fl g (slots ++ G ++ place T (users (g.b * F.Q + F.Q) slots ++ [eraseItem F g.b])) tt tt tt →
      Tri (recoverErase F) st (fun _ st' => AfterErase F st' m) (fun _ _ => False) (fun fl' => Comp F fl' m ∨ Live F fl' m) := by
    intro L'
    rw [htt] at L'
    obtain ⟨g', sl, hh, hEr, _⟩ := hs.advance hF L'
    refine tri_mono (hEr.recover hF he) ?_ (fun _ _ h => h) (fun _ h => h)
    rintro _ st' ⟨h1, h2⟩
    exact ⟨h1, .inr h2⟩
  rw [← htt] at L hct
  have hcc := L.hc
  rw [place_append, ← List.append_assoc] at hcc
  rcases hcc with hc | ⟨_, s1, s, h1, h2, _⟩
  · subst hc
    exact hdone L
  · have hse : slots ++ G ++ place T (users (g.b * F.Q + F.Q) slots) = s1 ∧ [⟨T + total (users (g.b * F.Q + F.Q) slots), tt, eraseItem F g.b⟩] = [s] := by
      refine List.append_inj' ?_ rfl
      rw [← h1, htt]; rfl
    have hs2 := (List.cons.inj hse.2).1
    subst hs2
    simp only at h2
    by_cases hex : ∀ a, g.b < a → c ≤ a * F.Q → a * F.Q < tt → ini F st.fl a = tgt F c tt a
    · exact hdone (L.done hF hex)
    · have ⟨a, ha1, ha2, ha3, ha4⟩ : ∃ a, g.b < a ∧ c ≤ a * F.Q ∧ a * F.Q < tt ∧ ini F st.fl a ≠ tgt F c tt a := by
        refine Classical.byContradiction (fun hne => hex (fun a h3 h4 h5 => ?_))
        exact Classical.byContradiction (fun h6 => hne ⟨a, h3, h4, h5, h6⟩)
      have hac : a * F.Q = c := by omega
      obtain ⟨a0, x, n1, n2, n3, n4, n5, n6, n7, n8, n9, n10, n11⟩ := L.newest hF
      have ha0 : a0 * F.Q < c := by
        rcases L.heads hF n2 n3 with ⟨h3, _⟩ | ⟨_, h3, _⟩ | ⟨_, h3, h4, h5, _⟩ | ⟨_, _, h3⟩
        · subst h3
          rw [← hac]; exact Nat.mul_lt_mul_of_pos_right ha1 (by omega)
        · exact h3
        · have : a0 * F.Q = a * F.Q := by omega
          have : a0 = a := Nat.eq_of_mul_eq_mul_right (by omega) this
          subst this
          exact absurd h5 ha4
        · exact absurd n10 h3.not_head
      have hlt : a0 < a := by apply lt_of_mul (Q := F.Q); omega
      have hstep := mul_step (Q := F.Q) hlt
      have hch := L.chain
      rw [place_append, ← List.append_assoc] at hch
      obtain ⟨y, hc1, hc2⟩ := hch.of_append
      have hy : T + total (users (g.b * F.Q + F.Q) slots) = y := hc2.1
      have hyc : y = c := by omega
      subst hyc
      have hB : Bound (slots ++ G ++ place T (users (g.b * F.Q + F.Q) slots)) y x := by
        rw [place_append, ← List.append_assoc] at n8
        rcases n8 with (h3 | ⟨s, h3, h4⟩) | h3
        · omega
        · rcases List.mem_append.1 h3 with h5 | h5
          · exact .inr ⟨s, h5, h4⟩
          · have : s = ⟨T + total (users (g.b * F.Q + F.Q) slots), T + total (users (g.b * F.Q + F.Q) slots) + 1, eraseItem F g.b⟩ := by simpa [place, eraseItem, Item.size] using h5
            subst this
            simp only at h4
            omega
        · omega
      obtain ⟨A, B, hAB, hA, hB'⟩ := hc1.split x hB
      have hno : ∀ s ∈ slots ++ G ++ place T (users (g.b * F.Q + F.Q) slots), ∀ n, s.it ≠ .int (.erase n) := by
        intro s hs' n hi
        rcases List.mem_append.1 hs' with h3 | h3
        · rcases List.mem_append.1 h3 with h3 | h3
          · rcases hs.items s h3 with h4 | ⟨_, _, h4⟩ <;> rw [h4] at hi <;> cases hi
          · rw [(hs.gap_ne s h3).1] at hi; cases hi
        · have := (place_mem s h3).2
          rw [hi] at this
          obtain ⟨_, _, h4⟩ := List.mem_map.1 this
          cases h4
      refine tri_eraseNone n1 (fun fuel => ?_) ⟨he, .inl ?_⟩
      · rw [n4]
        exact eraseLoop_none hF (fun fuel => eraseLoop_end (by omega)) fuel B x hB' (fun s hs' => hno s (by rw [hAB]; simp [hs']))
      · refine .copy (g := g) (slots := slots) (t := t) (T := T) (G := G) ⟨_, [], (List.append_nil _).symm, y, tt, ?_, .inr ⟨?_, by simp⟩⟩ hw hs
        · have : T + total (users (g.b * F.Q + F.Q) slots ++ [eraseItem F g.b]) = tt := by rw [total_append, htt]; simp [total, Item.size, eraseItem]; omega
          rw [this]; exact L
        · rw [total_append, htt]; simp [total, Item.size, eraseItem]; omega

/-- Nothing is to be erased while entries are copied. -/
theorem recoverErase_copy (hF : Sizes F) {st : St} {g : Geo} {slots G : List Slot} {t T : Nat} {m : KV} (he : st.entries = none)
    (P : Prog F st.fl g (slots ++ G) T (users (g.b * F.Q + F.Q) slots ++ [eraseItem F g.b])) (hw : g.w = compWord (T - g.h))
    (hs : Src F g slots t T G m) :
    Tri (recoverErase F) st (fun _ st' => AfterErase F st' m) (fun _ _ => False) (fun fl' => Comp F fl' m ∨ Live F fl' m) := by
  have hP := P
  obtain ⟨more, rest, hmr, c, e, L, h1⟩ := P
  have hst : AfterErase F st m := ⟨he, .inl (.copy hP hw hs)⟩
  have hS : ∀ s ∈ slots ++ G, ∀ n, s.it ≠ .int (.erase n) := by
    intro s hs' n hi
    rcases List.mem_append.1 hs' with h3 | h3
    · rcases hs.items s h3 with h4 | ⟨_, _, h4⟩ <;> rw [h4] at hi <;> cases hi
    · rw [(hs.gap_ne s h3).1] at hi; cases hi
  have hchS := hP.chain
  obtain ⟨y, hcs, _⟩ := hchS.of_append
  have huok := users_ok (stop := g.b * F.Q + F.Q) hcs
  rcases List.eq_nil_or_concat rest with hr | ⟨rest', r, hr⟩
  · subst hr
    rw [List.append_nil] at hmr
    subst hmr
    have hEt : T + total (users (g.b * F.Q + F.Q) slots ++ [eraseItem F g.b]) = T + total (users (g.b * F.Q + F.Q) slots) + 1 := by
      rw [total_append]; simp [total, Item.size, eraseItem]; omega
    rw [hEt] at L h1
    have hee : e = T + total (users (g.b * F.Q + F.Q) slots) + 1 := by
      rcases h1 with ⟨h2, h3 | ⟨_, _, h3, _⟩⟩ | ⟨h2, _⟩
      · omega
      · cases h3
      · exact h2
    subst hee
    exact recoverErase_written hF he hs hw L
  · rw [List.concat_eq_append] at hr
    rw [hr, ← List.append_assoc] at hmr
    have hmr' := List.append_inj' hmr rfl
    have hno : ∀ s ∈ slots ++ G ++ place T more, ∀ n, s.it ≠ .int (.erase n) := by
      intro s hs' n hi
      rcases List.mem_append.1 hs' with h3 | h3
      · exact hS s h3 n hi
      · have := (place_mem s h3).2
        rw [hi] at this
        obtain ⟨_, _, h4, _⟩ := huok _ (by rw [hmr'.1]; exact List.mem_append_left _ this)
        cases h4
    rcases h1 with ⟨h2, h3 | ⟨it, rest2, h3, h4, h5⟩⟩ | ⟨h2, _⟩
    · exact L.noErase hF hno (fun stop hstop fuel => eraseLoop_blank (fun h6 => L.blank _ (by omega) (by omega))) hst
    · have hcase : (∃ k v, it = .user k v ∧ k ≤ maxKey ∧ v.length ≤ F.maxValueLen) ∨ (more = users (g.b * F.Q + F.Q) slots ∧ it = eraseItem F g.b ∧ rest2 = []) := by
        rw [hr] at h3
        cases rest' with
        | nil =>
          right
          have h6 := List.cons.inj h3
          have h7 := (List.cons.inj hmr'.2).1
          exact ⟨by simpa using hmr'.1.symm, by rw [h7, h6.1], h6.2.symm⟩
        | cons r0 rs =>
          left
          have h6 := (List.cons.inj h3).1
          subst h6
          exact huok r0 (by rw [hmr'.1]; simp)
      rcases hcase with ⟨k, v, rfl, hk, hv⟩ | ⟨hm, hi, hr2⟩
      · refine L.noErase hF hno (fun stop hstop fuel => ?_) hst
        rw [← h2]
        have hsz : (Item.user k v).size = 1 + bytesToWords v.length := rfl
        obtain ⟨r, q, p1, p2⟩ := parse_user_above hF (stop := stop) hk hv h4 (fun x h6 h7 => L.blank x (by omega) (by omega))
        rcases p2 with p2 | ⟨⟨hd, rfl⟩, p2⟩
        · exact eraseLoop_stop p1 p2
        · cases fuel with
          | zero => rfl
          | succ f =>
            rw [eraseLoop]
            split
            · rw [p1]
              show eraseLoop F st.fl stop f q = _
              rcases p2 with p2 | p2
              · exact eraseLoop_blank (fun h6 => L.blank _ (by omega) (by omega))
              · exact eraseLoop_end (by omega)
            · rfl
      · subst hi
        have hok := eraseItem_ok hF g.b
        have hin : (Internal.erase (g.b % F.N)).InRange F := hok
        have hle : Le (intWord (.erase (g.b % F.N))) (rd F st.fl c) := h4 0 (by simp [Item.words, eraseItem])
        rcases parse_int_above hF hin hle with h6 | ⟨r, q, p1, p2⟩
        · have hsz : (eraseItem F g.b).size = 1 := rfl
          have hI : ItemAt F st.fl c e (eraseItem F g.b) := ⟨hin, h6, by omega⟩
          subst h2
          have L2 := L.push hF hI (by simp [eraseItem])
          have e5 : slots ++ G ++ place T more ++ [⟨T + total more, e, eraseItem F g.b⟩] = slots ++ G ++ place T (more ++ [eraseItem F g.b]) := by
            rw [place_append, List.append_assoc, h5]; rfl
          rw [e5, hm] at L2
          have hee : e = T + total (users (g.b * F.Q + F.Q) slots) + 1 := by rw [h5, hm, hsz]
          rw [hee] at L2
          exact recoverErase_written hF he hs hw L2
        · refine L.noErase hF hno (fun stop hstop fuel => ?_) hst
          rw [← h2]
          exact eraseLoop_stop p1 p2
    · exact L.noErase hF hno (fun stop hstop fuel => eraseLoop_blank (fun h6 => L.blank _ (by omega) (by omega))) hst

/-- The log after loss of power, when no compaction is in progress. -/
theorem Live.logT {fl : Flash} {m : KV} (h : Live F fl m) :
    ∃ g slots t c e, LogT F fl g slots t c e ∧ g.w = erasedWord ∧ (∀ s ∈ slots, ∀ n, s.it ≠ .int (.erase n)) ∧ Cap F g slots e ∧
      (∀ s ∈ slots, s.it ≠ .gap) ∧ (g.b ≠ 0 → g.h < t) := by
  have hgu : ∀ {s : Slot}, UP s → s.it ≠ .gap := by
    intro s h hi
    rcases h with h4 | ⟨_, _, h4⟩ <;> rw [h4] at hi <;> cases hi
  have hgr : ∀ {s : Slot}, Rm s → s.it ≠ .gap := by
    rintro s ⟨k, h4⟩ hi
    rw [h4] at hi; cases hi
  have htg : ∀ {g s1 mk n ps us t c e m1}, Trans F fl g s1 mk n ps us t c e m1 → ∀ s ∈ s1 ++ mk :: (ps ++ us), s.it ≠ .gap := by
    intro g s1 mk n ps us t c e m1 h s hs
    rcases List.mem_append.1 hs with h1 | h1
    · exact hgu (h.items s h1)
    · rcases List.mem_cons.1 h1 with h1 | h1
      · subst h1
        intro hi
        rw [h.it] at hi; cases hi
      · rcases List.mem_append.1 h1 with h1 | h1
        · exact hgu (.inl (h.pads s h1))
        · rcases h.upds s h1 with h2 | h2
          · exact hgu (.inr h2)
          · exact hgr h2
  have htl : ∀ {g slots t c e} {s : Slot}, Log F fl g slots t c e → s ∈ slots → g.h < t := by
    intro g slots t c e s L hs
    have := L.chain.mem s hs
    omega
  have hup : ∀ {s : Slot}, UP s → ∀ n, s.it ≠ .int (.erase n) := by
    intro s h n hi
    rcases h with h4 | ⟨_, _, h4⟩ <;> rw [h4] at hi <;> cases hi
  have hrm : ∀ {s : Slot}, Rm s → ∀ n, s.it ≠ .int (.erase n) := by
    rintro s ⟨k, h4⟩ n hi
    rw [h4] at hi; cases hi
  have htr : ∀ {g s1 mk n ps us t c e m1}, Trans F fl g s1 mk n ps us t c e m1 → ∀ s ∈ s1 ++ mk :: (ps ++ us), ∀ n, s.it ≠ .int (.erase n) := by
    intro g s1 mk n ps us t c e m1 h s hs
    rcases List.mem_append.1 hs with h1 | h1
    · exact hup (h.items s h1)
    · rcases List.mem_cons.1 h1 with h1 | h1
      · subst h1
        intro n hi
        rw [h.it] at hi; cases hi
      · rcases List.mem_append.1 h1 with h1 | h1
        · exact hup (.inl (h.pads s h1))
        · rcases h.upds s h1 with h2 | h2
          · exact hup (.inr h2)
          · exact hrm h2
  cases h with
  | plain h =>
    obtain ⟨g, slots, t, e, h1, h2, h3, h4, h5, h6, h7⟩ := h
    refine ⟨g, slots, t, t, e, ⟨h1, h3⟩, h2, fun s hs => ?_, h7, fun s hs => ?_, h5⟩
    · rcases h4 s hs with h8 | h8
      · exact hup h8
      · exact hrm h8
    · rcases h4 s hs with h8 | h8
      · exact hgu h8
      · exact hgr h8
  | @ins g s1 s c k v m1 h hm =>
    refine ⟨_, _, _, _, _, ⟨h.log, .none rfl⟩, h.w, fun s' hs => ?_, h.cap, fun s' hs => ?_, fun _ => htl h.log (s := s) (by simp)⟩
    · rcases List.mem_append.1 hs with h1 | h1
      · exact hup (h.items s' h1)
      · have : s' = s := by simpa using h1
        subst this
        exact hup (UP.user h.it)
    · rcases List.mem_append.1 hs with h1 | h1
      · exact hgu (h.items s' h1)
      · have : s' = s := by simpa using h1
        subst this
        exact hgu (UP.user h.it)
  | @clr g s1 s c mk m1 h hm =>
    refine ⟨_, _, _, _, _, ⟨h.log, .none rfl⟩, h.w, fun s' hs => ?_, h.cap, fun s' hs => ?_, fun _ => htl h.log (s := s) (by simp)⟩
    · rcases List.mem_append.1 hs with h1 | h1
      · exact hup (h.items s' h1)
      · have : s' = s := by simpa using h1
        subst this
        intro n hi
        rw [h.it] at hi; cases hi
    · rcases List.mem_append.1 hs with h1 | h1
      · exact hgu (h.items s' h1)
      · have : s' = s := by simpa using h1
        subst this
        intro hi
        rw [h.it] at hi; cases hi
  | @commit g s1 mk n us t c m1 h _ _ => exact ⟨_, _, _, _, _, ⟨h.log, h.torn⟩, h.w, htr h, h.cap, htg h, fun _ => htl h.log (s := mk) (by simp)⟩
  | @rollback g s1 mk n ps us t c e h _ => exact ⟨_, _, _, _, _, ⟨h.log, h.torn⟩, h.w, htr h, h.cap, htg h, fun _ => htl h.log (s := mk) (by simp)⟩

/-- The first step of recovery: a page may be erased. -/
theorem recoverErase_tri (hF : Sizes F) {st : St} {m : KV} (he : st.entries = none) (h : Comp F st.fl m ∨ Live F st.fl m) :
    Tri (recoverErase F) st (fun _ st' => AfterErase F st' m) (fun _ _ => False) (fun fl' => Comp F fl' m ∨ Live F fl' m) := by
  rcases h with h | h
  · cases h with
    | start L hw hs =>
      refine L.noErase hF (fun s hs' n hi => ?_) (fun stop hstop fuel => eraseLoop_blank (fun h6 => L.blank _ (Nat.le_refl _) (by omega)))
        ⟨he, .inl (.start L hw hs)⟩
      rcases hs.items s hs' with h4 | ⟨_, _, h4⟩ <;> rw [h4] at hi <;> cases hi
    | copy P hw hs => exact recoverErase_copy hF he P hw hs
    | erase h =>
      refine tri_mono (h.recover hF he) ?_ (fun _ _ h => h) (fun _ h => h)
      rintro _ st' ⟨h1, h2⟩
      exact ⟨h1, .inr h2⟩
  · obtain ⟨g, slots, t, c, e, h1, h2, h3, h4, _⟩ := h.logT
    exact h1.noErase hF h3 (h4.bound hF h1.log.hM).2 ⟨he, .inr h⟩

/-- The second step of recovery: a compaction may be continued. -/
theorem recoverCompaction_tri (hF : Sizes F) {st : St} {m : KV} (h : AfterErase F st m) :
    Tri (recoverCompaction F) st (fun _ st' => Live F st'.fl m ∧ ∃ x, st'.head = some x ∧ oldestHead F st'.fl = .ok x) (fun _ _ => False)
      (fun fl' => Comp F fl' m ∨ Live F fl' m) := by
  have hn := hF.n3
  have hq := hF.q6
  have hmq := hF.mq
  obtain ⟨he, h⟩ := h
  have hhead : ∀ {g : Geo} {slots : List Slot} {t c e : Nat} (L : Log F st.fl g slots t c e) {P : Unit → St → Prop} {E : Err → St → Prop}
      {C : Flash → Prop} {ws : WordState Nat}, parseCompact F g.w = .ok ws → Tri (compactFound F ws) { st with head := some g.h } P E C →
      Tri (recoverCompaction F) st P E C := by
    intro g slots t c e L P E C ws hp h1
    have hpage : F.page g.h = g.b % F.N := by
      have h3 := L.hb
      have h4 := L.hM
      rw [Format.page, div_of (a := g.b) (by omega) (by omega)]
    apply tri_bind
    refine tri_getFl ?_
    apply tri_bind
    refine tri_liftE (L.oldest hF) ?_
    apply tri_bind
    refine tri_setHead ?_
    apply tri_bind
    refine tri_liftE (a := ws) ?_ h1
    have : st.fl (F.page g.h) 1 = g.w := by rw [hpage]; exact L.cmp0
    rw [this]; exact hp
  have herased : parseCompact F erasedWord = .ok .erased := by simp [parseCompact]
  have hgood : ∀ {st' : St} {g g' : Geo} {slots slots' : List Slot} {t t' : Nat}, Good F st'.fl g' slots' t' m → EntsI false st' g' slots' →
      Live F st'.fl m ∧ ∃ x, st'.head = some x ∧ oldestHead F st'.fl = .ok x := by
    intro st' g g' slots slots' t t' h1 h2
    exact ⟨h1.live, g'.h, h2.1, h1.log.oldest hF⟩
  have hcopy : ∀ {g : Geo} {slots G : List Slot} {t T : Nat} (_ : Prog F st.fl g (slots ++ G) T (users (g.b * F.Q + F.Q) slots ++ [eraseItem F g.b]))
      (_ : g.w = compWord (T - g.h)) (_ : Src F g slots t T G m), Tri (recoverCompaction F) st
        (fun _ st' => Live F st'.fl m ∧ ∃ x, st'.head = some x ∧ oldestHead F st'.fl = .ok x) (fun _ _ => False) (fun fl' => Comp F fl' m ∨ Live F fl' m) := by
    intro g slots G t T P hw hs
    obtain ⟨_, _, _, _, L⟩ := P.log
    obtain ⟨hT0, hT1, hT2, hT3⟩ := hs.tail hF L.hb L.hM
    refine hhead L (ws := .valid (T - g.h)) (by rw [hw]; exact parse_compWord hF hT3) ?_
    refine tri_mono (compactCopy_tri hF (st := { st with head := some g.h }) (i := false) P hw hs ⟨rfl, he⟩) ?_ (fun _ _ h => h) (fun _ h => h)
    rintro _ st' ⟨g', slots', t', _, h1, h2, _⟩
    exact hgood (g := g) (slots := slots) (t := t) h1 h2
  rcases h with h | h
  · cases h with
    | @start g slots t T G L hw hs =>
      obtain ⟨hT0, hT1, hT2, hT3⟩ := hs.tail hF L.hb L.hM
      have hnq := hF.nq
      have hwn := hF.wn
      have hspec := compWord_spec (t := T - g.h) (by omega)
      by_cases hww : g.w = compWord (T - g.h)
      · exact hcopy (.start (hs.log hF L)) hww hs
      · have hp := parseCompact_above F hspec.2.1 hw hww
        split at hp
        · rename_i hwe
          refine hhead L hp (tri_pure ⟨?_, g.h, rfl, L.oldest hF⟩)
          exact Good.live ⟨L, hwe, hs.items, hs.ne, hs.holds, hs.cap⟩
        · refine hhead L hp ?_
          refine tri_mono (compact_tri hF (st := { st with head := some g.h }) (i := false) L (by rw [← hs.hT]; exact hw) hs.items hs.ne hs.holds hs.cap ⟨rfl, he⟩)
            ?_ ?_ (fun _ h => h)
          · rintro _ st' ⟨g', slots', t', _, h1, h2, _⟩
            exact hgood (g := g) (slots := slots) (t := t) h1 h2
          · rintro e st' ⟨_, h1, _⟩
            have := hs.hE
            omega
    | copy P hw hs => exact hcopy P hw hs
  · obtain ⟨g, slots, t, c, e, h1, h2, h3, h4, _⟩ := h.logT
    refine hhead h1.log (ws := .erased) (by rw [h2]; exact herased) (tri_pure ⟨h, g.h, rfl, h1.log.oldest hF⟩)

/-! ## The initialization of an empty storage -/

theorem fresh_iff (hF : Sizes F) {fl : Flash} : fresh F fl = true ↔ ∀ p i, p < F.N → i < F.Q + 2 → (p ≠ 0 ∨ i ≠ 0) → fl p i = erasedWord := by
  have hpw := hF.pw
  simp only [fresh, List.all_eq_true, List.mem_range, Bool.and_eq_true, Bool.or_eq_true, decide_eq_true_eq]
  constructor
  · intro h p i hp hi hne
    obtain ⟨h1, h2⟩ := h p hp
    cases i with
    | zero =>
      rcases h1 with h1 | h1
      · omega
      · exact h1
    | succ i => exact h2 i (by omega)
  · intro h p hp
    refine ⟨?_, fun i hi => h p (i + 1) hp (by omega) (by omega)⟩
    by_cases h0 : p = 0
    · exact .inl h0
    · exact .inr (h p 0 hp (by omega) (.inl h0))

theorem initWord_ne (hF : Sizes F) {c p : Nat} (hc : c ≤ F.E) (hp : p ≤ F.M) : initWord c p ≠ erasedWord := by
  intro h
  have h1 := parse_initWord hF hc hp
  rw [h] at h1
  simp [parseInit] at h1

theorem ItemAt.ne_erased (hF : Sizes F) {fl : Flash} {p q : Nat} {it : Item} (h : ItemAt F fl p q it) (hg : it ≠ .gap) : rd F fl p ≠ erasedWord := by
  intro h0
  have h0 : readWord F fl p = erasedWord := h0
  obtain ⟨r, q', hp, hr⟩ : ∃ r q, parseEntry F fl p = .ok (r, q) ∧ r.stops = true := by
    simp only [parseEntry, h0, parseWord_erased]
    exact ⟨_, _, rfl, parsePartly_stops fl p⟩
  cases it with
  | gap => exact hg rfl
  | pad =>
    rw [parse_pad h] at hp
    obtain ⟨rfl, _⟩ := Prod.mk.inj (Except.ok.inj hp)
    cases hr
  | int i =>
    rw [parse_int hF h] at hp
    obtain ⟨rfl, _⟩ := Prod.mk.inj (Except.ok.inj hp)
    cases hr
  | user k v =>
    obtain ⟨hd, h1, _⟩ := parse_user hF h
    rw [h1] at hp
    obtain ⟨rfl, _⟩ := Prod.mk.inj (Except.ok.inj hp)
    cases hr

theorem rd_fresh (hF : Sizes F) {fl : Flash} (h : fresh F fl = true) (x : Nat) : rd F fl x = erasedWord := by
  have hn := hF.n3
  have hq := hF.q6
  rw [rd_eq]
  have := Nat.mod_lt (x / F.Q) (show 0 < F.N by omega)
  have := Nat.mod_lt x (show 0 < F.Q by omega)
  exact (fresh_iff hF).1 h _ _ (by omega) (by omega) (.inr (by omega))

/-- A storage without entries is initialized. -/
theorem Log.fresh (hF : Sizes F) {fl : Flash} {g : Geo} {slots : List Slot} {t c e : Nat} (L : Log F fl g slots t c e)
    (hg : ∀ s ∈ slots, s.it ≠ .gap) (hne : g.b ≠ 0 → g.h < t) (h : Store.fresh F fl = true) : fl 0 0 = initWord 0 0 := by
  have hnil : slots = [] := by
    cases slots with
    | nil => rfl
    | cons s ss =>
      have hc := L.chain
      exact absurd (rd_fresh hF h _) (hc.2.1.ne_erased hF (hg s (by simp)))
  have hb : g.b = 0 := by
    rcases Nat.eq_zero_or_pos g.b with h1 | h1
    · exact h1
    · have := hne (by omega)
      subst hnil
      have : g.h = t := L.chain
      omega
  have h0 := L.h0 hb
  have := L.ini0
  rw [hb, h0] at this
  simpa [ini] using this

/-- A storage that is in use is not initialized again. -/
theorem fresh_used (hF : Sizes F) {fl : Flash} {m : KV} (h : Comp F fl m ∨ Live F fl m) (hf : fresh F fl = true) : fl 0 0 = initWord 0 0 := by
  have hn := hF.n3
  have hq := hF.q6
  rcases h with h | h
  · cases h with
    | start L hw hs =>
      refine L.fresh hF (fun s hs' hi => ?_) hs.ne hf
      rcases hs.items s hs' with h4 | ⟨_, _, h4⟩ <;> rw [h4] at hi <;> cases hi
    | @copy g slots t T G P hw hs =>
      exfalso
      obtain ⟨_, _, _, _, L⟩ := P.log
      obtain ⟨hT0, hT1, hT2, hT3⟩ := hs.tail hF L.hb L.hM
      have h1 : fl (g.b % F.N) 1 = erasedWord := (fresh_iff hF).1 hf _ _ (Nat.mod_lt _ (by omega)) (by omega) (by omega)
      have h2 : fl (g.b % F.N) 1 = g.w := L.cmp0
      have h3 := parse_compWord hF hT3
      rw [← hw, ← h2, h1] at h3
      simp [parseCompact] at h3
    | @erase b h g sl es t hE =>
      exfalso
      have h1 := (hE.log.chain.mem es (by simp)).2.2.2
      refine h1.ne_erased hF (by rw [hE.it]; simp [eraseItem]) ?_
      have := rd_fresh hF hf es.p
      rw [rd_eq] at this ⊢
      simp only [Flash.erase]
      split
      · rfl
      · exact this
  · obtain ⟨g, slots, t, c, e, h1, _, _, _, h5, h6⟩ := h.logT
    exact h1.log.fresh hF h5 h6 hf

/-- An empty storage, or one whose initialization was interrupted. -/
def New (fl : Flash) : Prop := (∀ p i, (p ≠ 0 ∨ i ≠ 0) → fl p i = erasedWord) ∧ Le (initWord 0 0) (fl 0 0)

/-- The storage after loss of power. -/
def Any (F : Format) (fl : Flash) (m : KV) : Prop := Comp F fl m ∨ Live F fl m ∨ (New fl ∧ m = fun _ => none)

theorem New.good (hF : Sizes F) {fl : Flash} (h : ∀ p i, (p ≠ 0 ∨ i ≠ 0) → fl p i = erasedWord) (h0 : fl 0 0 = initWord 0 0) :
    Good F fl ⟨0, 0, erasedWord⟩ [] 0 (fun _ => none) := by
  have hn := hF.n3
  have hq := hF.q6
  refine ⟨⟨by simp, by simp, fun _ => rfl, by simp, by simpa [ini] using h0, rfl, by simp, by simp, ?_, ?_, ?_, ?_, Nat.le_refl _, by simp, .inl rfl, by omega⟩, rfl,
    by simp, by simp, ⟨by simp [uents], by simp [uents]⟩, Cap.reset hF (by simp [live]) (by simp) (Nat.le_refl _) (by simp)⟩
  · intro a h1 h2 _
    simp only at h1 h2
    refine h _ _ (.inl ?_)
    rw [Nat.mod_eq_of_lt (by omega)]; omega
  · exact h _ _ (.inr (by omega))
  · intro a h1 h2
    exact h _ _ (.inr (by omega))
  · intro x _ _
    rw [rd_eq]
    exact h _ _ (.inr (by omega))

theorem recoverInitialize_tri (hF : Sizes F) {st : St} {m : KV} (h : Any F st.fl m) :
    Tri (recoverInitialize F) st (fun _ st' => st'.entries = st.entries ∧ (Comp F st'.fl m ∨ Live F st'.fl m)) (fun _ _ => False) (fun fl' => Any F fl' m) := by
  apply tri_bind
  refine tri_getFl ?_
  have hspec := initWord_spec (c := 0) (p := 0) (by omega) (by omega)
  have hwr : Le (initWord 0 0) (st.fl 0 0) → ∀ {P : Unit → St → Prop} {C : Flash → Prop},
      (∀ st', st'.entries = st.entries → (∀ p i, (p ≠ 0 ∨ i ≠ 0) → st'.fl p i = st.fl p i) → st'.fl 0 0 = initWord 0 0 → P () st') →
      (∀ fl' : Flash, (∀ p i, (p ≠ 0 ∨ i ≠ 0) → fl' p i = st.fl p i) → Le (initWord 0 0) (fl' 0 0) → Le (fl' 0 0) (st.fl 0 0) → C fl') →
      Tri (liftE (buildInit ⟨0, 0⟩) >>= fun w => storageWrite 0 0 [w]) st P (fun _ _ => False) C := by
    intro hle P C h1 h2
    apply tri_bind
    refine tri_liftE hspec.1 ?_
    refine tri_fls (storageWrite_fls (page := 0) [initWord 0 0] 0 st.fl (fun j hj => ?_)) ?_ ?_
    · have : j = 0 := by simpa using hj
      subst this
      exact hle
    · intro _ st' _ e2 hW
      exact h1 st' e2 (fun p i hpi => hW.other p i (by simp only [List.length_singleton]; omega)) (hW.here 0 (by simp))
    · intro fl' hW
      exact h2 fl' (fun p i hpi => hW.other p i (by simp only [List.length_singleton]; omega)) (hW.above 0 (by simp)) (hW.below 0 (by simp))
  have hused : (Comp F st.fl m ∨ Live F st.fl m) →
      Tri (if fresh F st.fl = true then liftE (buildInit ⟨0, 0⟩) >>= fun w => storageWrite 0 0 [w] else M.pure ()) st
        (fun _ st' => st'.entries = st.entries ∧ (Comp F st'.fl m ∨ Live F st'.fl m)) (fun _ _ => False) (fun fl' => Any F fl' m) := by
    intro hu
    split
    · rename_i hf
      have h0 := fresh_used hF hu hf
      refine hwr (by rw [h0]; exact Le.refl _) ?_ ?_
      · intro st' h1 h2 h3
        have : st'.fl = st.fl := by
          funext p i
          by_cases hpi : p = 0 ∧ i = 0
          · rw [hpi.1, hpi.2, h3, h0]
          · exact h2 p i (by omega)
        rw [this]; exact ⟨h1, hu⟩
      · intro fl' h1 h2 h3
        have : fl' = st.fl := by
          funext p i
          by_cases hpi : p = 0 ∧ i = 0
          · rw [hpi.1, hpi.2]
            rw [h0] at h3 ⊢
            exact h3.antisymm h2
          · exact h1 p i (by omega)
        rw [this]
        rcases hu with hu | hu
        · exact .inl hu
        · exact .inr (.inl hu)
    · exact tri_pure ⟨rfl, hu⟩
  rcases h with h | h | ⟨h, rfl⟩
  · exact hused (.inl h)
  · exact hused (.inr h)
  · have hf : fresh F st.fl = true := (fresh_iff hF).2 (fun p i _ _ hne => h.1 p i hne)
    rw [if_pos hf]
    refine hwr h.2 ?_ ?_
    · intro st' h1 h2 h3
      exact ⟨h1, .inr (New.good hF (fun p i hne => by rw [h2 p i hne]; exact h.1 p i hne) h3).live⟩
    · intro fl' h1 h2 h3
      exact .inr (.inr ⟨⟨fun p i hne => by rw [h1 p i hne]; exact h.1 p i hne, h2⟩, rfl⟩)

/-- Recovery: the store is ready, and its content is the one from before the loss of power. -/
theorem recover_tri (hF : Sizes F) {st : St} {m : KV} (h : Any F st.fl m) (he : st.entries = none) :
    Tri (recover F) st (fun _ st' => Ready F st' m) (fun _ _ => False) (fun fl' => Any F fl' m) := by
  have hany : ∀ fl', Comp F fl' m ∨ Live F fl' m → Any F fl' m := by
    rintro fl' (h | h)
    · exact .inl h
    · exact .inr (.inl h)
  apply tri_bind
  refine tri_mono (recoverInitialize_tri hF h) ?_ (fun _ _ h => h) (fun _ h => h)
  rintro _ st1 ⟨e1, h1⟩
  apply tri_bind
  refine tri_mono (recoverErase_tri hF (e1.trans he) h1) ?_ (fun _ _ h => h) hany
  intro _ st2 h2
  apply tri_bind
  refine tri_mono (recoverCompaction_tri hF h2) ?_ (fun _ _ h => h) hany
  rintro _ st3 ⟨h3, x, h4, h5⟩
  exact tri_mono (recoverOperation_tri hF h3 h4 h5) (fun _ _ h => h) (fun _ _ h => h) (fun _ h => .inr (.inl h))

theorem open_tri (hF : Sizes F) {st : St} {m : KV} (h : Any F st.fl m) :
    Tri (openStore F) st (fun _ st' => Ready F st' m) (fun _ _ => False) (fun fl' => Any F fl' m) :=
  recover_tri hF (st := { st with head := none, entries := none }) h rfl

end Verif.Store
