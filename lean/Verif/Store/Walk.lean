import Verif.Store.Transaction

/-!
# Recovery: reading the entries
-/
namespace Verif.Store

variable {F : Format}

/-- A log and what follows its last complete entry. -/
structure LogT (F : Format) (fl : Flash) (g : Geo) (slots : List Slot) (t c e : Nat) : Prop where
  log : Log F fl g slots t c e
  torn : TornTail F fl t e

section
variable {fl fl' : Flash} {g : Geo} {t c e : Nat} {slots : List Slot}

theorem LogT.fr (hF : Sizes F) (L : LogT F fl g slots t c e) {s : Slot} (hs : s ∈ slots) (hf : Fr F g.b fl fl' s.p s.q) : TornTail F fl' t e := by
  obtain ⟨h1, h2, h3, h4, _⟩ := L.log.memWin hF hs
  have h5 := L.log.ew
  exact L.torn.congr (fun x h6 h7 => hf.other x ⟨by omega, by omega⟩ (by omega))

theorem LogT.wipe (hF : Sizes F) (L : LogT F fl g slots t c e) {s : Slot} (hs : s ∈ slots) (hi : s.it = .pad) :
    Fls (wipeSpan F (s.p + 1) (s.q - s.p - 1)) fl (fun _ fl' => LogT F fl' g slots t c e) (fun fl' => LogT F fl' g slots t c e) :=
  fls_mono (L.log.wipe hF hs hi) (fun _ _ h => ⟨h.2, L.fr hF hs h.1⟩) (fun _ h => ⟨h.2, L.fr hF hs h.1⟩)

theorem LogT.setPadding (hF : Sizes F) (L : LogT F fl g slots t c e) {s : Slot} (hs : s ∈ slots) {i : Internal} (hi : s.it = .int i) :
    Fls (setPadding F s.p) fl (fun _ fl' => LogT F fl' g (padAt slots s.p) t c e)
      (fun fl' => LogT F fl' g slots t c e ∨ LogT F fl' g (padAt slots s.p) t c e) :=
  fls_mono (L.log.setPadding hF hs hi) (fun _ _ h => ⟨h.2, L.fr hF hs h.1⟩)
    (fun _ h => h.2.elim (fun h2 => .inl ⟨h2, L.fr hF hs h.1⟩) (fun h2 => .inr ⟨h2, L.fr hF hs h.1⟩))

theorem LogT.deletePos (hF : Sizes F) (L : LogT F fl g slots t c e) {s : Slot} (hs : s ∈ slots) {k : Nat} {v : Bytes} (hi : s.it = .user k v) :
    Fls (deletePos F s.p (bytesToWords v.length)) fl (fun _ fl' => LogT F fl' g (padAt slots s.p) t c e)
      (fun fl' => LogT F fl' g slots t c e ∨ LogT F fl' g (padAt slots s.p) t c e) :=
  fls_mono (L.log.deletePos hF hs hi) (fun _ _ h => ⟨h.2, L.fr hF hs h.1⟩)
    (fun _ h => h.2.elim (fun h2 => .inl ⟨h2, L.fr hF hs h.1⟩) (fun h2 => .inr ⟨h2, L.fr hF hs h.1⟩))

/-- Initializing the pages of an entry does nothing when all pages are initialized. -/
theorem Log.initAny (hF : Sizes F) (L : Log F fl g slots t t e) {s : Slot} (hs : s ∈ slots) (hg : s.it ≠ .gap) :
    Fls (Store.initPage F s.p (s.p + (s.q - s.p - 1))) fl (fun _ fl' => fl' = fl) (fun _ => False) := by
  have hm := L.chain.mem s hs
  have hb := L.hb
  have hw := L.memWin hF hs
  refine initPage_done hF (b := g.b) hm.2.1 (hm.2.2.2.maxSize hg) ⟨by omega, by omega⟩ (by omega) ?_
  intro a h1 h2 h3 h4
  by_cases hab : a = g.b
  · subst hab
    exact ⟨_, (L.head hF).word⟩
  · obtain ⟨x, c1, c2, c3, _⟩ := L.cov a (by omega) (by omega)
    exact ⟨_, (HeadAt.of_word hF c1 c2 (cyc_le hF L.hE h2) c3).word⟩

/-- The entry at the end of the log is not complete. -/
theorem LogT.parse_end (hF : Sizes F) (L : LogT F fl g slots t c e) (he : e + F.Q + 1 ≤ g.b * F.Q + F.N * F.Q) :
    (e = t ∧ parseEntry F fl t = .ok (.tail, t)) ∨
    (∃ l, e = t + 1 + l ∧ BadAt F fl t l ∧ parseEntry F fl t = .ok (.partly, t + 1 + l)) ∨
    (∃ n, e = t + 1 + n ∧ PUserAt F fl t n ∧ parseEntry F fl t = .ok (.partialUser, t + 1 + n)) := by
  have hmq := hF.mq
  cases L.torn with
  | none h => subst h; exact .inl ⟨rfl, L.log.parse_end hF (by omega)⟩
  | bad l h he' =>
    refine .inr (.inl ⟨l, he', h, parse_bad hF h (fun x h1 h2 => L.log.blank x (by omega) ?_)⟩)
    have := h.small
    omega
  | puser n h he' => exact .inr (.inr ⟨n, he', h, parse_puser hF h⟩)

end

theorem Pads.nil_left {P : Slot → Prop} {l : List Slot} (h : Pads P [] l) : l = [] := by
  cases l with
  | nil => rfl
  | cons _ _ => exact h.elim

/-- Recovery reads the entries: it deletes removals, wipes padding and lists the user entries. -/
theorem walk_tri (hF : Sizes F) {g : Geo} {t c e stop : Nat} {tl : List Slot} {P : Unit → St → Prop} {E : Err → St → Prop} {C : Flash → Prop}
    (hts : t + 1 ≤ stop) (htw : t < g.h + F.W) :
    (rest : List Slot) → (done : List Slot) → (p prev fuel : Nat) → (st : St) → LogT F st.fl g (done ++ (rest ++ tl)) t c e →
    Starts (rest ++ tl) t p → (∀ s ∈ rest, UP s ∨ Rm s) → Ents st g done → stop ≤ p + fuel →
    (hP : ∀ st' rest' q fuel' prev', LogT F st'.fl g (done ++ (rest' ++ tl)) t c e → Pads Rm rest rest' → (∀ s ∈ rest', UP s) →
      Ents st' g (done ++ rest') → Starts tl t q → stop ≤ q + fuel' →
      ((rest = [] ∧ prev' = prev ∧ q = p) ∨ ∃ i s, rest' = i ++ [s] ∧ prev' = s.p) → Tri (operationLoop F stop fuel' q prev') st' P E C) →
    (hC : ∀ fl' rest', Pads Rm rest rest' → LogT F fl' g (done ++ (rest' ++ tl)) t c e → C fl') →
    Tri (operationLoop F stop fuel p prev) st P E C
  | [], done, p, prev, fuel, st, L, hs, _, hE, hf, hP, hC =>
    hP st [] p fuel prev L trivial (by simp) (by rw [List.append_nil]; exact hE) hs hf (.inl ⟨rfl, rfl, rfl⟩)
  | s :: rest, done, p, prev, fuel, st, L, hs, hi, hE, hf, hP, hC => by
    obtain ⟨x, hc1, hc2⟩ := L.log.chain.of_append
    have hp : s.p = p := hs
    subst hp
    have hx : s.p = x := hc2.1
    subst hx
    have hsz := hc2.2.1.size
    have hle := hc2.2.2.le
    have hge := hc1.le
    have hmem : s ∈ done ++ (s :: rest ++ tl) := by simp
    obtain ⟨f, rfl⟩ : ∃ f, fuel = f + 1 := ⟨fuel - 1, by omega⟩
    have hnext : ∀ s', s'.q = s.q → UP s' → (s' = s ∨ Rm s ∧ s' = s.pad) → ∀ st', LogT F st'.fl g (done ++ (s' :: rest ++ tl)) t c e → Ents st' g (done ++ [s']) →
        s'.p = s.p →
        Tri (operationLoop F stop f s.q s.p) st' P E C := by
      intro s' hq hup hps st' L' hE' hsp
      have hst : Starts (rest ++ tl) t s.q := hc2.2.2.starts
      refine walk_tri hF hts htw rest (done ++ [s']) s.q s.p f st' (by rw [List.append_assoc]; exact L') hst
        (fun s' hs' => hi s' (List.mem_cons_of_mem _ hs')) hE' (by omega) ?_ ?_
      · intro st'' rest' q fuel' prev' L'' hpd hup' hE'' hst' hf' hlast
        rw [List.append_assoc] at L'' hE''
        refine hP st'' (s' :: rest') q fuel' prev' L'' ⟨hps, hpd⟩ ?_ hE'' hst' hf' (.inr ?_)
        · intro y hy
          rcases List.mem_cons.1 hy with h | h
          · rw [h]; exact hup
          · exact hup' y h
        · rcases hlast with ⟨h1, h2, _⟩ | ⟨i, s2, h1, h2⟩
          · subst h1
            rw [hpd.nil_left]
            exact ⟨[], s', rfl, by omega⟩
          · exact ⟨s' :: i, s2, by rw [h1]; rfl, h2⟩
      · intro fl' rest' hpd L''
        rw [List.append_assoc] at L''
        exact hC fl' (s' :: rest') ⟨hps, hpd⟩ L''
    rw [operationLoop, if_pos (by omega)]
    apply tri_bind
    apply tri_bind
    refine tri_getFl ?_
    have hit := hc2.2.1
    rcases hi s (by simp) with (h | ⟨k, v, h⟩) | ⟨k, h⟩
    · rw [h] at hit
      refine tri_liftE (parse_pad hit) ?_
      apply tri_bind
      refine tri_fls (L.wipe hF hmem h) ?_ ?_
      · intro _ st1 e1 e2 L1
        exact hnext s rfl (.inl h) (.inl rfl) st1 L1 ((hE.skip (by rw [h]; simp)).congr e1 e2 rfl) rfl
      · intro fl' L1
        exact hC fl' (s :: rest) (Pads.refl _) L1
    · rw [h] at hit
      obtain ⟨hd, hpar, _⟩ := parse_user hF hit
      refine tri_liftE hpar ?_
      apply tri_bind
      have hwn := hF.nq
      have hww := hF.wn
      refine tri_pushEntry (h := g.h) hE.1 (by omega) (by omega) ?_
      exact hnext s rfl (.user h) (.inl rfl) _ L (hE.push h (by omega)) rfl
    · rw [h] at hit
      refine tri_liftE (parse_int hF hit) ?_
      apply tri_bind
      have hset := L.setPadding hF hmem h
      rw [show done ++ (s :: rest ++ tl) = done ++ s :: (rest ++ tl) from rfl, padAt_mid (b := rest ++ tl) L.log.chain] at hset
      refine tri_fls hset ?_ ?_
      · intro _ st1 e1 e2 L1
        exact hnext s.pad rfl (.pad rfl) (.inr ⟨⟨k, h⟩, rfl⟩) st1 L1 ((hE.skip (s := s.pad) (by simp [Slot.pad])).congr e1 e2 rfl) rfl
      · rintro fl' (L1 | L1)
        · exact hC fl' (s :: rest) (Pads.refl _) L1
        · exact hC fl' (s.pad :: rest) ⟨.inr ⟨⟨k, h⟩, rfl⟩, Pads.refl _⟩ L1

end Verif.Store
