import Verif.Store.LogOps

/-!
# Writing and deleting entries
-/
namespace Verif.Store

variable {F : Format}

/-- What follows the last complete entry: nothing, or an entry that is not complete. -/
inductive TornTail (F : Format) (fl : Flash) (t e : Nat) : Prop
  | none (h : e = t)
  | bad (l : Nat) (h : BadAt F fl t l) (he : e = t + 1 + l)
  | puser (n : Nat) (h : PUserAt F fl t n) (he : e = t + 1 + n)

section
variable {fl fl' : Flash} {g : Geo} {t c e : Nat} {slots : List Slot}

theorem PUserAt.small {p n : Nat} (h : PUserAt F fl p n) : n ≤ F.M ∧ n ≠ 0 := by
  obtain ⟨_, _, _, _, _, h2, h3, h4, _⟩ := h.word
  exact ⟨h3 ▸ maxLen_words h2, h4⟩

theorem BadAt.congr {p l : Nat} (h : BadAt F fl p l) (h1 : rd F fl' p = rd F fl p) (h2 : Le (rd F fl' (p + l)) (rd F fl (p + l))) :
    BadAt F fl' p l :=
  ⟨h1 ▸ h.word, h.small, fun e => h.last (erased_le (e ▸ h2))⟩

theorem PUserAt.congr {p n : Nat} (h : PUserAt F fl p n) (h1 : rd F fl' p = rd F fl p) (h2 : rd F fl' (p + n) = rd F fl (p + n)) :
    PUserAt F fl' p n := by
  obtain ⟨a, b, c, d, h3⟩ := h.word
  exact ⟨⟨a, b, c, d, by rw [h1, h2]; exact h3⟩, by rw [h2]; exact h.footer⟩

theorem TornTail.congr (h : TornTail F fl t e) (h1 : ∀ x, t ≤ x → x < e → rd F fl' x = rd F fl x) : TornTail F fl' t e := by
  cases h with
  | none h => exact .none h
  | bad l h he => exact .bad l (h.congr (h1 _ (by omega) (by omega)) (by rw [h1 _ (by omega) (by omega)]; exact Le.refl _)) he
  | puser n h he => exact .puser n (h.congr (h1 _ (by omega) (by omega)) (h1 _ (by omega) (by omega))) he

/-- The log after an interrupted write. -/
theorem Log.torn (hF : Sizes F) (L : Log F fl g slots t t t) {q : Nat} (hf : Fr F g.b fl fl' t q) (h0 : t < q)
    (h3 : q ≤ t + 1 + F.M) (h4 : q ≤ g.b * F.Q + F.N * F.Q) (h : Torn F fl' t q) :
    ∃ e', Log F fl' g slots t t e' ∧ TornTail F fl' t e' ∧ e' ≤ q := by
  cases h with
  | nothing h => exact ⟨t, L.open hF hf (Nat.le_refl _) (by omega) (by omega) h4 h, .none rfl, by omega⟩
  | bad l h h5 h6 => exact ⟨t + 1 + l, L.open hF hf (by omega) h5 (by omega) h4 h6, .bad l h rfl, h5⟩
  | puser n h h5 => exact ⟨q, L.open hF hf (by omega) (by omega) (by omega) h4 (fun x h6 h7 => by omega), .puser n h h5, by omega⟩

/-- The outcomes of an interrupted write of an entry. -/
def Wrote1 (F : Format) (fl' : Flash) (g : Geo) (slots : List Slot) (t q : Nat) (it : Item) : Prop :=
  (∃ e', Log F fl' g slots t t e' ∧ TornTail F fl' t e' ∧ e' ≤ q) ∨ Log F fl' g (slots ++ [⟨t, q, it⟩]) q t q

/-- Writing an internal entry. -/
theorem Log.writeInt (hF : Sizes F) (L : Log F fl g slots t t t) {i : Internal} (hi : i.InRange F)
    (h4 : t + 1 ≤ g.b * F.Q + F.N * F.Q) :
    Fls (writeSlice F t [intWord i]) fl (fun _ fl' => Log F fl' g (slots ++ [⟨t, t + 1, .int i⟩]) (t + 1) t (t + 1))
      (fun fl' => Wrote1 F fl' g slots t (t + 1) (.int i)) := by
  have hb := L.hb
  have hct := L.ct hF
  have hq := hF.q6
  have hbl : rd F fl t = erasedWord := L.blank t (Nat.le_refl _) (by omega)
  have hopen : ∀ fl', Fr F g.b fl fl' t (t + 1) → Log F fl' g slots t t (t + 1) := fun fl' hf =>
    L.open hF hf (by omega) (Nat.le_refl _) (by omega) h4 (fun x h5 h6 => by omega)
  refine fls_mono (writeSlice_fls hF (b := g.b) (ws := [intWord i]) (by omega) h4 (by simp only [List.length_singleton]; omega) ?_) ?_ ?_
  · intro j hj
    have : j = 0 := by simpa using hj
    subst this
    rw [Nat.add_zero, hbl]; exact le_erased _
  · intro _ fl' hp
    exact (hopen fl' hp.fr).push hF ⟨hi, hp.here 0 (by simp), rfl⟩ (by simp)
  · intro fl' hp
    rcases torn_int hF hi (hp.above 0 (by simp)) with h | h
    · exact .inr ((hopen fl' hp.fr).push hF h (by simp))
    · exact .inl (L.torn hF hp.fr (by omega) (by omega) h4 h)

/-- Writing a user entry, the footer last. -/
theorem Log.writeUser (hF : Sizes F) (L : Log F fl g slots t t t) {k : Nat} {v : Bytes} (hk : k ≤ maxKey)
    (hv : v.length ≤ F.maxValueLen) (h4 : t + 1 + bytesToWords v.length ≤ g.b * F.Q + F.N * F.Q) :
    Fls (writeUser F t (userWords k v)) fl
      (fun _ fl' => Log F fl' g (slots ++ [⟨t, t + 1 + bytesToWords v.length, .user k v⟩]) (t + 1 + bytesToWords v.length) t
        (t + 1 + bytesToWords v.length))
      (fun fl' => Wrote1 F fl' g slots t (t + 1 + bytesToWords v.length) (.user k v)) := by
  have hb := L.hb
  have hct := L.ct hF
  have hq := hF.mq
  have hM := maxLen_words hv
  have hl := userWords_length hF hk hv
  obtain ⟨n, hn⟩ : ∃ n, n = bytesToWords v.length := ⟨_, rfl⟩
  rw [← hn] at hl h4 hM ⊢
  have hbl : ∀ x, t ≤ x → x < g.b * F.Q + F.N * F.Q → rd F fl x = erasedWord := fun x h5 h6 => L.blank x h5 h6
  have hopen : ∀ fl', Fr F g.b fl fl' t (t + 1 + n) → Log F fl' g slots t t (t + 1 + n) := fun fl' hf =>
    L.open hF hf (by omega) (Nat.le_refl _) (by omega) h4 (fun x h5 h6 => by omega)
  have hcase : ∀ fl', Fr F g.b fl fl' t (t + 1 + n) → (ItemAt F fl' t (t + 1 + n) (.user k v) ∨ Torn F fl' t (t + 1 + n)) →
      Wrote1 F fl' g slots t (t + 1 + n) (.user k v) := by
    rintro fl' hf (h | h)
    · exact .inr ((hopen fl' hf).push hF h (by simp))
    · exact .inl (L.torn hF hf (by omega) (by omega) h4 h)
  have hdl : (userWords k v).dropLast.length = n := by rw [List.length_dropLast, hl]; omega
  have hlast : (userWords k v).getLastD erasedWord = (userWords k v)[n]'(by omega) := by
    rw [getLastD_getElem _ _ (by omega)]; congr 1; omega
  apply fls_bind
  refine fls_mono (writeSlice_fls hF (b := g.b) (by omega) (by rw [hdl]; omega) (by rw [hdl]; omega) ?_) ?_ ?_
  · intro j hj
    rw [hbl _ (by omega) (by omega)]; exact le_erased _
  · intro _ fl1 hp
    have hfr1 : Fr F g.b fl fl1 t (t + 1 + n) := hp.fr.widen (Nat.le_refl _) (by rw [hdl]; omega)
    have hbody : ∀ i (h : i < (userWords k v).length), i < n → rd F fl1 (t + i) = (userWords k v)[i] := fun i hi h5 => by
      have := hp.here i (by omega)
      rw [List.getElem_dropLast] at this; exact this
    rw [hl, show t + (1 + n - 1) = t + n by omega]
    have hfoot : rd F fl1 (t + n) = erasedWord := by
      rw [hp.fr.other _ ⟨by omega, by omega⟩ (by omega)]; exact hbl _ (by omega) (by omega)
    refine fls_mono (writeSlice_fls hF (b := g.b) (by omega) (by simp only [List.length_singleton]; omega)
      (by simp only [List.length_singleton]; omega) ?_) ?_ ?_
    · intro j hj
      have : j = 0 := by simpa using hj
      subst this
      rw [Nat.add_zero, hfoot]; exact le_erased _
    · intro _ fl2 hp2
      have hfr2 : Fr F g.b fl fl2 t (t + 1 + n) := hfr1.trans (hp2.fr.widen (by omega) (by simp only [List.length_singleton]; omega))
      refine (hopen fl2 hfr2).push hF ⟨hk, hv, by omega, fun i hi => ?_⟩ (by simp)
      by_cases hin : i = n
      · subst hin
        have := hp2.here 0 (by simp)
        rw [Nat.add_zero, List.getElem_cons_zero] at this
        rw [this, hlast]
      · rw [hp2.fr.other _ ⟨by omega, by omega⟩ (by omega)]
        exact hbody i hi (by omega)
    · intro fl2 hp2
      have hfr2 : Fr F g.b fl fl2 t (t + 1 + n) := hfr1.trans (hp2.fr.widen (by omega) (by simp only [List.length_singleton]; omega))
      have hbody2 : ∀ i (h : i < (userWords k v).length), i < n → rd F fl2 (t + i) = (userWords k v)[i] := fun i hi h5 => by
        rw [hp2.fr.other _ ⟨by omega, by omega⟩ (by omega)]; exact hbody i hi h5
      refine hcase fl2 hfr2 ?_
      have := torn_user hF hk hv (fl := fl2) (p := t) (fun i hi => ?_) (.inr (fun i hi h5 => hbody2 i hi (by omega)))
      · rw [← hn] at this; exact this
      · by_cases hin : i = n
        · subst hin
          have := hp2.above 0 (by simp)
          rw [Nat.add_zero, List.getElem_cons_zero, hlast] at this
          exact this
        · rw [hbody2 i hi (by omega)]; exact Le.refl _
  · intro fl1 hp
    have hfr1 : Fr F g.b fl fl1 t (t + 1 + n) := hp.fr.widen (Nat.le_refl _) (by rw [hdl]; omega)
    have hfoot : rd F fl1 (t + n) = erasedWord := by
      rw [hp.fr.other _ ⟨by omega, by omega⟩ (by omega)]; exact hbl _ (by omega) (by omega)
    refine hcase fl1 hfr1 ?_
    have := torn_user hF hk hv (fl := fl1) (p := t) (fun i hi => ?_) (by
      by_cases h0 : n = 0
      · exact .inr (fun i hi h5 => by omega)
      · exact .inl ⟨by omega, by rw [← hn]; exact hfoot⟩)
    · rw [← hn] at this; exact this
    · by_cases hin : i = n
      · subst hin; rw [hfoot]; exact le_erased _
      · have := hp.above i (by omega)
        rw [List.getElem_dropLast] at this; exact this

/-- Clearing one bit of the first word of an entry. -/
theorem bitSet_fls (hF : Sizes F) {b p i : Nat} (h1 : b * F.Q ≤ p) (h2 : p < b * F.Q + F.N * F.Q) :
    Fls (writeSlice F p [bitSet i (rd F fl p)]) fl
      (fun _ fl' => Fr F b fl fl' p (p + 1) ∧ rd F fl' p = bitSet i (rd F fl p))
      (fun fl' => Fr F b fl fl' p (p + 1) ∧ (rd F fl' p = rd F fl p ∨ rd F fl' p = bitSet i (rd F fl p))) := by
  have hq := hF.q6
  refine fls_mono (writeSlice_fls hF (b := b) h1 (by simp only [List.length_singleton]; omega)
      (by simp only [List.length_singleton]; omega) ?_) ?_ ?_
  · intro j hj
    have : j = 0 := by simpa using hj
    subst this
    exact bitSet_le _ _
  · intro _ fl' hp
    exact ⟨hp.fr, hp.here 0 (by simp)⟩
  · intro fl' hp
    exact ⟨hp.fr, bitSet_between (hp.above 0 (by simp)) (hp.below 0 (by simp))⟩

theorem setPadding_fls (hF : Sizes F) {b p : Nat} (h1 : b * F.Q ≤ p) (h2 : p < b * F.Q + F.N * F.Q) :
    Fls (setPadding F p) fl
      (fun _ fl' => Fr F b fl fl' p (p + 1) ∧ ItemAt F fl' p (p + 1) .pad)
      (fun fl' => Fr F b fl fl' p (p + 1) ∧ (rd F fl' p = rd F fl p ∨ ItemAt F fl' p (p + 1) .pad)) := by
  have hpad : ∀ fl', rd F fl' p = bitSet 0 (rd F fl p) → ItemAt F fl' p (p + 1) .pad := fun fl' h =>
    ⟨0, by rw [h]; exact parseWord_padded F _, rfl, by omega⟩
  apply fls_bind
  apply fls_getFl
  apply fls_bind
  apply fls_liftE (setPadding_ok _).1
  refine fls_mono (bitSet_fls hF h1 h2) ?_ ?_
  · rintro _ fl' ⟨h3, h4⟩
    exact ⟨h3, hpad fl' h4⟩
  · rintro fl' ⟨h3, h4 | h4⟩
    · exact ⟨h3, .inl h4⟩
    · exact ⟨h3, .inr (hpad fl' h4)⟩

theorem Log.memWin (hF : Sizes F) (L : Log F fl g slots t c e) {s : Slot} (hs : s ∈ slots) :
    g.b * F.Q ≤ s.p ∧ s.p < s.q ∧ s.q ≤ t ∧ t ≤ g.b * F.Q + F.N * F.Q ∧ ItemAt F fl s.p s.q s.it := by
  have hm := L.chain.mem s hs
  have := L.hb
  have := L.te
  have := L.ew
  exact ⟨by omega, by omega, by omega, by omega, hm.2.2.2⟩

/-- An internal entry becomes padding. -/
theorem Log.setPadding (hF : Sizes F) (L : Log F fl g slots t c e) {s : Slot} (hs : s ∈ slots) {i : Internal} (hi : s.it = .int i) :
    Fls (setPadding F s.p) fl (fun _ fl' => Fr F g.b fl fl' s.p s.q ∧ Log F fl' g (padAt slots s.p) t c e)
      (fun fl' => Fr F g.b fl fl' s.p s.q ∧ (Log F fl' g slots t c e ∨ Log F fl' g (padAt slots s.p) t c e)) := by
  obtain ⟨h1, h2, h3, h4, h5⟩ := L.memWin hF hs
  rw [hi] at h5
  have hq := h5.2.2
  refine fls_mono (setPadding_fls hF h1 (by omega)) ?_ ?_
  · rintro _ fl' ⟨h6, h7⟩
    rw [← hq] at h6 h7
    exact ⟨h6, L.pad hF hs h6 h7⟩
  · rintro fl' ⟨h6, h7 | h7⟩
    · exact ⟨hq ▸ h6, .inl (L.same hF h6 (fun x h8 h9 => by rw [show x = s.p by omega]; exact h7))⟩
    · rw [← hq] at h6 h7
      exact ⟨h6, .inr (L.pad hF hs h6 h7)⟩

/-- `wipe_span` does not change padding. -/
theorem wipe_fls (hF : Sizes F) {b p n : Nat} (h1 : b * F.Q ≤ p) (h2 : p + n ≤ b * F.Q + F.N * F.Q) (hn : n ≤ F.Q) :
    Fls (wipeSpan F p n) fl (fun _ fl' => Fr F b fl fl' p (p + n) ∧ ∀ x, p ≤ x → x < p + n → rd F fl' x = 0)
      (fun fl' => Fr F b fl fl' p (p + n) ∧ ∀ x, p ≤ x → x < p + n → Le (rd F fl' x) (rd F fl x)) := by
  refine fls_mono (writeSlice_fls hF (b := b) h1 (by rw [List.length_replicate]; exact h2) (by rw [List.length_replicate]; exact hn) ?_) ?_ ?_
  · intro j hj
    rw [List.getElem_replicate]; exact le_zero _
  · intro _ fl' hp
    refine ⟨by have := hp.fr; rw [List.length_replicate] at this; exact this, fun x h3 h4 => ?_⟩
    have := hp.here (x - p) (by rw [List.length_replicate]; omega)
    rw [List.getElem_replicate, show p + (x - p) = x by omega] at this
    exact this
  · intro fl' hp
    refine ⟨by have := hp.fr; rw [List.length_replicate] at this; exact this, fun x h3 h4 => ?_⟩
    have := hp.below (x - p) (by rw [List.length_replicate]; omega)
    rw [show p + (x - p) = x by omega] at this
    exact this

theorem padAt_pad {p : Nat} (hp : ∀ s ∈ slots, s.p = p → s.it = .pad) : padAt slots p = slots := by
  unfold padAt
  have : slots.map (fun s => if s.p = p then { s with it := Item.pad } else s) = slots.map id :=
    List.map_congr_left (fun s hs => by
      split
      · rename_i h
        have := hp s hs h
        cases s; simp only at this; subst this; rfl
      · rfl)
  rw [this, List.map_id]

/-- Wiping the contents of padding. -/
theorem Log.wipe (hF : Sizes F) (L : Log F fl g slots t c e) {s : Slot} (hs : s ∈ slots) (hi : s.it = .pad) :
    Fls (wipeSpan F (s.p + 1) (s.q - s.p - 1)) fl (fun _ fl' => Fr F g.b fl fl' s.p s.q ∧ Log F fl' g slots t c e)
      (fun fl' => Fr F g.b fl fl' s.p s.q ∧ Log F fl' g slots t c e) := by
  obtain ⟨h1, h2, h3, h4, h5⟩ := L.memWin hF hs
  rw [hi] at h5
  have hmx := h5.maxSize (by simp)
  have hmq := hF.mq
  have key : ∀ fl', Fr F g.b fl fl' (s.p + 1) (s.p + 1 + (s.q - s.p - 1)) →
      Fr F g.b fl fl' s.p s.q ∧ Log F fl' g slots t c e := fun fl' hf => by
    have hf' : Fr F g.b fl fl' s.p s.q := hf.widen (by omega) (by omega)
    have hi' : ItemAt F fl' s.p s.q .pad := by
      obtain ⟨n, h6, h7⟩ := h5
      exact ⟨n, by rw [hf.other _ ⟨h1, by omega⟩ (by omega)]; exact h6, h7⟩
    have := L.pad hF hs hf' hi'
    rw [padAt_pad (fun s' hs' e1 => by rw [L.chain.uniq hs' hs e1]; exact hi)] at this
    exact ⟨hf', this⟩
  exact fls_mono (wipe_fls hF (by omega) (by omega) (by omega)) (fun _ fl' h => key fl' h.1) (fun fl' h => key fl' h.1)

/-- Deleting a user entry. -/
theorem Log.deletePos (hF : Sizes F) (L : Log F fl g slots t c e) {s : Slot} (hs : s ∈ slots) {k : Nat} {v : Bytes}
    (hi : s.it = .user k v) :
    Fls (deletePos F s.p (bytesToWords v.length)) fl (fun _ fl' => Fr F g.b fl fl' s.p s.q ∧ Log F fl' g (padAt slots s.p) t c e)
      (fun fl' => Fr F g.b fl fl' s.p s.q ∧ (Log F fl' g slots t c e ∨ Log F fl' g (padAt slots s.p) t c e)) := by
  obtain ⟨h1, h2, h3, h4, h5⟩ := L.memWin hF hs
  rw [hi] at h5
  obtain ⟨hhd, _⟩ := user_words hF h5
  have hv := h5.2.1
  have hq := h5.2.2.1
  have hM := maxLen_words hv
  have hpad : ∀ fl', rd F fl' s.p = bitSet headerDeleted (rd F fl s.p) → ItemAt F fl' s.p s.q .pad := fun fl' h =>
    ⟨bytesToWords v.length, by rw [h]; exact parseWord_deleted F hhd hv, hq, hM⟩
  apply fls_bind
  show Fls (setDeleted F s.p) fl _ _
  apply fls_bind
  apply fls_getFl
  refine fls_mono (bitSet_fls hF h1 (by omega)) ?_ ?_
  · rintro _ fl1 ⟨h6, h7⟩
    have h6' : Fr F g.b fl fl1 s.p s.q := h6.widen (Nat.le_refl _) (by omega)
    have L1 := L.pad hF hs h6' (hpad fl1 h7)
    have hs1 : (⟨s.p, s.q, .pad⟩ : Slot) ∈ padAt slots s.p :=
      List.mem_map.2 ⟨s, hs, by rw [if_pos rfl]⟩
    have := L1.wipe hF hs1 rfl
    simp only at this
    rw [show s.q - s.p - 1 = bytesToWords v.length by omega] at this
    exact fls_mono this (fun _ _ h => ⟨h6'.trans h.1, h.2⟩) (fun _ h => ⟨h6'.trans h.1, .inr h.2⟩)
  · rintro fl1 ⟨h6, h7⟩
    have h6' : Fr F g.b fl fl1 s.p s.q := h6.widen (Nat.le_refl _) (by omega)
    refine ⟨h6', ?_⟩
    rcases h7 with h7 | h7
    · exact .inl (L.same hF h6 (fun x h8 h9 => by rw [show x = s.p by omega]; exact h7))
    · exact .inr (L.pad hF hs h6' (hpad fl1 h7))

/-- Padding of one word each. -/
def padRun : Nat → Nat → List Slot
  | _, 0 => []
  | t, n + 1 => ⟨t, t + 1, .pad⟩ :: padRun (t + 1) n

theorem padRun_pad : (t n : Nat) → ∀ s ∈ padRun t n, s.it = .pad
  | _, 0, s, hs => by simp [padRun] at hs
  | t, n + 1, s, hs => by
    rcases List.mem_cons.1 hs with rfl | hs
    · rfl
    · exact padRun_pad (t + 1) n s hs

theorem padRun_chain : (t n : Nat) → (∀ x, t ≤ x → x < t + n → ItemAt F fl x (x + 1) .pad) → Chain F fl t (padRun t n) (t + n)
  | t, 0, _ => rfl
  | t, n + 1, h => ⟨rfl, h t (by omega) (by omega), by
    have := padRun_chain (t + 1) n (fun x h1 h2 => h x (by omega) (by omega))
    rw [show t + 1 + n = t + (n + 1) by omega] at this
    exact this⟩

/-- The outcomes of completing an interrupted write: it is still interrupted or it became padding. -/
def Wiped (F : Format) (fl' : Flash) (g : Geo) (slots : List Slot) (e : Nat) : Prop :=
  ∃ ns, (∀ s ∈ ns, s.it = .pad) ∧ ns ≠ [] ∧ Log F fl' g (slots ++ ns) e e e

/-- `recover_wipe_partial`. -/
theorem Log.wipeTorn (hF : Sizes F) {l : Nat} (L : Log F fl g slots t t (t + 1 + l)) (hb : BadAt F fl t l) :
    Fls (recoverWipePartly F t l) fl (fun _ fl' => Wiped F fl' g slots (t + 1 + l))
      (fun fl' => (Log F fl' g slots t t (t + 1 + l) ∧ TornTail F fl' t (t + 1 + l)) ∨ Wiped F fl' g slots (t + 1 + l)) := by
  have h1 := L.hb
  have h2 := L.ct hF
  have h3 := L.ew
  have hmq := hF.mq
  have hsm := hb.small
  have hbad : ∀ fl', Fr F g.b fl fl' (t + 1) (t + 1 + l) → (∀ x, t + 1 ≤ x → x < t + 1 + l → Le (rd F fl' x) (rd F fl x)) →
      BadAt F fl' t l := fun fl' hf hle => by
    refine hb.congr (hf.other _ ⟨by omega, by omega⟩ (by omega)) ?_
    by_cases h0 : l = 0
    · rw [hf.other _ ⟨by omega, by omega⟩ (by omega)]; exact Le.refl _
    · exact hle _ (by omega) (by omega)
  apply fls_bind
  refine fls_mono (wipe_fls hF (b := g.b) (by omega) (by omega) (by omega)) ?_ ?_
  · rintro _ fl1 ⟨hf, hz⟩
    have hbad1 := hbad fl1 hf (fun x h4 h5 => by rw [hz x h4 h5]; exact le_zero _)
    have L1 := L.rewrite hF (hf.widen (by omega) (Nat.le_refl _))
    apply fls_bind
    have := L1.initPage hF (by omega)
    rw [show t + (t + 1 + l - t - 1) = t + l by omega] at this
    refine fls_mono this ?_ ?_
    · rintro _ fl2 ⟨hfi, L2, hini⟩
      have hbad2 : BadAt F fl2 t l := hbad1.congr (hfi.rd _) (by rw [hfi.rd]; exact Le.refl _)
      have hfin : ∀ fl3, Fr F g.b fl2 fl3 t (t + 1) → ItemAt F fl3 t (t + 1) .pad → Wiped F fl3 g slots (t + 1 + l) := by
        intro fl3 hf3 hi3
        have L3 := L2.rewrite hF (hf3.widen (Nat.le_refl _) (by omega))
        refine ⟨padRun t (l + 1), padRun_pad _ _, by simp [padRun], L3.wiped hF ?_ (by simp [padRun]) (padRun_pad _ _) ?_⟩
        · have := padRun_chain (F := F) (fl := fl3) t (l + 1) (fun x h4 h5 => ?_)
          · rw [show t + (l + 1) = t + 1 + l by omega] at this; exact this
          · by_cases hx : x = t
            · subst hx; exact hi3
            · refine ⟨0, ?_, rfl, by omega⟩
              rw [hf3.other _ ⟨by omega, by omega⟩ (by omega), hfi.rd, hz x (by omega) (by omega)]
              exact parseWord_padding F _ (by simp)
        · intro a h4 h5 h6
          rw [hf3.ini]; exact hini a h4 h5 h6
      refine fls_mono (setPadding_fls hF (b := g.b) (by omega) (by omega)) ?_ ?_
      · rintro _ fl3 ⟨hf3, hi3⟩
        exact hfin fl3 hf3 hi3
      · rintro fl3 ⟨hf3, h | hi3⟩
        · refine .inl ⟨L2.rewrite hF (hf3.widen (Nat.le_refl _) (by omega)), .bad l (hbad2.congr h ?_) rfl⟩
          by_cases h0 : l = 0
          · subst h0; rw [Nat.add_zero, h]; exact Le.refl _
          · rw [hf3.other _ ⟨by omega, by omega⟩ (by omega)]; exact Le.refl _
        · exact .inr (hfin fl3 hf3 hi3)
    · rintro fl2 ⟨hfi, L2⟩
      exact .inl ⟨L2, .bad l (hbad1.congr (hfi.rd _) (by rw [hfi.rd]; exact Le.refl _)) rfl⟩
  · rintro fl1 ⟨hf, hle⟩
    exact .inl ⟨L.rewrite hF (hf.widen (by omega) (Nat.le_refl _)), .bad l (hbad fl1 hf hle) rfl⟩

/-- `recover_delete_user`. -/
theorem Log.deleteTorn (hF : Sizes F) {n : Nat} (L : Log F fl g slots t t (t + 1 + n)) (hp : PUserAt F fl t n) :
    Fls (recoverDeleteUser F t n) fl (fun _ fl' => Wiped F fl' g slots (t + 1 + n))
      (fun fl' => (Log F fl' g slots t t (t + 1 + n) ∧ TornTail F fl' t (t + 1 + n)) ∨ Wiped F fl' g slots (t + 1 + n)) := by
  have h1 := L.hb
  have h2 := L.ct hF
  have h3 := L.ew
  have hmq := hF.mq
  have hsm := hp.small
  apply fls_bind
  have := L.initPage hF (by omega)
  rw [show t + (t + 1 + n - t - 1) = t + n by omega] at this
  refine fls_mono this ?_ ?_
  · rintro _ fl1 ⟨hfi, L1, hini⟩
    have hp1 : PUserAt F fl1 t n := hp.congr (hfi.rd _) (hfi.rd _)
    obtain ⟨flip, l, k, c, e1, e2, e3, e4, _⟩ := hp1.word
    have hpad : ∀ fl', rd F fl' t = bitSet headerDeleted (rd F fl1 t) → ItemAt F fl' t (t + 1 + n) .pad := fun fl' h =>
      ⟨n, by rw [h, e3]; exact parseWord_deleted F e1 e2, rfl, by omega⟩
    have hfin : ∀ fl2, Fr F g.b fl1 fl2 t (t + 1) → rd F fl2 t = bitSet headerDeleted (rd F fl1 t) →
        Log F fl2 g (slots ++ [⟨t, t + 1 + n, .pad⟩]) (t + 1 + n) (t + 1 + n) (t + 1 + n) := by
      intro fl2 hf2 h
      have L2 := L1.rewrite hF (hf2.widen (Nat.le_refl _) (by omega))
      refine L2.wiped hF ⟨rfl, hpad fl2 h, rfl⟩ (by simp) (by simp) ?_
      intro a h4 h5 h6
      rw [hf2.ini]; exact hini a h4 h5 h6
    have hwp : ∀ fl2, Log F fl2 g (slots ++ [⟨t, t + 1 + n, .pad⟩]) (t + 1 + n) (t + 1 + n) (t + 1 + n) → Wiped F fl2 g slots (t + 1 + n) :=
      fun fl2 h => ⟨_, by simp, by simp, h⟩
    apply fls_bind
    show Fls (setDeleted F t) fl1 _ _
    apply fls_bind
    apply fls_getFl
    refine fls_mono (bitSet_fls hF (b := g.b) (by omega) (by omega)) ?_ ?_
    · rintro _ fl2 ⟨hf2, h⟩
      have L2 := hfin fl2 hf2 h
      have := L2.wipe hF (s := ⟨t, t + 1 + n, .pad⟩) (by simp) rfl
      simp only at this
      rw [show t + 1 + n - t - 1 = n by omega] at this
      exact fls_mono this (fun _ fl3 h => hwp fl3 h.2) (fun fl3 h => .inr (hwp fl3 h.2))
    · rintro fl2 ⟨hf2, h | h⟩
      · refine .inl ⟨L1.rewrite hF (hf2.widen (Nat.le_refl _) (by omega)), .puser n (hp1.congr h ?_) rfl⟩
        rw [hf2.other _ ⟨by omega, by omega⟩ (by omega)]
      · exact .inr (hwp fl2 (hfin fl2 hf2 h))
  · rintro fl1 ⟨hfi, L1⟩
    exact .inl ⟨L1, .puser n (hp.congr (hfi.rd _) (hfi.rd _)) rfl⟩

end
end Verif.Store
