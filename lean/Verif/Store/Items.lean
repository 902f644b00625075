import Verif.Store.Flash

/-!
# The entries of the log and how they are read
-/
namespace Verif.Store

variable {F : Format}

/-- What an entry stands for. `gap` stands for the words that are skipped at the end of a page by a compaction. -/
inductive Item
  | user (k : Nat) (v : Bytes)
  | pad
  | int (e : Internal)
  | gap
deriving DecidableEq

/-- An entry with its positions. -/
structure Slot where
  p : Nat
  q : Nat
  it : Item
deriving DecidableEq

/-- The words from `p` are `ws`. -/
def WordsAt (F : Format) (fl : Flash) (p : Nat) (ws : List Word) : Prop := ∀ i (h : i < ws.length), rd F fl (p + i) = ws[i]

/-- The words from `p` may become `ws`. -/
def WordsAbove (F : Format) (fl : Flash) (p : Nat) (ws : List Word) : Prop := ∀ i (h : i < ws.length), Le ws[i] (rd F fl (p + i))

/-- The words in `[p, q)` are erased. -/
def Blank (F : Format) (fl : Flash) (p q : Nat) : Prop := ∀ x, p ≤ x → x < q → rd F fl x = erasedWord

/-- The words in `[p, q)` store an entry. -/
def ItemAt (F : Format) (fl : Flash) (p q : Nat) : Item → Prop
  | .user k v => k ≤ maxKey ∧ v.length ≤ F.maxValueLen ∧ q = p + 1 + bytesToWords v.length ∧ WordsAt F fl p (userWords k v)
  | .pad => ∃ n, parseWord F (rd F fl p) = .ok (.valid (.padding n)) ∧ q = p + 1 + n ∧ n ≤ F.M
  | .int e => e.InRange F ∧ rd F fl p = intWord e ∧ q = p + 1
  | .gap => p < q ∧ q ≤ p + F.Q ∧ Blank F fl p q

theorem ItemAt.size {fl : Flash} {p q : Nat} {it : Item} (h : ItemAt F fl p q it) : p < q := by
  cases it with
  | user k v => have := h.2.2.1; omega
  | pad => obtain ⟨n, _, h2, _⟩ := h; omega
  | int e => have := h.2.2; omega
  | gap => exact h.1

theorem ItemAt.maxSize {fl : Flash} {p q : Nat} {it : Item} (hg : it ≠ .gap) (h : ItemAt F fl p q it) : q ≤ p + 1 + F.M := by
  cases it with
  | user k v => have := h.2.2.1; have := maxLen_words h.2.1; omega
  | pad => obtain ⟨n, _, h2, _⟩ := h; omega
  | int e => have := h.2.2; omega
  | gap => exact absurd rfl hg

/-- The entry is not changed if its words are not. -/
theorem ItemAt.congr (hF : Sizes F) {fl fl' : Flash} {p q : Nat} {it : Item} (h : ItemAt F fl p q it)
    (he : ∀ x, p ≤ x → x < q → rd F fl' x = rd F fl x) : ItemAt F fl' p q it := by
  have hs := h.size
  cases it with
  | user k v =>
    obtain ⟨h1, h2, h3, h4⟩ := h
    refine ⟨h1, h2, h3, fun i hi => ?_⟩
    rw [he _ (by omega) (by rw [userWords_length hF h1 h2] at hi; omega)]
    exact h4 i hi
  | pad =>
    obtain ⟨n, h1, h2, h3⟩ := h
    exact ⟨n, by rw [he _ (by omega) (by omega)]; exact h1, h2, h3⟩
  | int e =>
    obtain ⟨h1, h2, h3⟩ := h
    exact ⟨h1, by rw [he _ (by omega) (by omega)]; exact h2, h3⟩
  | gap =>
    obtain ⟨h1, h2, h3⟩ := h
    exact ⟨h1, h2, fun x hx hx' => by rw [he _ hx hx']; exact h3 x hx hx'⟩

/-! ## Complete entries -/

theorem lastWritten_none {fl : Flash} {p : Nat} : (n : Nat) → (∀ i, i < n → rd F fl (p + i) = erasedWord) → lastWritten F fl p n = none
  | 0, _ => rfl
  | n + 1, h => by
    simp only [lastWritten]
    rw [if_neg (by simpa using h n (by omega))]
    exact lastWritten_none n (fun i hi => h i (by omega))

theorem lastWritten_some {fl : Flash} {p l : Nat} (hl : rd F fl (p + l) ≠ erasedWord) : (n : Nat) → l < n →
    (∀ i, l < i → i < n → rd F fl (p + i) = erasedWord) → lastWritten F fl p n = some l
  | 0, h, _ => absurd h (by omega)
  | n + 1, h, he => by
    simp only [lastWritten]
    by_cases e : n = l
    · subst e; rw [if_pos hl]
    · rw [if_neg (by simpa using he n (by omega) (by omega))]
      exact lastWritten_some hl n (by omega) (fun i h1 h2 => he i h1 (by omega))

/-- What `lastWritten` finds. -/
theorem lastWritten_spec {fl : Flash} {p : Nat} : (n : Nat) →
    (lastWritten F fl p n = none ∧ ∀ i, i < n → rd F fl (p + i) = erasedWord) ∨
    ∃ l, lastWritten F fl p n = some l ∧ l < n ∧ rd F fl (p + l) ≠ erasedWord ∧ ∀ i, l < i → i < n → rd F fl (p + i) = erasedWord
  | 0 => .inl ⟨rfl, fun i hi => absurd hi (by omega)⟩
  | n + 1 => by
    by_cases e : rd F fl (p + n) = erasedWord
    · have hn : lastWritten F fl p (n + 1) = lastWritten F fl p n := by
        simp only [lastWritten]; rw [if_neg (by simpa using e)]
      rw [hn]
      rcases lastWritten_spec (fl := fl) (p := p) n with ⟨h1, h2⟩ | ⟨l, h1, h2, h3, h4⟩
      · refine .inl ⟨h1, fun i hi => ?_⟩
        by_cases hin : i = n
        · subst hin; exact e
        · exact h2 i (by omega)
      · refine .inr ⟨l, h1, by omega, h3, fun i h5 h6 => ?_⟩
        by_cases hin : i = n
        · subst hin; exact e
        · exact h4 i h5 (by omega)
    · refine .inr ⟨n, ?_, by omega, e, fun i h1 h2 => absurd h1 (by omega)⟩
      simp only [lastWritten]; rw [if_pos e]

/-- The tail of the log. -/
theorem parse_tail {fl : Flash} {p : Nat} (hM : 1 ≤ F.M) (h : Blank F fl p (p + F.M)) : parseEntry F fl p = .ok (.tail, p) := by
  have h0 : readWord F fl p = erasedWord := h p (by omega) (by omega)
  simp only [parseEntry, h0, parseWord_erased, parsePartly, lastWritten_none F.M (fun i hi => h (p + i) (by omega) (by omega))]

theorem parse_pad {fl : Flash} {p q : Nat} (h : ItemAt F fl p q .pad) : parseEntry F fl p = .ok (.padding, q) := by
  obtain ⟨n, h1, h2, _⟩ := h
  have h1' : parseWord F (readWord F fl p) = _ := h1
  simp only [parseEntry, h1', h2]

theorem parse_int (hF : Sizes F) {fl : Flash} {p q : Nat} {e : Internal} (h : ItemAt F fl p q (.int e)) :
    parseEntry F fl p = .ok (.internal e, q) := by
  obtain ⟨h1, h2, h3⟩ := h
  have h2' : readWord F fl p = _ := h2
  simp only [parseEntry, h2', (intWord_spec hF h1).2.2.2, h3]

theorem readWords_eq {fl : Flash} {p : Nat} {ws : List Word} (h : WordsAt F fl p ws) : readWords F fl p ws.length = ws := by
  apply List.ext_getElem
  · simp [readWords]
  · intro i h1 h2
    simp only [readWords, List.getElem_map, List.getElem_range]
    exact h i h2

theorem getLastD_getElem {α : Type} (l : List α) (d : α) (h : 0 < l.length) : l.getLastD d = l[l.length - 1] := by
  rw [List.getLastD_eq_getLast?, List.getLast?_eq_getElem?, List.getElem?_eq_getElem (by omega)]; rfl

/-- What a user entry stores. -/
theorem user_words (hF : Sizes F) {fl : Flash} {p q k : Nat} {v : Bytes} (h : ItemAt F fl p q (.user k v)) :
    IsHeader (rd F fl p) (needsFlip (toWords v)) v.length k (zeros ((storedWords v).getLastD erasedWord)) ∧
      WordsAt F fl (p + 1) (storedWords v) := by
  obtain ⟨h1, h2, h3, h4⟩ := h
  obtain ⟨hw, e1, e2, e3⟩ := userWords_spec hF h1 h2
  rw [e1] at h4
  have h0 := h4 0 (by simp)
  rw [Nat.add_zero, List.getElem_cons_zero] at h0
  refine ⟨h0 ▸ e3, fun i hi => ?_⟩
  have := h4 (i + 1) (by simpa using hi)
  rw [List.getElem_cons_succ] at this
  rw [← this]; congr 1; omega

theorem footer_user (hF : Sizes F) {fl : Flash} {p : Nat} {v : Bytes} (h : WordsAt F fl (p + 1) (storedWords v)) :
    footerZeros F fl p (bytesToWords v.length) = zeros ((storedWords v).getLastD erasedWord) := by
  have hl := storedWords_length v
  by_cases h0 : bytesToWords v.length = 0
  · have : storedWords v = [] := List.length_eq_zero_iff.1 (by omega)
    rw [footerZeros, if_pos h0, this]
    exact zeros_erased.symm
  · rw [footerZeros, if_neg h0, getLastD_getElem _ _ (by omega)]
    have := h ((storedWords v).length - 1) (by omega)
    rw [← this]
    show zeros (rd F fl _) = _
    congr 2; omega

/-- A complete user entry. -/
theorem parse_user (hF : Sizes F) {fl : Flash} {p q k : Nat} {v : Bytes} (h : ItemAt F fl p q (.user k v)) :
    ∃ hd : Header, parseEntry F fl p = .ok (.user hd, q) ∧ hd.key = k ∧ hd.length = v.length ∧ readValue F fl p hd = .ok v := by
  obtain ⟨e1, e2⟩ := user_words hF h
  obtain ⟨h1, h2, h3, _⟩ := h
  have hl := storedWords_length v
  refine ⟨⟨needsFlip (toWords v), v.length, k, zeros ((storedWords v).getLastD erasedWord)⟩, ?_, rfl, rfl, ?_⟩
  · have := parseWord_header F e1
    have this' : parseWord F (readWord F fl p) = _ := this
    simp only [parseEntry, this', parseUser]
    rw [if_neg (by omega), footer_user hF e2, if_pos rfl, h3]
  · have hr := readWords_eq e2
    rw [hl] at hr
    simp only [readValue, hr]
    cases hf : needsFlip (toWords v) with
    | false =>
      simp only [storedWords, hf, Bool.false_eq_true, if_false, Bool.not_false, if_true, fromWords_toWords]
    | true =>
      obtain ⟨f1, f2⟩ := flipped_value v hf
      simp only [storedWords, hf, if_true, Bool.not_true, Bool.false_eq_true, if_false]
      rw [if_neg f1, f2]

/-! ## Partial entries -/

/-- The header word of an entry that is not complete: it is not taken for one with at most `l` words after it. -/
def BadWord (F : Format) (w : Word) (l : Nat) : Prop :=
  parseWord F w = .ok .erased ∨ parseWord F w = .ok .partly ∨
    ∃ hd : Header, parseWord F w = .ok (.valid (.header hd)) ∧
      (hd.length > F.maxValueLen ∨ (hd.checksum ≠ 0 ∧ (bytesToWords hd.length = 0 ∨ l < bytesToWords hd.length)))

/-- An entry of which `l` words after the first one may be written, the last one being written. -/
structure BadAt (F : Format) (fl : Flash) (p l : Nat) : Prop where
  word : BadWord F (rd F fl p) l
  small : l < F.M
  last : rd F fl (p + l) ≠ erasedWord

/-- A user entry whose footer is not complete. -/
structure PUserAt (F : Format) (fl : Flash) (p n : Nat) : Prop where
  word : ∃ flip l k c, IsHeader (rd F fl p) flip l k c ∧ l ≤ F.maxValueLen ∧ n = bytesToWords l ∧ n ≠ 0 ∧ zeros (rd F fl (p + n)) ≠ c
  footer : rd F fl (p + n) ≠ erasedWord

theorem parse_badWord (hF : Sizes F) {fl : Flash} {p l : Nat} (hw : BadWord F (rd F fl p) l) (hl : l ≤ F.M)
    (hb : Blank F fl (p + l + 1) (p + F.M + 1)) : parseEntry F fl p = .ok (parsePartly F fl p) := by
  rcases hw with h | h | ⟨hd, h, h2⟩
  · have h' : parseWord F (readWord F fl p) = _ := h
    simp only [parseEntry, h']
  · have h' : parseWord F (readWord F fl p) = _ := h
    simp only [parseEntry, h']
  · have h' : parseWord F (readWord F fl p) = _ := h
    simp only [parseEntry, h', parseUser]
    rcases h2 with h2 | ⟨h2, h3⟩
    · rw [if_pos h2]
    · by_cases hm : hd.length > F.maxValueLen
      · rw [if_pos hm]
      · rw [if_neg hm]
        have hM := maxLen_words (F := F) (n := hd.length) (by omega)
        have hfz : footerZeros F fl p (bytesToWords hd.length) = 0 := by
          rw [footerZeros]
          split
          · rfl
          · rename_i h0
            have : readWord F fl (p + bytesToWords hd.length) = erasedWord := hb _ (by omega) (by omega)
            rw [this, zeros_erased]
        rw [hfz, if_neg (fun e => h2 e.symm), if_pos]
        rcases h3 with h3 | h3
        · exact .inl h3
        · exact .inr (hb _ (by omega) (by omega))

theorem parse_bad (hF : Sizes F) {fl : Flash} {p l : Nat} (h : BadAt F fl p l)
    (hb : Blank F fl (p + l + 1) (p + F.M + 1)) : parseEntry F fl p = .ok (.partly, p + 1 + l) := by
  have hs := h.small
  rw [parse_badWord hF h.word (by omega) hb]
  simp only [parsePartly, lastWritten_some h.last F.M h.small (fun i h1 h2 => hb _ (by omega) (by omega))]

theorem parse_puser (hF : Sizes F) {fl : Flash} {p n : Nat} (h : PUserAt F fl p n) : parseEntry F fl p = .ok (.partialUser, p + 1 + n) := by
  obtain ⟨flip, l, k, c, h1, h2, h3, h4, h5⟩ := h.word
  have hne := h.footer
  have h1' : parseWord F (readWord F fl p) = _ := parseWord_header F h1
  simp only [parseEntry, h1', parseUser]
  rw [if_neg (by omega), ← h3]
  have : footerZeros F fl p n = zeros (rd F fl (p + n)) := by rw [footerZeros, if_neg h4]
  rw [this, if_neg h5, if_neg]
  rintro (h | h)
  · exact h4 h
  · exact hne h

theorem stored_last (v : Bytes) (h : bytesToWords v.length ≠ 0) : (storedWords v).getLastD erasedWord ≠ erasedWord := by
  apply stored_last_ne
  intro e
  have := storedWords_length v
  rw [e] at this
  exact h this.symm

theorem bytesToWords_mono {a b : Nat} (h : a ≤ b) : bytesToWords a ≤ bytesToWords b := by
  simp only [bytesToWords]; omega

/-- What may be found after an interrupted write of an entry. -/
inductive Torn (F : Format) (fl : Flash) (p q : Nat) : Prop
  | nothing (h : Blank F fl p q)
  | bad (l : Nat) (h : BadAt F fl p l) (hq : p + 1 + l ≤ q) (hb : Blank F fl (p + 1 + l) q)
  | puser (n : Nat) (h : PUserAt F fl p n) (hq : q = p + 1 + n)

/-- An interrupted write of a user entry. -/
theorem torn_user (hF : Sizes F) {fl : Flash} {p k : Nat} {v : Bytes} (hk : k ≤ maxKey) (hv : v.length ≤ F.maxValueLen)
    (ha : WordsAbove F fl p (userWords k v))
    (ho : (bytesToWords v.length ≠ 0 ∧ rd F fl (p + bytesToWords v.length) = erasedWord) ∨
      ∀ i (h : i < (userWords k v).length), i < bytesToWords v.length → rd F fl (p + i) = (userWords k v)[i]) :
    ItemAt F fl p (p + 1 + bytesToWords v.length) (.user k v) ∨ Torn F fl p (p + 1 + bytesToWords v.length) := by
  obtain ⟨hw, e1, _, e3⟩ := userWords_spec hF hk hv
  have hsl := storedWords_length v
  have hM := maxLen_words hv
  have hm1 := hF.m1
  obtain ⟨n, hn⟩ : ∃ n, n = bytesToWords v.length := ⟨_, rfl⟩
  rw [e1] at ha ho
  rw [← hn] at ho ⊢ hsl hM
  have hlen : (hw :: storedWords v).length = n + 1 := by rw [List.length_cons, hsl]
  have ha0 : Le hw (rd F fl p) := ha 0 (by simp)
  -- the first word is not complete
  have hbad : rd F fl p ≠ hw → ∀ l, l < n ∨ (n = 0 ∧ l = 0) → BadWord F (rd F fl p) l := by
    intro hne l hl
    rcases parseWord_header_above F e3 ha0 hne with h | ⟨hd, h1, h2, h3⟩
    · split at h
      · exact .inl h
      · exact .inr (.inl h)
    · refine .inr (.inr ⟨hd, h1, .inr ⟨by omega, ?_⟩⟩)
      have := bytesToWords_mono h3
      rw [← hn] at this
      omega
  -- the footer is not written
  have hfoot : n ≠ 0 → rd F fl (p + n) = erasedWord → Torn F fl p (p + 1 + n) := by
    intro h0 hf
    rcases lastWritten_spec (F := F) (fl := fl) (p := p) n with ⟨_, h2⟩ | ⟨l, _, h2, h3, h4⟩
    · refine .nothing (fun x hx hx' => ?_)
      by_cases e : x = p + n
      · rw [e]; exact hf
      · have := h2 (x - p) (by omega)
        rwa [show p + (x - p) = x by omega] at this
    · refine .bad l ⟨?_, by omega, h3⟩ (by omega) (fun x hx hx' => ?_)
      · by_cases hne : rd F fl p = hw
        · refine .inr (.inr ⟨_, by rw [hne]; exact parseWord_header F e3, .inr ⟨?_, .inr ?_⟩⟩)
          · have := zeros_pos (stored_last v (by omega))
            simp only; omega
          · simp only; omega
        · exact hbad hne l (.inl h2)
      · by_cases e : x = p + n
        · rw [e]; exact hf
        · have := h4 (x - p) (by omega) (by omega)
          rwa [show p + (x - p) = x by omega] at this
  rcases ho with ⟨h0, hf⟩ | ho
  · exact .inr (hfoot h0 hf)
  · by_cases h0 : n = 0
    · by_cases hne : rd F fl p = hw
      · left
        refine ⟨hk, hv, by omega, fun i hi => ?_⟩
        rw [userWords_length hF hk hv] at hi
        have : i = 0 := by omega
        subst this
        simp only [e1, Nat.add_zero, List.getElem_cons_zero]; exact hne
      · right
        by_cases he : rd F fl p = erasedWord
        · exact .nothing (fun x hx hx' => by rw [show x = p by omega]; exact he)
        · exact .bad 0 ⟨hbad hne 0 (.inr ⟨h0, rfl⟩), by omega, he⟩ (by omega) (fun x hx hx' => by omega)
    · have hhw : rd F fl p = hw := ho 0 (by omega) (by omega)
      have hlast : (storedWords v).getLastD erasedWord = (hw :: storedWords v)[n]'(by omega) := by
        rw [getLastD_getElem _ _ (by omega), List.getElem_cons]
        rw [dif_neg h0]; congr 1; omega
      have hfa := ha n (by omega)
      rw [← hlast] at hfa
      by_cases hfe : rd F fl (p + n) = erasedWord
      · exact .inr (hfoot h0 hfe)
      · by_cases hfl : rd F fl (p + n) = (storedWords v).getLastD erasedWord
        · left
          refine ⟨hk, hv, by omega, fun i hi => ?_⟩
          rw [userWords_length hF hk hv] at hi
          by_cases hin : i = n
          · subst hin; simp only [e1]; rw [hfl, hlast]
          · simp only [e1]; exact ho i (by omega) (by omega)
        · right
          refine .puser n ⟨⟨_, _, _, _, hhw ▸ e3, hv, hn, h0, fun hz => ?_⟩, hfe⟩ rfl
          exact hfl (zeros_inj hfa hz.symm).symm

/-- An interrupted write of an internal entry. -/
theorem torn_int (hF : Sizes F) {fl : Flash} {p : Nat} {e : Internal} (he : e.InRange F) (ha : Le (intWord e) (rd F fl p)) :
    ItemAt F fl p (p + 1) (.int e) ∨ Torn F fl p (p + 1) := by
  obtain ⟨_, h2, h3, _⟩ := intWord_spec hF he
  have hm1 := hF.m1
  by_cases hne : rd F fl p = intWord e
  · exact .inl ⟨he, hne, rfl⟩
  · right
    have := parseWord_internal_above F h2 h3 ha hne
    split at this
    · rename_i h
      exact .nothing (fun x hx hx' => by rw [show x = p by omega]; exact h)
    · rename_i h
      exact .bad 0 ⟨.inr (.inl this), by omega, h⟩ (by omega) (fun x hx hx' => by omega)

/-- Entries that `recover_erase` does not continue after. -/
def Parsed.stops : Parsed → Bool
  | .tail => true
  | .partly => true
  | .partialUser => true
  | _ => false

theorem parsePartly_stops (fl : Flash) (p : Nat) : (parsePartly F fl p).1.stops = true := by
  simp only [parsePartly]
  split <;> rfl

/-- Reading a user entry that is being copied: its words may be written in any order. -/
theorem parse_user_above (hF : Sizes F) {fl : Flash} {p k stop : Nat} {v : Bytes} (hk : k ≤ maxKey) (hv : v.length ≤ F.maxValueLen)
    (ha : WordsAbove F fl p (userWords k v)) (hb : Blank F fl (p + 1 + bytesToWords v.length) stop) :
    ∃ r q, parseEntry F fl p = .ok (r, q) ∧
      (r.stops = true ∨ ((∃ h, r = .user h) ∧ (q = p + 1 + bytesToWords v.length ∨ stop < q))) := by
  obtain ⟨hw, e1, _, e3⟩ := userWords_spec hF hk hv
  have hsl := storedWords_length v
  obtain ⟨n, hn⟩ : ∃ n, n = bytesToWords v.length := ⟨_, rfl⟩
  rw [e1] at ha
  rw [← hn] at hb ⊢ hsl
  have ha0 : Le hw (rd F fl p) := ha 0 (by simp)
  by_cases hhw : rd F fl p = hw
  · have h' : parseWord F (readWord F fl p) = _ := hhw ▸ parseWord_header F e3
    simp only [parseEntry, h', parseUser]
    rw [if_neg (by omega), ← hn]
    split
    · exact ⟨_, _, rfl, .inr ⟨⟨_, rfl⟩, .inl rfl⟩⟩
    · split
      · exact ⟨_, _, rfl, .inl (parsePartly_stops fl p)⟩
      · exact ⟨_, _, rfl, .inl rfl⟩
  · rcases parseWord_header_above F e3 ha0 hhw with h | ⟨hd, h1, h2, h3⟩
    · have h' : parseWord F (readWord F fl p) = _ := h
      simp only [parseEntry, h']
      split
      · rename_i h5; cases h5
      all_goals first | exact ⟨_, _, rfl, .inl (parsePartly_stops fl p)⟩ | (rename_i h5; split at h5 <;> cases h5)
    · have h' : parseWord F (readWord F fl p) = _ := h1
      simp only [parseEntry, h', parseUser]
      split
      · exact ⟨_, _, rfl, .inl (parsePartly_stops fl p)⟩
      · rename_i hm
        have hn' := bytesToWords_mono h3
        rw [← hn] at hn'
        split
        · rename_i hz
          refine ⟨_, _, rfl, .inr ⟨⟨_, rfl⟩, ?_⟩⟩
          right
          by_cases h0 : bytesToWords hd.length = 0
          · rw [footerZeros, if_pos h0] at hz; omega
          · rw [footerZeros, if_neg h0] at hz
            by_cases hs : bytesToWords hd.length = n
            · exfalso
              have hfa := ha n (by rw [List.length_cons]; omega)
              rw [List.getElem_cons, dif_neg (by omega)] at hfa
              have hz2 := zeros_mono hfa
              rw [getLastD_getElem _ _ (by omega)] at h2
              rw [hs] at hz
              have e : zeros (readWord F fl (p + n)) = zeros (rd F fl (p + n)) := rfl
              have e2 : (storedWords v)[n - 1]'(by omega) = (storedWords v)[(storedWords v).length - 1]'(by omega) := by
                congr 1; omega
              rw [e2] at hz2
              omega
            · rcases Nat.lt_or_ge (p + bytesToWords hd.length) stop with h5 | h5
              · exfalso
                have : readWord F fl (p + bytesToWords hd.length) = erasedWord := hb _ (by omega) h5
                rw [this, zeros_erased] at hz
                omega
              · omega
        · split
          · exact ⟨_, _, rfl, .inl (parsePartly_stops fl p)⟩
          · exact ⟨_, _, rfl, .inl rfl⟩

/-- Reading an internal entry that is being written. -/
theorem parse_int_above (hF : Sizes F) {fl : Flash} {p : Nat} {e : Internal} (he : e.InRange F) (ha : Le (intWord e) (rd F fl p)) :
    (rd F fl p = intWord e) ∨ ∃ r q, parseEntry F fl p = .ok (r, q) ∧ r.stops = true := by
  obtain ⟨_, h2, h3, _⟩ := intWord_spec hF he
  by_cases hne : rd F fl p = intWord e
  · exact .inl hne
  · right
    have h : parseWord F (readWord F fl p) = _ := parseWord_internal_above F h2 h3 ha hne
    simp only [parseEntry, h]
    split
    · rename_i h5; cases h5
    all_goals first | exact ⟨_, _, rfl, parsePartly_stops fl p⟩ | (rename_i h5; split at h5 <;> cases h5)

end Verif.Store
