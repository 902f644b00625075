import Verif.Store.SpecWord
import Verif.Store.Items

/-!
# Words of the store (C41, C42) and positions (C43)
-/
namespace Verif.Store

variable {F : Format}

theorem Interrupted.above {old new w : Word} (h : Interrupted old new w) (hle : Le new old) : Le new w := fun i hi hb => by
  rcases h i hi with h1 | h1
  · rw [h1]; exact hle i hi hb
  · rw [h1]; exact hb

theorem Interrupted.symm {old new w : Word} (h : Interrupted old new w) : Interrupted new old w := fun i hi => (h i hi).symm

/-- C41: an init word that is being written or erased is erased, complete, or recognized as not complete. -/
theorem init_interrupted (hF : F.supported) {i : InitInfo} (hc : i.cycle ≤ F.E) (hp : i.pre ≤ F.M) {w0 w : Word}
    (h0 : buildInit i = .ok w0) (h : Interrupted erasedWord w0 w ∨ Interrupted w0 erasedWord w) :
    (w = erasedWord ∧ parseInit F w = .ok .erased) ∨ (w = w0 ∧ parseInit F w = .ok (.valid i)) ∨ parseInit F w = .ok .partly := by
  have hS := sizes hF
  have := hS.e16
  have := hS.m256
  obtain ⟨h1, h2, _⟩ := initWord_spec (c := i.cycle) (p := i.pre) (by omega) (by omega)
  have e : w0 = initWord i.cycle i.pre := by
    have : buildInit ⟨i.cycle, i.pre⟩ = .ok w0 := h0
    rw [h1] at this; exact (Except.ok.inj this).symm
  subst e
  have ha : Le (initWord i.cycle i.pre) w := by
    rcases h with h | h
    · exact h.above (le_erased _)
    · exact h.symm.above (le_erased _)
  by_cases hw : w = initWord i.cycle i.pre
  · exact .inr (.inl ⟨hw, hw ▸ parse_initWord hS hc hp⟩)
  · have := parseInit_above F h2 ha hw
    split at this
    · rename_i he; exact .inl ⟨he, this⟩
    · exact .inr (.inr this)

/-- C41: the same for the compact word. -/
theorem compact_interrupted (hF : F.supported) {t : Nat} (ht : t ≤ F.W) {w0 w : Word} (h0 : buildCompact t = .ok w0)
    (h : Interrupted erasedWord w0 w ∨ Interrupted w0 erasedWord w) :
    (w = erasedWord ∧ parseCompact F w = .ok .erased) ∨ (w = w0 ∧ parseCompact F w = .ok (.valid t)) ∨ parseCompact F w = .ok .partly := by
  have hS := sizes hF
  have := hS.nq
  have := hS.wn
  obtain ⟨h1, h2, _⟩ := compWord_spec (t := t) (by omega)
  have e : w0 = compWord t := by rw [h1] at h0; exact (Except.ok.inj h0).symm
  subst e
  have ha : Le (compWord t) w := by
    rcases h with h | h
    · exact h.above (le_erased _)
    · exact h.symm.above (le_erased _)
  by_cases hw : w = compWord t
  · exact .inr (.inl ⟨hw, hw ▸ parse_compWord hS ht⟩)
  · have := parseCompact_above F h2 ha hw
    split at this
    · rename_i he; exact .inl ⟨he, this⟩
    · exact .inr (.inr this)

/-- C41: the same for the word of an internal entry. -/
theorem internal_interrupted (hF : F.supported) {e : Internal} (he : e.InRange F) {w0 w : Word} (h0 : buildInternal e = .ok w0)
    (h : Interrupted erasedWord w0 w) :
    (w = erasedWord ∧ parseWord F w = .ok .erased) ∨ (w = w0 ∧ parseWord F w = .ok (.valid (.internal e))) ∨ parseWord F w = .ok .partly := by
  obtain ⟨h1, h2, h3, h4⟩ := intWord_spec (sizes hF) he
  have e' : w0 = intWord e := by rw [h1] at h0; exact (Except.ok.inj h0).symm
  subst e'
  have ha := h.above (le_erased _)
  by_cases hw : w = intWord e
  · exact .inr (.inl ⟨hw, hw ▸ h4⟩)
  · have := parseWord_internal_above F h2 h3 ha hw
    split at this
    · rename_i he; exact .inl ⟨he, this⟩
    · exact .inr (.inr this)

/-- C41: a user entry that is being written, after which the log is erased. The header and the words before the footer are
written first (with the footer still erased), then the footer. It is read as nothing, as the complete entry with its value, or
as one of the two kinds of entries that are not complete. -/
theorem user_interrupted (hF : F.supported) {k : Nat} {v : Bytes} (hk : k ≤ maxKey) (hv : v.length ≤ F.maxValueLen) {ws : List Word}
    (h0 : buildUser k v = .ok ws) {fl : Flash} {p : Nat}
    (hw : ∀ i (h : i < ws.length), Interrupted erasedWord ws[i] (readWord F fl (p + i)))
    (horder : (1 < ws.length ∧ readWord F fl (p + (ws.length - 1)) = erasedWord) ∨
      ∀ i (h : i < ws.length), i + 1 < ws.length → readWord F fl (p + i) = ws[i])
    (hblank : ∀ x, p + ws.length ≤ x → x < p + ws.length + F.M + 1 → readWord F fl x = erasedWord) :
    parseEntry F fl p = .ok (.tail, p) ∨
    (∃ hd, parseEntry F fl p = .ok (.user hd, p + ws.length) ∧ hd.key = k ∧ readValue F fl p hd = .ok v ∧
      ∀ i (h : i < ws.length), readWord F fl (p + i) = ws[i]) ∨
    (∃ q, parseEntry F fl p = .ok (.partly, q) ∧ q ≤ p + ws.length) ∨
    parseEntry F fl p = .ok (.partialUser, p + ws.length) := by
  have hS := sizes hF
  have hm1 := hS.m1
  obtain ⟨_, _, h2, _⟩ := userWords_spec hS hk hv
  have e : ws = userWords k v := by rw [h2] at h0; exact (Except.ok.inj h0).symm
  subst e
  have hl := userWords_length hS hk hv
  rw [hl] at hblank
  have hq : p + (userWords k v).length = p + 1 + bytesToWords v.length := by omega
  rw [hq]
  have hM := maxLen_words hv
  have ha : WordsAbove F fl p (userWords k v) := fun i hi => (hw i hi).above (le_erased _)
  have := torn_user hS hk hv ha (by
    rcases horder with ⟨h3, h4⟩ | h3
    · rw [hl] at h3 h4
      exact .inl ⟨by omega, by rw [show 1 + bytesToWords v.length - 1 = bytesToWords v.length by omega] at h4; exact h4⟩
    · exact .inr (fun i hi h4 => h3 i hi (by omega)))
  rcases this with h | h | ⟨l, h, h5, h6⟩ | ⟨n, h, h5⟩
  · obtain ⟨hd, h3, h4, _, h6⟩ := parse_user hS h
    refine .inr (.inl ⟨hd, ?_, h4, h6, h.2.2.2⟩)
    exact h3
  · left
    refine parse_tail hm1 (fun x hx hx' => ?_)
    rcases Nat.lt_or_ge x (p + 1 + bytesToWords v.length) with h7 | h7
    · exact h x hx h7
    · exact hblank x (by omega) (by omega)
  · refine .inr (.inr (.inl ⟨_, parse_bad hS h (fun x hx hx' => ?_), by omega⟩))
    rcases Nat.lt_or_ge x (p + 1 + bytesToWords v.length) with h7 | h7
    · exact h6 x (by omega) h7
    · exact hblank x (by omega) (by omega)
  · refine .inr (.inr (.inr ?_))
    rw [parse_puser hS h, h5]

/-- C41: deleting an entry, or marking it as padding, changes one bit and cannot be interrupted. -/
theorem delete_interrupted (w w' : Word) (hd : Interrupted w (bitSet headerDeleted w) w') : w' = w ∨ w' = bitSet headerDeleted w :=
  bitSet_between (hd.above (bitSet_le _ _)) (fun i hi hb => by
    rcases hd i hi with h | h
    · rw [← h]; exact hb
    · exact bitSet_le headerDeleted w i hi (h ▸ hb))

/-- C41: as `delete_interrupted`. -/
theorem padding_interrupted (w w0 w' : Word) (h0 : setPaddingWord w = .ok w0) (hd : Interrupted w w0 w') : w' = w ∨ w' = w0 := by
  have e : w0 = bitSet 0 w := by rw [(setPadding_ok w).1] at h0; exact (Except.ok.inj h0).symm
  subst e
  exact bitSet_between (hd.above (bitSet_le _ _)) (fun i hi hb => by
    rcases hd i hi with h | h
    · rw [← h]; exact hb
    · exact bitSet_le 0 w i hi (h ▸ hb))

/-! ## C42 -/

/-- C42: an init word decodes to what it was built from. -/
theorem init_decodes (hF : F.supported) {i : InitInfo} (hc : i.cycle ≤ F.E) (hp : i.pre ≤ F.M) :
    ∃ w, buildInit i = .ok w ∧ parseInit F w = .ok (.valid i) := by
  have hS := sizes hF
  have := hS.e16
  have := hS.m256
  exact ⟨_, (initWord_spec (by omega) (by omega)).1, parse_initWord hS hc hp⟩

/-- C42: a compact word decodes to what it was built from. -/
theorem compact_decodes (hF : F.supported) {t : Nat} (ht : t ≤ F.W) :
    ∃ w, buildCompact t = .ok w ∧ parseCompact F w = .ok (.valid t) := by
  have hS := sizes hF
  have := hS.nq
  have := hS.wn
  exact ⟨_, (compWord_spec (by omega)).1, parse_compWord hS ht⟩

/-- C42: an internal entry decodes to what it was built from; it becomes padding when so marked. -/
theorem internal_decodes (hF : F.supported) {e : Internal} (he : e.InRange F) :
    ∃ w w', buildInternal e = .ok w ∧ parseWord F w = .ok (.valid (.internal e)) ∧
      setPaddingWord w = .ok w' ∧ parseWord F w' = .ok (.valid (.padding 0)) := by
  obtain ⟨h1, _, _, h4⟩ := intWord_spec (sizes hF) he
  exact ⟨_, _, h1, h4, (setPadding_ok _).1, parseWord_padded F _⟩

/-- C42: the words of a user entry decode to its key and value; it becomes padding of the same length when deleted. -/
theorem user_decodes (hF : F.supported) {k : Nat} {v : Bytes} (hk : k ≤ maxKey) (hv : v.length ≤ F.maxValueLen) :
    ∃ ws, buildUser k v = .ok ws ∧ ws.length = entrySize v ∧
      ∀ fl p, (∀ i (h : i < ws.length), readWord F fl (p + i) = ws[i]) →
        (∃ hd, parseEntry F fl p = .ok (.user hd, p + ws.length) ∧ hd.key = k ∧ hd.length = v.length ∧ readValue F fl p hd = .ok v) ∧
        parseWord F (bitSet headerDeleted (readWord F fl p)) = .ok (.valid (.padding (ws.length - 1))) := by
  have hS := sizes hF
  obtain ⟨_, _, h2, _⟩ := userWords_spec hS hk hv
  have hl := userWords_length hS hk hv
  refine ⟨_, h2, hl, fun fl p h => ?_⟩
  have hi : ItemAt F fl p (p + 1 + bytesToWords v.length) (.user k v) := ⟨hk, hv, rfl, h⟩
  obtain ⟨hd, h3, h4, h5, h6⟩ := parse_user hS hi
  refine ⟨⟨hd, ?_, h4, h5, h6⟩, ?_⟩
  · rw [h3, hl]; congr 2; omega
  · rw [parseWord_deleted F (user_words hS hi).1 hv, hl]
    congr 3; omega

/-- The word is the first one of an entry of the log. -/
inductive EntryWord (F : Format) : ParsedWord → Word → Prop
  | header {k : Nat} {v : Bytes} {w : Word} {ws : List Word} (hk : k ≤ maxKey) (hv : v.length ≤ F.maxValueLen)
      (h : buildUser k v = .ok (w :: ws)) :
      EntryWord F (.header ⟨needsFlip (toWords v), v.length, k, zeros ((storedWords v).getLastD erasedWord)⟩) w
  | deleted {k : Nat} {v : Bytes} {w : Word} {ws : List Word} (hk : k ≤ maxKey) (hv : v.length ≤ F.maxValueLen)
      (h : buildUser k v = .ok (w :: ws)) : EntryWord F (.padding (bytesToWords v.length)) (bitSet headerDeleted w)
  | padded {w w' : Word} (h : setPaddingWord w = .ok w') : EntryWord F (.padding 0) w'
  | internal {e : Internal} {w : Word} (he : e.InRange F) (h : buildInternal e = .ok w) : EntryWord F (.internal e) w

/-- C42: the first word of an entry decodes to the kind and the parameters of the entry. -/
theorem entry_decodes (hF : F.supported) {x : ParsedWord} {w : Word} (h : EntryWord F x w) : parseWord F w = .ok (.valid x) := by
  have hS := sizes hF
  cases h with
  | header hk hv h =>
    obtain ⟨hw, h1, h2, h3⟩ := userWords_spec hS hk hv
    rw [h2, h1] at h
    obtain ⟨rfl, _⟩ := List.cons.inj (Except.ok.inj h)
    exact parseWord_header F h3
  | deleted hk hv h =>
    obtain ⟨hw, h1, h2, h3⟩ := userWords_spec hS hk hv
    rw [h2, h1] at h
    obtain ⟨rfl, _⟩ := List.cons.inj (Except.ok.inj h)
    exact parseWord_deleted F h3 hv
  | padded h =>
    rw [(setPadding_ok _).1] at h
    obtain rfl := Except.ok.inj h
    exact parseWord_padded F _
  | internal he h =>
    obtain ⟨h1, _, _, h4⟩ := intWord_spec hS he
    rw [h1] at h
    obtain rfl := Except.ok.inj h
    exact h4

/-- C42: no two kinds or parameters share a word, and no such word is erased. -/
theorem entry_words_distinct (hF : F.supported) {x y : ParsedWord} {w : Word} (hx : EntryWord F x w) (hy : EntryWord F y w) :
    x = y ∧ w ≠ erasedWord := by
  have h1 := entry_decodes hF hx
  have h2 := entry_decodes hF hy
  rw [h1] at h2
  refine ⟨WordState.valid.inj (Except.ok.inj h2), ?_⟩
  rintro rfl
  rw [parseWord_erased] at h1
  cases Except.ok.inj h1

/-! ## C43 -/

/-- C43: a place is found from its position, and a position from its place. -/
theorem position_bijective (hF : F.supported) :
    (∀ a : Place, a.Valid F → F.cycle (F.pos a.cycle a.page a.word) = a.cycle ∧ F.page (F.pos a.cycle a.page a.word) = a.page ∧
      F.word (F.pos a.cycle a.page a.word) = a.word) ∧
    ∀ x, F.pos (F.cycle x) (F.page x) (F.word x) = x ∧ (⟨F.cycle x, F.page x, F.word x⟩ : Place).Valid F := by
  have hS := sizes hF
  have hq := hS.q6
  have hn := hS.n3
  constructor
  · rintro ⟨c, p, w⟩ ⟨h1, h2⟩
    simp only at h1 h2
    simp only [Format.cycle, Format.page, Format.word, Format.pos]
    have e : ((c * F.N + p) * F.Q + w) / F.Q = c * F.N + p := div_of (by omega) (by omega)
    rw [e]
    exact ⟨div_of (by omega) (by omega), (mod_of (a := c) (by omega) (by omega)).trans (by omega),
      (mod_of (a := c * F.N + p) (by omega) (by omega)).trans (by omega)⟩
  · intro x
    refine ⟨?_, Nat.mod_lt _ (by omega), Nat.mod_lt _ (by omega)⟩
    simp only [Format.cycle, Format.page, Format.word, Format.pos]
    rw [Nat.mul_comm (x / F.Q / F.N), Nat.div_add_mod, Nat.mul_comm (x / F.Q), Nat.div_add_mod]

/-- C43: positions are ordered as places. -/
theorem position_ordered (a b : Place) (ha : a.Valid F) (hb : b.Valid F) :
    F.pos a.cycle a.page a.word < F.pos b.cycle b.page b.word ↔ a.Before b := by
  obtain ⟨c1, p1, w1⟩ := a
  obtain ⟨c2, p2, w2⟩ := b
  obtain ⟨h1, h2⟩ := ha
  obtain ⟨h3, h4⟩ := hb
  simp only [Format.pos, Place.Before] at h1 h2 h3 h4 ⊢
  have key : ∀ {c c' p p' : Nat}, p < F.N → c < c' → (c * F.N + p) * F.Q + F.Q ≤ (c' * F.N + p') * F.Q := by
    intro c c' p p' hp hc
    have := mul_step (Q := F.N) hc
    exact mul_step (by omega)
  rcases Nat.lt_trichotomy c1 c2 with h | h | h
  · have := key (p := p1) (p' := p2) h1 h
    exact ⟨fun _ => .inl h, fun _ => by omega⟩
  · subst h
    rcases Nat.lt_trichotomy p1 p2 with h' | h' | h'
    · have := mul_step (Q := F.Q) (show c1 * F.N + p1 < c1 * F.N + p2 by omega)
      exact ⟨fun _ => .inr ⟨rfl, .inl h'⟩, fun _ => by omega⟩
    · subst h'
      omega
    · have := mul_step (Q := F.Q) (show c1 * F.N + p2 < c1 * F.N + p1 by omega)
      constructor
      · intro h; omega
      · omega
  · have := key (p := p2) (p' := p1) h3 h
    constructor
    · intro h; omega
    · omega

/-- C43: the difference of two positions is the number of words from one to the other. -/
theorem position_distance (hF : F.supported) (a : Place) (ha : a.Valid F) (n : Nat) :
    (a.after F n).Valid F ∧
      F.pos (a.after F n).cycle (a.after F n).page (a.after F n).word = F.pos a.cycle a.page a.word + n := by
  have hS := sizes hF
  have hq := hS.q6
  have hn := hS.n3
  induction n with
  | zero => exact ⟨ha, rfl⟩
  | succ n ih =>
    obtain ⟨⟨h1, h2⟩, h3⟩ := ih
    rw [Place.after, ← Nat.add_assoc, ← h3]
    clear h3
    revert h1 h2
    generalize a.after F n = x
    obtain ⟨c, p, w⟩ := x
    intro h1 h2
    simp only [Place.next] at h1 h2 ⊢
    split
    · exact ⟨⟨h1, by simp only; omega⟩, by simp only [Format.pos]; omega⟩
    · split
      · refine ⟨⟨by simp only; omega, by simp only; omega⟩, ?_⟩
        simp only [Format.pos, ← Nat.add_assoc, succ_mul']; omega
      · refine ⟨⟨by simp only; omega, by simp only; omega⟩, ?_⟩
        have : p + 1 = F.N := by omega
        have e : (c + 1) * F.N + 0 = c * F.N + p + 1 := by rw [succ_mul']; omega
        simp only [Format.pos]; rw [e, succ_mul' (Q := F.Q)]; omega

/-- C43: in the lifetime of the storage, positions fit in 32 bits. -/
theorem position_fits (hF : F.supported) (x : Nat) (hx : F.cycle x ≤ F.E) : x < 2 ^ 32 := by
  obtain ⟨h1, h2, h3, h4, h5⟩ := hF
  have hS := sizes ⟨h1, h2, h3, h4, h5⟩
  have hq := hS.q6
  have hq2 := hS.q1022
  have b1 := div_bounds (Q := F.Q) (x := x) (by omega)
  have b2 := div_bounds (Q := F.N) (x := x / F.Q) (by have := hS.n3; omega)
  have h5' : F.E ≤ 65535 := h5
  have h4' : F.N ≤ 64 := h4
  simp only [Format.cycle] at hx
  have a1 : x / F.Q / F.N * F.N ≤ 65535 * 64 := Nat.mul_le_mul (by omega) h4'
  have a2 : x / F.Q * F.Q ≤ (65536 * 64 - 1) * 1022 := Nat.mul_le_mul (by omega) hq2
  omega

/-! ## Examples -/

deriving instance DecidableEq for Except


/-- A page of 4096 bytes, 20 pages, as in the Nordic boards. -/
def sampleFormat : Format := ⟨1024, 20, 10000⟩

theorem sampleFormat_supported : sampleFormat.supported := by simp only [Format.supported, sampleFormat]; decide

/-- Some bits of an init word are not cleared yet. -/
example : ∃ w0 w, buildInit ⟨3, 7⟩ = .ok w0 ∧ Interrupted erasedWord w0 w ∧ parseInit sampleFormat w = .ok .partly := by
  refine ⟨initWord 3 7, initWord 3 7 ||| 0x10, (initWord_spec (by decide) (by decide)).1, fun i hi => ?_, by decide +kernel⟩
  simp only [BitVec.getLsbD_or]
  cases h : (0x10 : Word).getLsbD i
  · right; simp
  · left; simp [erased_bit hi]

/-- The words of a user entry with a value of five bytes. -/
example : ∃ ws, buildUser 7 [1, 2, 3, 0xff, 0xff] = .ok ws ∧ ws.length = 3 := by
  refine ⟨_, rfl, ?_⟩; decide +kernel

/-- An entry in flash of which only the header and a part of the value are written. -/
example : parseEntry sampleFormat (fun p i => if p = 0 ∧ i < 4 then ((userWords 7 [1, 2, 3, 4, 5]).getD (i - 2) 0) else erasedWord) 0
    = .ok (.partly, 2) := by decide +kernel

example : EntryWord sampleFormat (.internal (.remove 9)) (intWord (.remove 9)) :=
  .internal (by simp only [Internal.InRange]; decide) (intWord_spec (sizes sampleFormat_supported) (by simp only [Internal.InRange]; decide)).1

/-- Two words before the end of a cycle. -/
example : (⟨0, 19, 1020⟩ : Place).Valid sampleFormat ∧ (⟨0, 19, 1020⟩ : Place).after sampleFormat 3 = ⟨1, 0, 1⟩ := by
  simp only [Place.Valid]; decide

end Verif.Store
