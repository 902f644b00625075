import Verif.Store.WordLemmas

/-!
# Lemmas on the encoding of words
-/
namespace Verif.Store

theorem erased_get (f : Field) (hf : f.pos + f.len ≤ 32) : f.get erasedWord = f.mask := by
  apply Nat.eq_of_testBit_eq
  intro i
  rw [get_testBit, Field.mask, Nat.testBit_two_pow_sub_one]
  by_cases h : i < f.len
  · rw [erased_bit (by omega)]; simp [h]
  · simp [h]

theorem erased_checksum : wordChecksum.checksum erasedWord = .ok 31 := by
  rw [checksum_eq _ _ (by decide)]
  have h1 : wordChecksum.get erasedWord = 31 := by decide +kernel
  have h2 : zerosBelow wordChecksum.pos erasedWord = 0 := by decide +kernel
  rw [h1, h2]; rfl

/-- A word with a correct checksum. -/
def Sealed (w : Word) : Prop := wordChecksum.checksum w = .ok 0

theorem Sealed.ne_erased {w : Word} (h : Sealed w) : w ≠ erasedWord := by
  intro e
  rw [e, Sealed, erased_checksum] at h
  cases h

/-- A word from which bits remain to be cleared is recognized. -/
theorem Sealed.above {w w' : Word} (h : Sealed w) (hle : Le w w') (hne : w' ≠ w) :
    ∃ c, wordChecksum.checksum w' = .ok c ∧ c ≠ 0 := by
  obtain ⟨c, h1, _, h3⟩ := checksum_mono (by decide) hle h
  exact ⟨c, h1, fun e => hne (h3 e)⟩

/-! ## Init and compact words -/

theorem buildInit_ok {c p : Nat} (hc : c < 65536) (hp : p < 512) :
    ∃ w, buildInit ⟨c, p⟩ = .ok w ∧ Sealed w ∧ initCycle.get w = c ∧ initPrefix.get w = p := by
  let w1 := initCycle.put erasedWord c
  let w2 := initPrefix.put w1 p
  let w3 := wordChecksum.put w2 (zeros w2 + 0)
  have b1 : ∀ i, 16 ≤ i → i < 32 → w1.getLsbD i = true := fun i h1 h2 => by
    show (initCycle.put erasedWord c).getLsbD i = true
    rw [put_bit_out initCycle _ _ _ hc h2 (.inr h1), erased_bit h2]
  have e1 : initCycle.set erasedWord c = .ok w1 := set_eq (by decide) hc (fun i hi _ => erased_bit (by
    simp only [initCycle] at hi ⊢; omega))
  have e2 : initPrefix.set w1 p = .ok w2 := set_eq (by decide) hp (fun i hi _ => b1 _ (by simp [initPrefix]) (by
    simp only [initPrefix] at hi ⊢; omega))
  have b2 : ∀ i, 25 ≤ i → i < 32 → w2.getLsbD i = true := fun i h1 h2 => by
    show (initPrefix.put w1 p).getLsbD i = true
    rw [put_bit_out initPrefix _ _ _ hp h2 (.inr h1), b1 i (by omega) h2]
  have hz : zeros w2 ≤ 25 := zeros_top (by omega) b2
  have e3 : wordChecksum.setChecksum w2 0 = .ok w3 :=
    setChecksum_eq (by decide) (fun i h1 h2 => b2 i (by simp only [wordChecksum] at h1; omega) h2) (by
      show zeros w2 + 0 < 32; omega)
  have hs := setChecksum_ok (by decide) (fun i h1 h2 => b2 i (by simp only [wordChecksum] at h1; omega) h2) e3
  have hzz : zeros w2 + 0 < 2 ^ wordChecksum.len := by show zeros w2 + 0 < 32; omega
  refine ⟨w3, ?_, hs.1, ?_, ?_⟩
  · simp only [buildInit, e1, e2, e3, bind, Except.bind]
  · show initCycle.get (wordChecksum.put w2 (zeros w2 + 0)) = c
    rw [get_put_other wordChecksum initCycle w2 _ hzz (by decide) (by decide)]
    show initCycle.get (initPrefix.put w1 p) = c
    rw [get_put_other initPrefix initCycle w1 _ hp (by decide) (by decide)]
    exact (set_ok e1).2.2
  · show initPrefix.get (wordChecksum.put w2 (zeros w2 + 0)) = p
    rw [get_put_other wordChecksum initPrefix w2 _ hzz (by decide) (by decide)]
    exact (set_ok e2).2.2

theorem buildCompact_ok {t : Nat} (ht : t < 65536) :
    ∃ w, buildCompact t = .ok w ∧ Sealed w ∧ compactTail.get w = t := by
  let w1 := compactTail.put erasedWord t
  let w3 := wordChecksum.put w1 (zeros w1 + 0)
  have b1 : ∀ i, 16 ≤ i → i < 32 → w1.getLsbD i = true := fun i h1 h2 => by
    show (compactTail.put erasedWord t).getLsbD i = true
    rw [put_bit_out compactTail _ _ _ ht h2 (.inr h1), erased_bit h2]
  have e1 : compactTail.set erasedWord t = .ok w1 := set_eq (by decide) ht (fun i hi _ => erased_bit (by
    simp only [compactTail] at hi ⊢; omega))
  have hz : zeros w1 ≤ 16 := zeros_top (by omega) b1
  have hzz : zeros w1 + 0 < 2 ^ wordChecksum.len := by show zeros w1 + 0 < 32; omega
  have e3 : wordChecksum.setChecksum w1 0 = .ok w3 :=
    setChecksum_eq (by decide) (fun i h1 h2 => b1 i (by simp only [wordChecksum] at h1; omega) h2) hzz
  have hs := setChecksum_ok (by decide) (fun i h1 h2 => b1 i (by simp only [wordChecksum] at h1; omega) h2) e3
  refine ⟨w3, ?_, hs.1, ?_⟩
  · simp only [buildCompact, e1, e3, bind, Except.bind]
  · show compactTail.get (wordChecksum.put w1 (zeros w1 + 0)) = t
    rw [get_put_other wordChecksum compactTail w1 _ hzz (by decide) (by decide)]
    exact (set_ok e1).2.2

theorem parseInit_sealed (F : Format) {w : Word} (h : Sealed w) (h1 : initCycle.get w ≤ F.maxErases) (h2 : initPrefix.get w ≤ F.M) :
    parseInit F w = .ok (.valid ⟨initCycle.get w, initPrefix.get w⟩) := by
  have hc : wordChecksum.checksum w = .ok 0 := h
  simp only [parseInit, h.ne_erased, if_false, hc, bind, Except.bind]
  simp [Nat.not_lt.2 h1, Nat.not_lt.2 h2]

theorem parseInit_above (F : Format) {w w' : Word} (h : Sealed w) (hle : Le w w') (hne : w' ≠ w) :
    parseInit F w' = .ok (if w' = erasedWord then .erased else .partly) := by
  obtain ⟨c, h1, h2⟩ := h.above hle hne
  by_cases he : w' = erasedWord
  · simp [parseInit, he]
  · simp only [parseInit, he, if_false, h1, bind, Except.bind]
    simp [h2]

theorem parseCompact_sealed (F : Format) {w : Word} (h : Sealed w) (h1 : compactTail.get w ≤ F.W) :
    parseCompact F w = .ok (.valid (compactTail.get w)) := by
  have hc : wordChecksum.checksum w = .ok 0 := h
  simp only [parseCompact, h.ne_erased, if_false, hc, bind, Except.bind]
  simp [Nat.not_lt.2 h1]

theorem parseCompact_above (F : Format) {w w' : Word} (h : Sealed w) (hle : Le w w') (hne : w' ≠ w) :
    parseCompact F w' = .ok (if w' = erasedWord then .erased else .partly) := by
  obtain ⟨c, h1, h2⟩ := h.above hle hne
  by_cases he : w' = erasedWord
  · simp [parseCompact, he]
  · simp only [parseCompact, he, if_false, h1, bind, Except.bind]
    simp [h2]

/-! ## Internal entries -/

/-- The parameter of an internal entry is in range. -/
def Internal.InRange (F : Format) (e : Internal) : Prop := e.invalid F = false

theorem Internal.field_ok (F : Format) (hN : F.numPages ≤ 64) (hN0 : 0 < F.numPages) (e : Internal) (h : e.InRange F) :
    e.fields.2.1.pos = 5 ∧ 5 + e.fields.2.1.len ≤ 17 ∧ e.fields.2.2 < 2 ^ e.fields.2.1.len ∧ e.fields.1 < 32 := by
  cases e <;> simp [Internal.InRange, Internal.invalid, Internal.fields, erasePage, clearMinKey, markerCount, removeKey,
    maxKey, maxUpdates, Format.N] at h ⊢ <;> omega

theorem buildInternal_ok (F : Format) (hN : F.numPages ≤ 64) (hN0 : 0 < F.numPages) (e : Internal) (h : e.InRange F) :
    ∃ w, buildInternal e = .ok w ∧ Sealed w ∧ idInternal.get w = e.fields.1 ∧ e.fields.2.1.get w = e.fields.2.2 := by
  obtain ⟨f1, f2, f3, f4⟩ := e.field_ok F hN hN0 h
  obtain ⟨f, hf⟩ : ∃ f, f = e.fields.2.1 := ⟨_, rfl⟩
  obtain ⟨v, hv⟩ : ∃ v, v = e.fields.2.2 := ⟨_, rfl⟩
  rw [← hf, ← hv] at f3
  rw [← hf] at f1 f2
  rw [← hf, ← hv]
  let w1 := idInternal.put erasedWord e.fields.1
  let w2 := f.put w1 v
  let w3 := wordChecksum.put w2 (zeros w2 + 0)
  have b1 : ∀ i, 5 ≤ i → i < 32 → w1.getLsbD i = true := fun i h1 h2 => by
    show (idInternal.put erasedWord _).getLsbD i = true
    rw [put_bit_out idInternal _ _ _ f4 h2 (.inr h1), erased_bit h2]
  have e1 : idInternal.set erasedWord e.fields.1 = .ok w1 := set_eq (by decide) f4 (fun i hi _ => erased_bit (by
    simp only [idInternal] at hi ⊢; omega))
  have e2 : f.set w1 v = .ok w2 := set_eq (by show f.pos + f.len ≤ 32; omega) f3 (fun i hi _ => b1 _ (by omega) (by omega))
  have b2 : ∀ i, 17 ≤ i → i < 32 → w2.getLsbD i = true := fun i h1 h2 => by
    show (f.put w1 v).getLsbD i = true
    rw [put_bit_out f _ _ _ f3 h2 (.inr (by omega)), b1 i (by omega) h2]
  have hz : zeros w2 ≤ 17 := zeros_top (by omega) b2
  have hzz : zeros w2 + 0 < 2 ^ wordChecksum.len := by show zeros w2 + 0 < 32; omega
  have e3 : wordChecksum.setChecksum w2 0 = .ok w3 :=
    setChecksum_eq (by decide) (fun i h1 h2 => b2 i (by simp only [wordChecksum] at h1; omega) h2) hzz
  have hs := setChecksum_ok (by decide) (fun i h1 h2 => b2 i (by simp only [wordChecksum] at h1; omega) h2) e3
  have hout : wordChecksum.pos = 27 := rfl
  refine ⟨w3, ?_, hs.1, ?_, ?_⟩
  · show (do
      let w ← idInternal.set erasedWord e.fields.1
      let w ← e.fields.2.1.set w e.fields.2.2
      wordChecksum.setChecksum w 0) = .ok w3
    rw [e1, ← hf, ← hv]
    show (do
      let w ← f.set w1 v
      wordChecksum.setChecksum w 0) = .ok w3
    rw [e2]
    exact e3
  · show idInternal.get (wordChecksum.put w2 (zeros w2 + 0)) = _
    rw [get_put_other wordChecksum idInternal w2 _ hzz (by decide) (by decide)]
    show idInternal.get (f.put w1 v) = _
    rw [get_put_other f idInternal w1 _ f3 (by decide) (.inr (by show 0 + 5 ≤ f.pos; omega))]
    exact (set_ok e1).2.2
  · show f.get (wordChecksum.put w2 (zeros w2 + 0)) = v
    rw [get_put_other wordChecksum f w2 _ hzz (by omega) (.inr (by omega))]
    exact (set_ok e2).2.2

theorem bit_of_get {f : Field} {w : Word} (i : Nat) (h1 : f.pos ≤ i) (h2 : i < f.pos + f.len) :
    w.getLsbD i = (f.get w).testBit (i - f.pos) := by
  rw [get_testBit]
  have e : f.pos + (i - f.pos) = i := by omega
  have : i - f.pos < f.len := by omega
  simp [e, this]

/-- The two low bits of an internal entry are set. -/
theorem Internal.low_bits {e : Internal} {w : Word} (h : idInternal.get w = e.fields.1) :
    w.getLsbD 0 = true ∧ w.getLsbD 1 = true ∧ w.getLsbD 2 = false := by
  refine ⟨?_, ?_, ?_⟩ <;>
    (rw [bit_of_get (f := idInternal) _ (by decide) (by decide), h]; cases e <;> simp only [Internal.fields, idInternal] <;> decide)

theorem idHeader_of_bits {w : Word} (h0 : w.getLsbD 0 = true) (h1 : w.getLsbD 1 = true) : idHeader.get w ≠ 1 := by
  intro h
  have := bit_of_get (f := idHeader) (w := w) 1 (by decide) (by decide)
  rw [h, h1] at this
  exact absurd this (by decide)

theorem parseWord_internal (F : Format) {e : Internal} {w : Word} (hr : e.InRange F) (hs : Sealed w)
    (hid : idInternal.get w = e.fields.1) (hp : e.fields.2.1.get w = e.fields.2.2) :
    parseWord F w = .ok (.valid (.internal e)) := by
  obtain ⟨b0, b1, _⟩ := Internal.low_bits hid
  have hc : wordChecksum.checksum w = .ok 0 := hs
  have hr' : e.invalid F = false := hr
  have hci : ∀ e', e' = e → checkInternal F w e' = .ok (.valid (.internal e)) := by
    rintro e' rfl
    simp [checkInternal, hc, bind, Except.bind, hr']
  simp only [parseWord, b0, idHeader_of_bits b0 b1, Bool.not_true, Bool.false_eq_true, if_false]
  cases e <;> simp only [Internal.fields] at hid hp <;> rw [hid] <;> simp [hp, hci]

theorem checkInternal_partly (F : Format) {w : Word} {c : Nat} (hc : wordChecksum.checksum w = .ok c) (h : c ≠ 0) (e : Internal) :
    checkInternal F w e = .ok .partly := by
  simp [checkInternal, hc, bind, Except.bind, h]

/-- An interrupted write of an internal entry. -/
theorem parseWord_internal_above (F : Format) {e : Internal} {w w' : Word} (hs : Sealed w)
    (hid : idInternal.get w = e.fields.1) (hle : Le w w') (hne : w' ≠ w) :
    parseWord F w' = .ok (if w' = erasedWord then .erased else .partly) := by
  obtain ⟨b0, b1, _⟩ := Internal.low_bits hid
  have b0 := hle 0 (by omega) b0
  have b1 := hle 1 (by omega) b1
  obtain ⟨c, h1, h2⟩ := hs.above hle hne
  simp only [parseWord, b0, idHeader_of_bits b0 b1, Bool.not_true, Bool.false_eq_true, if_false,
    checkInternal_partly F h1 h2]
  by_cases he : w' = erasedWord
  · have h3 : idInternal.get w' = 31 := by rw [he]; decide
    rw [h3]
    simp [he]
  · simp only [he, if_false]
    repeat' split
    all_goals rfl

/-! ## User headers -/

theorem bitSet_bit (p : Nat) (w : Word) (i : Nat) (hi : i < 32) : (bitSet p w).getLsbD i = (w.getLsbD i && !decide (i = p)) := by
  simp only [bitSet, BitVec.getLsbD_and, BitVec.getLsbD_not, BitVec.getLsbD_twoPow]
  have : decide (i < 32) = true := by simpa using hi
  by_cases h : i = p
  · subst h; simp [hi]
  · have h' : ¬ p = i := fun e => h e.symm
    simp [hi, h, h']

theorem bitSet_le (p : Nat) (w : Word) : Le (bitSet p w) w := and_le_left _ _

theorem get_bitSet_other (f : Field) (p : Nat) (w : Word) (hf : f.pos + f.len ≤ 32) (h : p < f.pos ∨ f.pos + f.len ≤ p) :
    f.get (bitSet p w) = f.get w := by
  apply Nat.eq_of_testBit_eq
  intro i
  rw [get_testBit, get_testBit]
  by_cases hi : i < f.len
  · rw [bitSet_bit p w _ (by omega)]
    have : ¬ f.pos + i = p := by omega
    simp [this]
  · simp [hi]

/-- The header of a complete user entry. -/
structure IsHeader (w : Word) (flip : Bool) (length key checksum : Nat) : Prop where
  id : idHeader.get w = 1
  live : w.getLsbD 2 = true
  flipped : w.getLsbD 3 = !flip
  len : headerLength.get w = length
  key : headerKey.get w = key
  sum : headerChecksum.checksum w = .ok checksum

theorem buildHeader_ok {key length fz : Nat} (flip : Bool) (hk : key < 4096) (hl : length < 1024) (hz : fz ≤ 32) :
    ∃ w, buildHeader key length flip fz = .ok w ∧ IsHeader w flip length key fz := by
  let w1 := idHeader.put erasedWord 1
  let w2 := if flip then bitSet headerFlipped w1 else w1
  let w3 := headerLength.put w2 length
  let w4 := headerKey.put w3 key
  let w5 := headerChecksum.put w4 (zeros w4 + fz)
  have b1 : ∀ i, 2 ≤ i → i < 32 → w1.getLsbD i = true := fun i h1 h2 => by
    show (idHeader.put erasedWord 1).getLsbD i = true
    rw [put_bit_out idHeader _ _ _ (by decide) h2 (.inr h1), erased_bit h2]
  have b2 : ∀ i, 2 ≤ i → i < 32 → i ≠ 3 → w2.getLsbD i = true := fun i h1 h2 h3 => by
    show (if flip then bitSet headerFlipped w1 else w1).getLsbD i = true
    cases flip
    · exact b1 i h1 h2
    · simp only [if_true]
      rw [bitSet_bit _ _ _ h2, b1 i h1 h2]
      simp [headerFlipped, h3]
  have e1 : idHeader.set erasedWord 1 = .ok w1 := set_eq (by decide) (by decide) (fun i hi _ => erased_bit (by
    simp only [idHeader] at hi ⊢; omega))
  have hl' : length < 2 ^ headerLength.len := hl
  have hk' : key < 2 ^ headerKey.len := hk
  have e3 : headerLength.set w2 length = .ok w3 := set_eq (by decide) hl' (fun i hi _ => b2 _ (by
    simp [headerLength]; omega) (by simp only [headerLength] at hi ⊢; omega) (by simp [headerLength]; omega))
  have b3 : ∀ i, 14 ≤ i → i < 32 → w3.getLsbD i = true := fun i h1 h2 => by
    show (headerLength.put w2 length).getLsbD i = true
    rw [put_bit_out headerLength _ _ _ hl' h2 (.inr h1), b2 i (by omega) h2 (by omega)]
  have e4 : headerKey.set w3 key = .ok w4 := set_eq (by decide) hk' (fun i hi _ => b3 _ (by
    simp [headerKey]) (by simp only [headerKey] at hi ⊢; omega))
  have b4 : ∀ i, 26 ≤ i → i < 32 → w4.getLsbD i = true := fun i h1 h2 => by
    show (headerKey.put w3 key).getLsbD i = true
    rw [put_bit_out headerKey _ _ _ hk' h2 (.inr h1), b3 i (by omega) h2]
  have hz4 : zeros w4 ≤ 26 := zeros_top (by omega) b4
  have hzz : zeros w4 + fz < 2 ^ headerChecksum.len := by show zeros w4 + fz < 64; omega
  have e5 : headerChecksum.setChecksum w4 fz = .ok w5 :=
    setChecksum_eq (by decide) (fun i h1 h2 => b4 i (by simp only [headerChecksum] at h1; omega) h2) hzz
  have hs := setChecksum_ok (by decide) (fun i h1 h2 => b4 i (by simp only [headerChecksum] at h1; omega) h2) e5
  have bit5 : ∀ i, i < 4 → w5.getLsbD i = w2.getLsbD i := fun i hi => by
    show (headerChecksum.put w4 (zeros w4 + fz)).getLsbD i = _
    rw [put_bit_out headerChecksum _ _ _ hzz (by omega) (.inl (by simp only [headerChecksum]; omega))]
    show (headerKey.put w3 key).getLsbD i = _
    rw [put_bit_out headerKey _ _ _ hk' (by omega) (.inl (by simp only [headerKey]; omega))]
    show (headerLength.put w2 length).getLsbD i = _
    rw [put_bit_out headerLength _ _ _ hl' (by omega) (.inl (by simp only [headerLength]; omega))]
  refine ⟨w5, ?_, ?_⟩
  · show (do
      let w ← idHeader.set erasedWord 1
      let w := if flip then bitSet headerFlipped w else w
      let w ← headerLength.set w length
      let w ← headerKey.set w key
      headerChecksum.setChecksum w fz) = .ok w5
    rw [e1]
    show (do
      let w ← headerLength.set w2 length
      let w ← headerKey.set w key
      headerChecksum.setChecksum w fz) = .ok w5
    rw [e3]
    show (do
      let w ← headerKey.set w3 key
      headerChecksum.setChecksum w fz) = .ok w5
    rw [e4]
    exact e5
  · constructor
    · show idHeader.get (headerChecksum.put w4 (zeros w4 + fz)) = 1
      rw [get_put_other headerChecksum idHeader w4 _ hzz (by decide) (by decide)]
      show idHeader.get (headerKey.put w3 key) = 1
      rw [get_put_other headerKey idHeader w3 _ hk' (by decide) (by decide)]
      show idHeader.get (headerLength.put w2 length) = 1
      rw [get_put_other headerLength idHeader w2 _ hl' (by decide) (by decide)]
      show idHeader.get (if flip then bitSet headerFlipped w1 else w1) = 1
      cases flip
      · exact (set_ok e1).2.2
      · simp only [if_true]
        rw [get_bitSet_other idHeader headerFlipped w1 (by decide) (by decide)]
        exact (set_ok e1).2.2
    · rw [bit5 2 (by omega), b2 2 (by omega) (by omega) (by omega)]
    · rw [bit5 3 (by omega)]
      show (if flip then bitSet headerFlipped w1 else w1).getLsbD 3 = _
      cases flip
      · exact b1 3 (by omega) (by omega)
      · simp only [if_true]
        rw [bitSet_bit _ _ _ (by omega)]
        simp [headerFlipped]
    · show headerLength.get (headerChecksum.put w4 (zeros w4 + fz)) = _
      rw [get_put_other headerChecksum headerLength w4 _ hzz (by decide) (by decide)]
      show headerLength.get (headerKey.put w3 key) = _
      rw [get_put_other headerKey headerLength w3 _ hk' (by decide) (by decide)]
      exact (set_ok e3).2.2
    · show headerKey.get (headerChecksum.put w4 (zeros w4 + fz)) = _
      rw [get_put_other headerChecksum headerKey w4 _ hzz (by decide) (by decide)]
      exact (set_ok e4).2.2
    · exact hs.1

theorem IsHeader.bit0 {w : Word} {flip : Bool} {l k c : Nat} (h : IsHeader w flip l k c) : w.getLsbD 0 = true := by
  rw [bit_of_get (f := idHeader) 0 (by decide) (by decide), h.id]; decide

theorem IsHeader.ne_erased {w : Word} {flip : Bool} {l k c : Nat} (h : IsHeader w flip l k c) : w ≠ erasedWord := by
  intro e
  have := h.id
  rw [e, erased_get _ (by decide)] at this
  exact absurd this (by decide)

theorem parseWord_header (F : Format) {w : Word} {flip : Bool} {l k c : Nat} (h : IsHeader w flip l k c) :
    parseWord F w = .ok (.valid (.header ⟨flip, l, k, c⟩)) := by
  have hf : bitGet headerFlipped w = flip := by
    show (!w.getLsbD 3) = flip
    rw [h.flipped]; simp
  have hd : bitGet headerDeleted w = false := by simp [bitGet, headerDeleted, h.live]
  simp only [parseWord, h.bit0, h.id, hd, h.sum, hf, h.len, h.key, bind, Except.bind]
  simp

/-- An interrupted write of a user header. -/
theorem parseWord_header_above (F : Format) {w w' : Word} {flip : Bool} {l k c : Nat} (h : IsHeader w flip l k c)
    (hle : Le w w') (hne : w' ≠ w) :
    parseWord F w' = .ok (if w' = erasedWord then .erased else .partly) ∨
      ∃ hd : Header, parseWord F w' = .ok (.valid (.header hd)) ∧ c < hd.checksum ∧ l ≤ hd.length := by
  have b0 := hle 0 (by omega) h.bit0
  have b2 := hle 2 (by omega) h.live
  obtain ⟨c', h1, h2, h3⟩ := checksum_mono (by decide) hle h.sum
  by_cases hid : idHeader.get w' = 1
  · right
    have hd : bitGet headerDeleted w' = false := by simp [bitGet, headerDeleted, b2]
    refine ⟨⟨bitGet headerFlipped w', headerLength.get w', headerKey.get w', c'⟩, ?_, ?_, ?_⟩
    · simp only [parseWord, b0, hid, hd, h1, bind, Except.bind]
      simp
    · show c < c'
      rcases Nat.lt_or_eq_of_le h2 with h4 | h4
      · exact h4
      · exact absurd (h3 h4.symm) hne
    · show l ≤ headerLength.get w'
      rw [← h.len]
      exact get_mono _ (by decide) hle
  · left
    have hi : ∀ n, n.testBit 2 = false → idInternal.get w' ≠ n := by
      intro n hn e
      have := bit_of_get (f := idInternal) (w := w') 2 (by decide) (by decide)
      rw [e, b2] at this
      have e2 : 2 - idInternal.pos = 2 := rfl
      rw [e2, hn] at this
      cases this
    have e1 := hi 0b00011 (by decide)
    have e2 := hi 0b10011 (by decide)
    have e3 := hi 0b01011 (by decide)
    have e4 := hi 0b11011 (by decide)
    simp only [parseWord, b0, hid, e1, e2, e3, e4, Bool.not_true, Bool.false_eq_true, if_false]
    by_cases he : w' = erasedWord <;> simp [he]

/-- Deleting a user entry. -/
theorem parseWord_deleted (F : Format) {w : Word} {flip : Bool} {l k c : Nat} (h : IsHeader w flip l k c) (hl : l ≤ F.maxValueLen) :
    parseWord F (bitSet headerDeleted w) = .ok (.valid (.padding (bytesToWords l))) := by
  have b0 : (bitSet headerDeleted w).getLsbD 0 = true := by
    rw [bitSet_bit _ _ _ (by omega), h.bit0]; rfl
  have b2 : (bitSet headerDeleted w).getLsbD 2 = false := by
    rw [bitSet_bit _ _ _ (by omega)]; simp [headerDeleted]
  have hid : idHeader.get (bitSet headerDeleted w) = 1 := by
    rw [get_bitSet_other _ _ _ (by decide) (by decide), h.id]
  have hlen : headerLength.get (bitSet headerDeleted w) = l := by
    rw [get_bitSet_other _ _ _ (by decide) (by decide), h.len]
  have hd : bitGet headerDeleted (bitSet headerDeleted w) = true := by
    show (!(bitSet headerDeleted w).getLsbD 2) = true
    rw [b2]; rfl
  simp only [parseWord, b0, hid, hd, hlen]
  simp [Nat.not_lt.2 hl]

/-- Marking a word as padding. -/
theorem setPadding_ok (w : Word) : setPaddingWord w = .ok (bitSet 0 w) ∧ Le (bitSet 0 w) w := by
  refine ⟨?_, bitSet_le 0 w⟩
  have h := set_eq (f := ⟨0, 1⟩) (w := w) (v := 0) (by decide) (by decide) (fun i _ h => by simp at h)
  rw [setPaddingWord, h]
  refine congrArg Except.ok ?_
  apply BitVec.eq_of_getLsbD_eq
  intro i hi
  rw [put_bit _ _ _ _ (by decide) hi, bitSet_bit _ _ _ hi]
  by_cases h0 : i = 0
  · subst h0; simp
  · have : ¬ i < 0 + 1 := by omega
    simp only [Nat.zero_le, true_and, this, if_false]
    simp [h0]

theorem parseWord_padding (F : Format) (w : Word) (h : w.getLsbD 0 = false) : parseWord F w = .ok (.valid (.padding 0)) := by
  simp only [parseWord, h]
  rfl

theorem parseWord_padded (F : Format) (w : Word) : parseWord F (bitSet 0 w) = .ok (.valid (.padding 0)) := by
  apply parseWord_padding
  rw [bitSet_bit _ _ _ (by omega)]
  simp

/-- Clearing one bit is not interruptible. -/
theorem bitSet_between {p : Nat} {w w' : Word} (h1 : Le (bitSet p w) w') (h2 : Le w' w) : w' = w ∨ w' = bitSet p w := by
  by_cases hp : p < 32 ∧ w'.getLsbD p = true
  · left
    refine Le.antisymm h2 ?_
    intro i hi hb
    by_cases e : i = p
    · subst e; exact hp.2
    · apply h1 i hi
      rw [bitSet_bit _ _ _ hi]; simp [hb, e]
  · right
    refine Le.antisymm ?_ h1
    intro i hi hb
    rw [bitSet_bit _ _ _ hi, h2 i hi hb]
    have : i ≠ p := by rintro rfl; exact hp ⟨hi, hb⟩
    simp [this]

theorem parseWord_erased (F : Format) : parseWord F erasedWord = .ok .erased := by
  have h : ∀ (x : Nat), x ≠ 31 → ¬ idInternal.get erasedWord = x := fun x hx e => hx (e ▸ by decide +kernel)
  have h0 : erasedWord.getLsbD 0 = true := by decide +kernel
  have h1 : ¬ idHeader.get erasedWord = 1 := by decide +kernel
  simp only [parseWord, h0, h1, h _ (show (0b00011 : Nat) ≠ 31 by decide), h _ (show (0b10011 : Nat) ≠ 31 by decide),
    h _ (show (0b01011 : Nat) ≠ 31 by decide), h _ (show (0b11011 : Nat) ≠ 31 by decide)]
  simp

/-! ## Values -/

theorem wordBytes_leWord (a b c d : UInt8) : wordBytes (leWord a b c d) = [a, b, c, d] := by
  have h : ∀ (x y : UInt8), x.toBitVec = y.toBitVec → x = y := fun _ _ h => UInt8.toBitVec_inj.1 h
  have e : ∀ (k : Nat) (x : UInt8), (∀ i, i < 8 → (leWord a b c d).getLsbD (k + i) = x.toBitVec.getLsbD i) →
      (⟨(leWord a b c d).extractLsb' k 8⟩ : UInt8) = x := by
    intro k x hx
    apply h
    apply BitVec.eq_of_getLsbD_eq
    intro i hi
    show ((leWord a b c d).extractLsb' k 8).getLsbD i = _
    rw [BitVec.getLsbD_extractLsb', hx i hi]
    simp [hi]
  have hb : ∀ i, (leWord a b c d).getLsbD i
      = if i < 8 then a.toBitVec.getLsbD i else if i - 8 < 8 then b.toBitVec.getLsbD (i - 8)
        else if i - 8 - 8 < 8 then c.toBitVec.getLsbD (i - 8 - 8) else d.toBitVec.getLsbD (i - 8 - 8 - 8) := by
    intro i
    simp only [leWord, BitVec.getLsbD_append]
  simp only [wordBytes]
  rw [e 0 a, e 8 b, e 16 c, e 24 d]
  all_goals
    intro i hi
    rw [hb]
  · rw [if_neg (by omega), if_neg (by omega), if_neg (by omega)]; congr 1; omega
  · rw [if_neg (by omega), if_neg (by omega), if_pos (by omega)]; congr 1; omega
  · rw [if_neg (by omega), if_pos (by omega)]; congr 1; omega
  · rw [if_pos (by omega)]; congr 1; omega

theorem toWords_length (v : Bytes) : (toWords v).length = bytesToWords v.length := by
  induction v using toWords.induct with
  | case1 => rfl
  | case2 => simp [toWords, bytesToWords]
  | case3 => simp [toWords, bytesToWords]
  | case4 => simp [toWords, bytesToWords]
  | case5 a b c d rest ih =>
    simp only [toWords, List.length_cons, ih, bytesToWords]
    omega

theorem storedWords_length (v : Bytes) : (storedWords v).length = bytesToWords v.length := by
  rw [← toWords_length]
  simp only [storedWords]
  split
  · rename_i h
    cases hw : toWords v with
    | nil => rw [hw] at h; simp [needsFlip] at h
    | cons x xs => simp
  · rfl

theorem fromWords_cons (w : Word) (ws : List Word) : fromWords (w :: ws) = wordBytes w ++ fromWords ws := rfl

theorem fromWords_toWords (v : Bytes) : (fromWords (toWords v)).take v.length = v := by
  induction v using toWords.induct with
  | case1 => rfl
  | case2 a => simp [toWords, fromWords_cons, wordBytes_leWord]
  | case3 a b => simp [toWords, fromWords_cons, wordBytes_leWord]
  | case4 a b c => simp [toWords, fromWords_cons, wordBytes_leWord]
  | case5 a b c d rest ih =>
    simp only [toWords, fromWords_cons, wordBytes_leWord]
    simpa using ih

theorem erased_bytes : wordBytes erasedWord = [0xff, 0xff, 0xff, 0xff] := by decide +kernel
theorem marked_bytes : wordBytes 0x7fffffff#32 = [0xff, 0xff, 0xff, 0x7f] := by decide +kernel
theorem fromWords_nil : fromWords [] = [] := rfl

theorem flipped_value (v : Bytes) (h : needsFlip (toWords v) = true) :
    ((fromWords ((toWords v).dropLast ++ [0x7fffffff])).take v.length).length ≠ 0 ∧
      ((fromWords ((toWords v).dropLast ++ [0x7fffffff])).take v.length).dropLast ++ [0xff] = v := by
  induction v using toWords.induct with
  | case1 => simp [toWords, needsFlip] at h
  | case2 a =>
    simp only [toWords, needsFlip, List.getLast?_singleton, beq_iff_eq, Option.some.injEq] at h
    have := congrArg wordBytes h
    rw [wordBytes_leWord, erased_bytes] at this
    simp only [List.cons.injEq] at this
    obtain ⟨rfl, _⟩ := this
    simp [toWords, fromWords_cons, marked_bytes, fromWords_nil]
  | case3 a b =>
    simp only [toWords, needsFlip, List.getLast?_singleton, beq_iff_eq, Option.some.injEq] at h
    have := congrArg wordBytes h
    rw [wordBytes_leWord, erased_bytes] at this
    simp only [List.cons.injEq] at this
    obtain ⟨rfl, rfl, _⟩ := this
    simp [toWords, fromWords_cons, marked_bytes, fromWords_nil]
  | case4 a b c =>
    simp only [toWords, needsFlip, List.getLast?_singleton, beq_iff_eq, Option.some.injEq] at h
    have := congrArg wordBytes h
    rw [wordBytes_leWord, erased_bytes] at this
    simp only [List.cons.injEq] at this
    obtain ⟨rfl, rfl, rfl, _⟩ := this
    simp [toWords, fromWords_cons, marked_bytes, fromWords_nil]
  | case5 a b c d rest ih =>
    cases hr : toWords rest with
    | nil =>
      have hlen := toWords_length rest
      rw [hr] at hlen
      have hrest : rest = [] := by
        cases rest with
        | nil => rfl
        | cons x xs => simp only [List.length_cons, List.length_nil, bytesToWords] at hlen; omega
      subst hrest
      simp only [toWords, needsFlip, List.getLast?_singleton, beq_iff_eq, Option.some.injEq] at h
      have := congrArg wordBytes h
      rw [wordBytes_leWord, erased_bytes] at this
      simp only [List.cons.injEq] at this
      obtain ⟨rfl, rfl, rfl, rfl, _⟩ := this
      simp [toWords, fromWords_cons, marked_bytes, fromWords_nil]
    | cons x xs =>
      have h' : needsFlip (toWords rest) = true := by
        simp only [toWords, needsFlip, hr] at h ⊢
        simpa [List.getLast?_cons_cons] using h
      have := ih h'
      have e : (toWords (a :: b :: c :: d :: rest)).dropLast = leWord a b c d :: (toWords rest).dropLast := by
        simp only [toWords, hr]; rfl
      rw [e, List.cons_append, fromWords_cons, wordBytes_leWord]
      have hne := this.1
      generalize hX : (fromWords ((toWords rest).dropLast ++ [0x7fffffff])).take rest.length = X at this hne
      have e2 : ([a, b, c, d] ++ fromWords ((toWords rest).dropLast ++ [0x7fffffff])).take (a :: b :: c :: d :: rest).length
          = a :: b :: c :: d :: X := by
        simp only [List.length_cons, List.cons_append, List.nil_append, List.take_succ_cons, hX]
      rw [e2]
      refine ⟨by simp, ?_⟩
      cases X with
      | nil => simp at hne
      | cons y ys => simp only [List.dropLast_cons₂, List.cons_append, this.2]

/-- The last word of a value is not erased, so that its presence can be recognized. -/
theorem stored_last_ne (v : Bytes) (h : storedWords v ≠ []) : (storedWords v).getLastD erasedWord ≠ erasedWord := by
  simp only [storedWords] at h ⊢
  split
  · rw [List.getLastD_concat]; decide
  · rename_i hn
    rw [if_neg hn] at h
    cases hw : (toWords v).getLast? with
    | none => simp [List.getLast?_eq_none_iff] at hw; exact absurd hw h
    | some x =>
      have : (toWords v).getLastD erasedWord = x := by
        rw [List.getLastD_eq_getLast?, hw]; rfl
      rw [this]
      rintro rfl
      exact hn (by simp [needsFlip, hw])

theorem buildUser_ok {key : Nat} {v : Bytes} (hk : key ≤ maxKey) (hl : v.length ≤ 1023) :
    ∃ hw, buildUser key v = .ok (hw :: storedWords v) ∧
      IsHeader hw (needsFlip (toWords v)) v.length key (zeros ((storedWords v).getLastD erasedWord)) := by
  simp only [maxKey] at hk
  obtain ⟨w, h1, h2⟩ := buildHeader_ok (needsFlip (toWords v)) (key := key) (length := v.length)
    (by omega) (by omega) (zeros_le ((storedWords v).getLastD erasedWord))
  refine ⟨w, ?_, h2⟩
  simp only [buildUser, h1, bind, Except.bind]

end Verif.Store
