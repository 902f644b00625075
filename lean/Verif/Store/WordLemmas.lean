import Verif.Store.Word

/-!
# Lemmas on words, fields and checksums
-/
namespace Verif.Store

/-- `w` is reached from `w'` by clearing bits. -/
def Le (w w' : Word) : Prop := ∀ i, i < 32 → w.getLsbD i = true → w'.getLsbD i = true

theorem Le.refl (w : Word) : Le w w := fun _ _ h => h
theorem Le.trans {a b c : Word} (h1 : Le a b) (h2 : Le b c) : Le a c := fun i hi h => h2 i hi (h1 i hi h)
theorem Le.antisymm {a b : Word} (h1 : Le a b) (h2 : Le b a) : a = b := by
  apply BitVec.eq_of_getLsbD_eq
  intro i hi
  have a1 := h1 i hi
  have a2 := h2 i hi
  cases h : a.getLsbD i <;> cases h' : b.getLsbD i <;> simp_all

theorem erased_bit {i : Nat} (h : i < 32) : erasedWord.getLsbD i = true := by
  simp only [erasedWord, BitVec.getLsbD_allOnes, h, decide_true]

theorem le_erased (w : Word) : Le w erasedWord := fun _ h _ => erased_bit h
theorem le_zero (w : Word) : Le 0 w := fun i _ h => by simp at h

theorem le_and {a b : Word} (h : Le a b) : b &&& a = a := by
  apply BitVec.eq_of_getLsbD_eq
  intro i hi
  have := h i hi
  simp only [BitVec.getLsbD_and]
  cases h : a.getLsbD i <;> simp_all

theorem and_le_left (a b : Word) : Le (a &&& b) a := fun i _ h => by simp at h; exact h.1
theorem and_le_right (a b : Word) : Le (a &&& b) b := fun i _ h => by simp at h; exact h.2
theorem le_or_left (a b : Word) : Le a (a ||| b) := fun i _ h => by simp [h]

theorem erased_le {w : Word} (h : Le erasedWord w) : w = erasedWord := Le.antisymm (le_erased w) h

/-! ## Fields -/

theorem get_testBit (f : Field) (w : Word) (i : Nat) :
    (f.get w).testBit i = (decide (i < f.len) && w.getLsbD (f.pos + i)) := by
  simp only [Field.get, Field.mask, Nat.testBit_and, Nat.testBit_shiftRight, Nat.testBit_two_pow_sub_one,
    BitVec.testBit_toNat, Bool.and_comm]

theorem get_lt (f : Field) (w : Word) : f.get w < 2 ^ f.len := by
  simp only [Field.get, Field.mask]
  have := Nat.and_le_right (n := w.toNat >>> f.pos) (m := 2 ^ f.len - 1)
  have h2 : 0 < 2 ^ f.len := Nat.two_pow_pos _
  omega

theorem mask_fits {f : Field} {v : Nat} : v &&& f.mask = v ↔ v < 2 ^ f.len := by
  simp only [Field.mask, Nat.and_two_pow_sub_one_eq_mod]
  constructor
  · intro h; rw [← h]; exact Nat.mod_lt _ (Nat.two_pow_pos _)
  · exact Nat.mod_eq_of_lt

/-- The word with a field replaced, if only bits of the field need to be cleared. -/
def Field.put (f : Field) (w : Word) (v : Nat) : Word :=
  w &&& (~~~(BitVec.ofNat 32 (f.mask <<< f.pos)) ||| BitVec.ofNat 32 (v <<< f.pos))

theorem put_bit (f : Field) (w : Word) (v i : Nat) (hv : v < 2 ^ f.len) (hi : i < 32) :
    (f.put w v).getLsbD i
      = if f.pos ≤ i ∧ i < f.pos + f.len then w.getLsbD i && v.testBit (i - f.pos) else w.getLsbD i := by
  simp only [Field.put, Field.mask, BitVec.getLsbD_and, BitVec.getLsbD_or, BitVec.getLsbD_not, BitVec.getLsbD_ofNat,
    Nat.testBit_shiftLeft, Nat.testBit_two_pow_sub_one, hi, decide_true, Bool.true_and]
  by_cases h1 : f.pos ≤ i
  · by_cases h2 : i < f.pos + f.len
    · have : i - f.pos < f.len := by omega
      simp [h1, h2, this]
    · have h3 : ¬ i - f.pos < f.len := by omega
      simp [h1, h2, h3]
  · simp [h1]

theorem put_le (f : Field) (w : Word) (v : Nat) : Le (f.put w v) w := and_le_left _ _

theorem set_eq {f : Field} {w : Word} {v : Nat} (hf : f.pos + f.len ≤ 32) (hv : v < 2 ^ f.len)
    (hb : ∀ i, i < f.len → v.testBit i = true → w.getLsbD (f.pos + i) = true) : f.set w v = .ok (f.put w v) := by
  have hg : f.get (f.put w v) = v := by
    apply Nat.eq_of_testBit_eq
    intro i
    rw [get_testBit]
    by_cases h : i < f.len
    · have hp := put_bit f w v (f.pos + i) hv (by omega)
      rw [if_pos ⟨by omega, by omega⟩] at hp
      rw [hp]
      have e : f.pos + i - f.pos = i := by omega
      rw [e]
      have := hb i h
      cases hh : v.testBit i <;> simp_all
    · have : v.testBit i = false := Nat.testBit_lt_two_pow (Nat.lt_of_lt_of_le hv (Nat.pow_le_pow_right (by omega) (by omega)))
      simp [h, this]
  simp only [Field.set]
  rw [if_neg (by simpa using mask_fits.2 hv)]
  show (if f.get (f.put w v) ≠ v then _ else Except.ok (f.put w v)) = _
  rw [if_neg (by simpa using hg)]

/-- What a successful `Field::set` gives. -/
theorem set_ok {f : Field} {w w' : Word} {v : Nat} (h : f.set w v = .ok w') : w' = f.put w v ∧ v < 2 ^ f.len ∧ f.get w' = v := by
  simp only [Field.set] at h
  split at h
  · cases h
  · rename_i h1
    split at h
    · cases h
    · rename_i h2
      have h1 : v &&& f.mask = v := by simpa using h1
      have := Except.ok.inj h
      subst this
      exact ⟨rfl, mask_fits.1 h1, by simpa [Field.put] using h2⟩

theorem get_put (f : Field) (w : Word) (v : Nat) (hf : f.pos + f.len ≤ 32) (hv : v < 2 ^ f.len)
    (hb : ∀ i, i < f.len → v.testBit i = true → w.getLsbD (f.pos + i) = true) : f.get (f.put w v) = v := by
  have := set_ok (set_eq hf hv hb)
  exact this.2.2

/-- Another field is not affected. -/
theorem get_put_other (f g : Field) (w : Word) (v : Nat) (hv : v < 2 ^ f.len) (hg : g.pos + g.len ≤ 32)
    (h : f.pos + f.len ≤ g.pos ∨ g.pos + g.len ≤ f.pos) : g.get (f.put w v) = g.get w := by
  apply Nat.eq_of_testBit_eq
  intro i
  rw [get_testBit, get_testBit]
  by_cases hi : i < g.len
  · rw [put_bit f w v _ hv (by omega), if_neg (by omega)]
  · simp [hi]

theorem put_bit_out (f : Field) (w : Word) (v i : Nat) (hv : v < 2 ^ f.len) (hi : i < 32)
    (h : i < f.pos ∨ f.pos + f.len ≤ i) : (f.put w v).getLsbD i = w.getLsbD i := by
  rw [put_bit f w v i hv hi, if_neg (by omega)]

theorem get_mono (f : Field) {w w' : Word} (hf : f.pos + f.len ≤ 32) (h : Le w w') : f.get w ≤ f.get w' := by
  have : f.get w &&& f.get w' = f.get w := by
    apply Nat.eq_of_testBit_eq
    intro i
    rw [Nat.testBit_and, get_testBit, get_testBit]
    by_cases hi : i < f.len
    · have := h (f.pos + i) (by omega)
      cases hh : w.getLsbD (f.pos + i) <;> simp_all
    · simp [hi]
  rw [← this]
  exact Nat.and_le_right

theorem get_eq_bits {f : Field} {w w' : Word} (h : f.get w = f.get w') (i : Nat) (h1 : f.pos ≤ i) (h2 : i < f.pos + f.len) :
    w.getLsbD i = w'.getLsbD i := by
  have := congrArg (·.testBit (i - f.pos)) h
  simp only [get_testBit] at this
  have e : f.pos + (i - f.pos) = i := by omega
  rw [e] at this
  have : i - f.pos < f.len := by omega
  simp_all

/-! ## Counting zeros -/

/-- The number of zeros below a bit. -/
def zerosBelow (n : Nat) (w : Word) : Nat := (List.range n).countP fun i => !w.getLsbD i

theorem zerosBelow_succ (n : Nat) (w : Word) : zerosBelow (n + 1) w = zerosBelow n w + if w.getLsbD n then 0 else 1 := by
  simp only [zerosBelow, List.range_succ, List.countP_append]
  cases h : w.getLsbD n <;> simp [List.countP_cons, List.countP_nil, h]

theorem zerosBelow_mono {w w' : Word} (h : Le w w') : (n : Nat) → n ≤ 32 → zerosBelow n w' ≤ zerosBelow n w
  | 0, _ => Nat.le_refl _
  | n + 1, hn => by
    rw [zerosBelow_succ, zerosBelow_succ]
    have := zerosBelow_mono h n (by omega)
    have := h n (by omega)
    cases hh : w.getLsbD n <;> cases hh' : w'.getLsbD n <;> simp_all <;> omega

theorem zerosBelow_eq {w w' : Word} (h : Le w w') : (n : Nat) → n ≤ 32 → zerosBelow n w = zerosBelow n w' →
    ∀ i, i < n → w.getLsbD i = w'.getLsbD i
  | 0, _, _ => fun _ hi => absurd hi (by omega)
  | n + 1, hn, he => by
    rw [zerosBelow_succ, zerosBelow_succ] at he
    have hm := zerosBelow_mono h n (by omega)
    have hb := h n (by omega)
    have key : w.getLsbD n = w'.getLsbD n ∧ zerosBelow n w = zerosBelow n w' := by
      cases hh : w.getLsbD n <;> cases hh' : w'.getLsbD n <;> simp_all <;> omega
    intro i hi
    rcases Nat.lt_succ_iff_lt_or_eq.1 hi with h1 | rfl
    · exact zerosBelow_eq h n (by omega) key.2 i h1
    · exact key.1

theorem zeros_eq_below (w : Word) : zeros w = zerosBelow 32 w := rfl

theorem zerosBelow_le (n : Nat) (w : Word) : zerosBelow n w ≤ n := by
  have := List.countP_le_length (p := fun i => !w.getLsbD i) (l := List.range n)
  simpa [zerosBelow] using this

theorem zeros_le (w : Word) : zeros w ≤ 32 := zerosBelow_le 32 w

theorem zeros_mono {w w' : Word} (h : Le w w') : zeros w' ≤ zeros w := zerosBelow_mono h 32 (by omega)

theorem zeros_inj {w w' : Word} (h : Le w w') (he : zeros w = zeros w') : w = w' := by
  apply BitVec.eq_of_getLsbD_eq
  intro i hi
  exact zerosBelow_eq h 32 (by omega) he i hi

theorem zeros_erased : zeros erasedWord = 0 := by decide +kernel

theorem zeros_pos {w : Word} (h : w ≠ erasedWord) : 0 < zeros w := by
  cases hz : zeros w with
  | zero => exact absurd (zeros_inj (le_erased w) (by rw [hz, zeros_erased])) h
  | succ n => omega

theorem countP_bool_add (l : List Nat) (p : Nat → Bool) : l.countP (fun i => !p i) + l.countP p = l.length := by
  induction l with
  | nil => rfl
  | cons a l ih =>
    simp only [List.countP_cons, List.length_cons]
    cases p a <;> simp <;> omega

theorem ones_get (f : Field) (w : Word) (hf : f.pos + f.len = 32) :
    ones (f.get w) = (List.range f.len).countP fun i => w.getLsbD (f.pos + i) := by
  have e : ∃ m, 32 = f.len + m := ⟨f.pos, by omega⟩
  obtain ⟨m, hm⟩ := e
  simp only [ones]
  rw [show List.range 32 = List.range (f.len + m) from congrArg List.range hm, List.range_add, List.countP_append]
  have h1 : (List.range f.len).countP (fun i => (f.get w).testBit i) = (List.range f.len).countP fun i => w.getLsbD (f.pos + i) := by
    apply List.countP_congr
    intro i hi
    have : i < f.len := by simpa using hi
    rw [get_testBit]; simp [this]
  have h2 : ((List.range m).map (f.len + ·)).countP (fun i => (f.get w).testBit i) = 0 := by
    rw [List.countP_eq_zero]
    intro i hi
    obtain ⟨j, _, rfl⟩ := List.mem_map.1 hi
    rw [get_testBit]
    have : ¬ f.len + j < f.len := by omega
    simp [this]
  rw [h1, h2, Nat.add_zero]

/-- The zeros outside of a field at the end of the word. -/
theorem zeros_split (f : Field) (w : Word) (hf : f.pos + f.len = 32) :
    zeros w - (f.len - ones (f.get w)) = zerosBelow f.pos w := by
  rw [ones_get f w hf]
  have h1 : zeros w = zerosBelow f.pos w + (List.range f.len).countP fun i => !w.getLsbD (f.pos + i) := by
    simp only [zeros, zerosBelow]
    rw [show List.range 32 = List.range (f.pos + f.len) from congrArg List.range hf.symm, List.range_add,
      List.countP_append, List.countP_map]
    rfl
  have h2 := countP_bool_add (List.range f.len) fun i => w.getLsbD (f.pos + i)
  rw [List.length_range] at h2
  omega

theorem checksum_eq (f : Field) (w : Word) (hf : f.pos + f.len = 32) :
    f.checksum w = if f.get w < zerosBelow f.pos w then .error .invalidStorage else .ok (f.get w - zerosBelow f.pos w) := by
  simp only [Field.checksum]
  rw [zeros_split f w hf]

/-- Clearing bits of a word lowers the checksum: this is what makes interrupted writes recognizable. -/
theorem checksum_mono {f : Field} {w w' : Word} {c : Nat} (hf : f.pos + f.len = 32) (h : Le w w')
    (hc : f.checksum w = .ok c) : ∃ c', f.checksum w' = .ok c' ∧ c ≤ c' ∧ (c' = c → w' = w) := by
  rw [checksum_eq f w hf] at hc
  have hg := get_mono f (by omega) h
  have hz := zerosBelow_mono h f.pos (by omega)
  split at hc
  · cases hc
  · rename_i h1
    have := Except.ok.inj hc
    refine ⟨f.get w' - zerosBelow f.pos w', ?_, by omega, ?_⟩
    · rw [checksum_eq f w' hf, if_neg (by omega)]
    · intro he
      have e1 : f.get w = f.get w' := by omega
      have e2 : zerosBelow f.pos w = zerosBelow f.pos w' := by omega
      symm
      apply BitVec.eq_of_getLsbD_eq
      intro i hi
      by_cases hlt : i < f.pos
      · exact zerosBelow_eq h f.pos (by omega) e2 i hlt
      · exact get_eq_bits e1 i (by omega) (by omega)

/-- Setting the checksum of a word in which the field is erased. -/
theorem setChecksum_ok {f : Field} {w w' : Word} {v : Nat} (hf : f.pos + f.len = 32)
    (he : ∀ i, f.pos ≤ i → i < 32 → w.getLsbD i = true) (h : f.setChecksum w v = .ok w') :
    f.checksum w' = .ok v ∧ w' = f.put w (zeros w + v) ∧ zeros w + v < 2 ^ f.len := by
  obtain ⟨h1, h2, h3⟩ := set_ok h
  refine ⟨?_, h1, h2⟩
  rw [checksum_eq f w' hf, h3]
  have e : zerosBelow f.pos w' = zeros w := by
    have e1 : zerosBelow f.pos w' = zerosBelow f.pos w := by
      simp only [zerosBelow]
      apply List.countP_congr
      intro i hi
      have : i < f.pos := by simpa using hi
      rw [h1, put_bit_out f w _ i h2 (by omega) (.inl this)]
    rw [e1]
    have := zeros_split f w hf
    have h4 : f.len - ones (f.get w) = 0 := by
      rw [ones_get f w hf]
      have : (List.range f.len).countP (fun i => w.getLsbD (f.pos + i)) = (List.range f.len).length := by
        rw [List.countP_eq_length]
        intro i hi
        have : i < f.len := by simpa using hi
        exact he _ (by omega) (by omega)
      rw [this, List.length_range]; omega
    omega
  rw [e, if_neg (by omega)]
  congr 1; omega

theorem setChecksum_eq {f : Field} {w : Word} {v : Nat} (hf : f.pos + f.len = 32)
    (he : ∀ i, f.pos ≤ i → i < 32 → w.getLsbD i = true) (hv : zeros w + v < 2 ^ f.len) :
    f.setChecksum w v = .ok (f.put w (zeros w + v)) := by
  refine set_eq (by omega) hv ?_
  intro i hi _
  exact he _ (by omega) (by omega)

/-- Zeros of a word whose top bits are erased. -/
theorem zeros_top {w : Word} {n : Nat} (hn : n ≤ 32) (he : ∀ i, n ≤ i → i < 32 → w.getLsbD i = true) : zeros w ≤ n := by
  have : (m : Nat) → n ≤ m → m ≤ 32 → zerosBelow m w ≤ n := by
    intro m
    induction m with
    | zero => intro h _; have := zerosBelow_le 0 w; omega
    | succ m ih =>
      intro h1 h2
      rcases Nat.lt_or_ge m n with h3 | h3
      · have : m + 1 = n := by omega
        rw [this]; exact zerosBelow_le n w
      · rw [zerosBelow_succ, he m h3 (by omega)]
        have := ih h3 (by omega)
        simpa using this
  exact this 32 hn (Nat.le_refl _)

end Verif.Store
