import Verif.Store.LinearLemmas
import Verif.Store.SpecLinear

/-!
# C86: a storage can be used as one array of bytes
-/
namespace Verif.Store.Linear

theorem put_after (a : Nat → UInt8) (s : Nat) (v : List UInt8) : put a s v = Op.after a (.write s v) := by
  funext i
  simp only [put, Op.after]
  by_cases h : s ≤ i ∧ i < s + v.length
  · rw [if_pos h, dif_pos (by omega), List.getD_eq_getElem?_getD, List.getElem?_eq_getElem (by omega)]; rfl
  · rw [if_neg h, dif_neg (by omega)]

theorem wiped_after (a : Nat → UInt8) {s t : Nat} (h : s ≤ t) : wiped a s (t - s) = Op.after a (.erase s t) := by
  funext i
  simp only [wiped, Op.after]
  by_cases h1 : s ≤ i ∧ i < t
  · rw [if_pos h1, if_pos (by omega)]
  · rw [if_neg h1, if_neg (by omega)]

theorem offset_split {b : Buf} (o : Nat) : o / b.page * b.page + o % b.page = o := by
  rw [Nat.mul_comm]; exact Nat.div_add_mod o b.page

theorem apply_ok {al : Bool} {b : Buf} (hb : Good al b) {op : Op} (hi : op.Inside b.length) (ha : al = true → op.Aligned b.word) :
    ∃ b', b.apply op = .ok b' ∧ Same b b' ∧ b'.bytes = op.after b.bytes ∧ Good al b' := by
  cases op with
  | write o v =>
    simp only [Op.Inside, Buf.length] at hi
    obtain ⟨b', e1, e2, e3, e4⟩ := writeLoop_ok v.length hb (page := o / b.page) (byte := o % b.page) (v := v) (Nat.le_refl _)
      (Nat.mod_lt _ hb.page) (by rw [offset_split]; exact hi) (by
        intro h
        have := ha h
        refine ⟨?_, this.2⟩
        rw [Nat.mod_mod_of_dvd _ (Nat.dvd_of_mod_eq_zero hb.dvd)]
        exact this.1)
    refine ⟨b', ?_, e2, ?_, e4⟩
    · simp only [Buf.apply, Buf.write]
      rw [if_neg (show ¬ (b.length < v.length ∨ b.length - v.length < o) by unfold Buf.length; omega)]
      exact e1
    · rw [e3, offset_split, put_after]
  | erase s t =>
    simp only [Op.Inside, Buf.length] at hi
    obtain ⟨b', e1, e2, e3, e4⟩ := eraseLoop_ok (t - s) hb (page := s / b.page) (byte := s % b.page) (len := t - s) (Nat.le_refl _)
      (Nat.mod_lt _ hb.page) (by rw [offset_split]; omega) (by
        intro h
        have := ha h
        refine ⟨?_, ?_⟩
        · rw [Nat.mod_mod_of_dvd _ (Nat.dvd_of_mod_eq_zero hb.dvd)]
          exact this.1
        · obtain ⟨k, hk⟩ := Nat.dvd_of_mod_eq_zero this.1
          obtain ⟨m, hm⟩ := Nat.dvd_of_mod_eq_zero this.2
          rw [hk, hm, ← Nat.mul_sub]
          exact Nat.mul_mod_right _ _)
    refine ⟨b', ?_, e2, ?_, e4⟩
    · simp only [Buf.apply, Buf.erase]
      rw [if_neg (show ¬ (t < s ∨ b.length < t) by unfold Buf.length; omega)]
      exact e1
    · rw [e3, offset_split, wiped_after _ hi.1]

theorem apply_error {b : Buf} {op : Op} (hi : ¬ op.Inside b.length) : b.apply op = .error .outOfBounds := by
  cases op with
  | write o v =>
    simp only [Op.Inside] at hi
    simp only [Buf.apply, Buf.write]
    rw [if_pos (by omega)]
  | erase s t =>
    simp only [Op.Inside] at hi
    simp only [Buf.apply, Buf.erase]
    rw [if_pos (by omega)]

theorem Good.ofFresh {al : Bool} {b : Buf} (h : Fresh b) (hl : if al then 1 ≤ b.limit else b.word ≤ b.limit) : Good al b :=
  ⟨h.word, h.page, h.whole, hl, fun w => by rw [h.unwritten]; exact Nat.zero_le _⟩

theorem history_good {al : Bool} {b b' : Buf} {ops : List Op} (h : History b ops b') (hb : Good al b)
    (ha : al = true → ∀ op ∈ ops, op.Aligned b.word) :
    Same b b' ∧ Good al b' ∧ b'.bytes = afterAll b.bytes ops := by
  induction h with
  | nil b => exact ⟨Same.refl _, hb, rfl⟩
  | @step b b1 b2 op ops h1 _ ih =>
    have hin : op.Inside b.length := by
      by_cases hc : op.Inside b.length
      · exact hc
      · rw [apply_error hc] at h1; simp at h1
    obtain ⟨bx, e1, e2, e3, e4⟩ := apply_ok hb hin (fun h => ha h op (by simp))
    rw [h1] at e1
    obtain rfl : b1 = bx := by simpa using e1
    obtain ⟨i1, i2, i3⟩ := ih e4 (fun h o ho => by rw [e2.word]; exact ha h o (by simp [ho]))
    refine ⟨e2.trans i1, i2, ?_⟩
    rw [i3, e3]; rfl

theorem read_of_good {al : Bool} {b : Buf} (hb : Good al b) (start stop : Nat) :
    b.read start stop = if stop ≤ b.length ∨ stop ≤ start then .ok ((List.range (stop - start)).map fun i => b.bytes (start + i))
      else .error .outOfBounds := by
  unfold Buf.read Buf.length
  by_cases h1 : start < stop
  · rw [if_neg (by simpa using h1), if_neg (by omega)]
    simp only
    have hs := offset_split (b := b) start
    have hm := Nat.mod_lt start hb.page
    have hstart : (start / b.page + 1) * b.page = start / b.page * b.page + b.page := by rw [Nat.add_mul]; omega
    by_cases h2 : stop ≤ (start / b.page + 1) * b.page
    · rw [if_pos h2]
      by_cases hp : start / b.page < b.pages
      · have hle := Nat.mul_le_mul_right b.page (show start / b.page + 1 ≤ b.pages by omega)
        rw [readSlice_ok hp (by omega), if_pos (by omega), hs]
      · have hle := Nat.mul_le_mul_right b.page (show b.pages ≤ start / b.page by omega)
        rw [if_neg (by omega)]
        unfold Buf.readSlice
        rw [if_neg (by simp [Buf.valid]; omega)]
    · rw [if_neg h2, readLoop_ok hb.page _ (Nat.le_refl _) hm, hs]
      by_cases h3 : stop ≤ b.pages * b.page
      · rw [if_pos (by omega), if_pos (by omega)]
      · rw [if_neg (by omega), if_neg (by omega)]
  · rw [if_pos h1, if_pos (by omega), show stop - start = 0 by omega]
    rfl

/-- **C86, content**: after any history of writes and erasures, each of any place and size, the storage reads as the array that
they describe: a part that is read is what was last written there, or `0xff` where nothing was written since it was erased.
Missing here and in the next two theorems: storages that allow fewer writes of a word than it has bytes (`C86_worn`). -/
theorem C86_content_partial {b b' : Buf} (hf : Fresh b) (hl : b.word ≤ b.limit) {ops : List Op} (h : History b ops b') {start stop : Nat}
    (hr : stop ≤ b.length) :
    b'.read start stop = .ok ((List.range (stop - start)).map fun i => afterAll (fun _ => 0xff) ops (start + i)) := by
  obtain ⟨h1, h2, h3⟩ := history_good (al := false) h (Good.ofFresh hf (by simpa using hl)) (by simp)
  have hb : b.bytes = fun _ => 0xff := funext hf.erased
  rw [hb] at h3
  rw [read_of_good h2, if_pos (.inl (by rw [Buf.length, h1.pages, h1.page]; exact hr)), h3]

/-- **C86, success**: an access succeeds if and only if it is inside the storage, after any history. Otherwise it is refused, and no
access ever fails in another way: no byte is written that is not erased, no access to the flash is not aligned, and no word is
written more often than it has bytes before its page is erased. -/
theorem C86_succeeds_partial {b b' : Buf} (hf : Fresh b) (hl : b.word ≤ b.limit) {ops : List Op} (h : History b ops b') (op : Op) :
    (op.Inside b.length → ∃ b'', b'.apply op = .ok b'') ∧ (¬ op.Inside b.length → b'.apply op = .error .outOfBounds) := by
  obtain ⟨h1, h2, -⟩ := history_good (al := false) h (Good.ofFresh hf (by simpa using hl)) (by simp)
  have hn : b'.length = b.length := by rw [Buf.length, Buf.length, h1.pages, h1.page]
  refine ⟨fun hi => ?_, fun hi => apply_error (by rw [hn]; exact hi)⟩
  obtain ⟨b'', e, -⟩ := apply_ok h2 (by rw [hn]; exact hi) (by simp)
  exact ⟨b'', e⟩

/-- **C86, reading**: reading succeeds if and only if the range is inside the storage or empty. -/
theorem C86_reads_partial {b b' : Buf} (hf : Fresh b) (hl : b.word ≤ b.limit) {ops : List Op} (h : History b ops b') (start stop : Nat) :
    (stop ≤ b.length ∨ stop ≤ start → ∃ v, b'.read start stop = .ok v ∧ v.length = stop - start)
    ∧ (¬ (stop ≤ b.length ∨ stop ≤ start) → b'.read start stop = .error .outOfBounds) := by
  obtain ⟨h1, h2, -⟩ := history_good (al := false) h (Good.ofFresh hf (by simpa using hl)) (by simp)
  have hn : b'.length = b.length := by rw [Buf.length, Buf.length, h1.pages, h1.page]
  rw [read_of_good h2, hn]
  constructor
  · intro hi
    rw [if_pos hi]
    exact ⟨_, rfl, by simp⟩
  · intro hi
    rw [if_neg hi]

/-- **C86, wear**: if all accesses start and end at words, no word is ever written twice before its page is erased: they succeed
even on a flash that allows each word to be written only once. -/
theorem C86_aligned {b b' : Buf} (hf : Fresh b) (hl : 1 ≤ b.limit) {ops : List Op} (h : History b ops b')
    (ha : ∀ op ∈ ops, op.Aligned b.word) {op : Op} (hi : op.Inside b.length) (hop : op.Aligned b.word) :
    (∃ b'', b'.apply op = .ok b'') ∧ ∀ w, b'.writes w ≤ 1 := by
  obtain ⟨h1, h2, -⟩ := history_good (al := true) h (Good.ofFresh hf (by simpa using hl)) (fun _ => ha)
  constructor
  · obtain ⟨b'', e, -⟩ := apply_ok h2 (op := op) (by rw [Buf.length, h1.pages, h1.page]; exact hi) (by rw [h1.word]; exact fun _ => hop)
    exact ⟨b'', e⟩
  · intro w
    have := h2.inv w
    unfold cost at this
    simp only [if_true] at this
    omega

/-! ### An example: two pages of eight bytes with words of four bytes -/

/-- The erased storage, with the number of times a word may be written. -/
def small (limit : Nat) : Buf := { word := 4, page := 8, pages := 2, limit, bytes := fun _ => 0xff, writes := fun _ => 0 }

theorem small_fresh (limit : Nat) : Fresh (small limit) := ⟨by simp [small], by simp [small], by simp [small], fun _ => rfl, fun _ => rfl⟩

/-- Several accesses, and the result of the last one. -/
def tryAll (b : Buf) : List Op → Except Err Buf
  | [] => .ok b
  | op :: ops => do tryAll (← b.apply op) ops

theorem tryAll_history : ∀ {ops : List Op} {b b' : Buf}, tryAll b ops = .ok b' → History b ops b'
  | [], b, b', h => by
    obtain rfl : b = b' := by simpa [tryAll] using h
    exact .nil b
  | op :: ops, b, b', h => by
    unfold tryAll at h
    cases e : b.apply op with
    | error x => rw [e] at h; simp [bind, Except.bind] at h
    | ok b1 =>
      rw [e] at h
      exact .step e (tryAll_history h)

/-- A write across the pages and one in the middle of a word, and what is read then. -/
def demo : List Op := [.write 3 [1, 2, 3, 4, 5, 6, 7], .write 5 [9], .erase 7 9]

example : ((tryAll (small 4) demo).toOption.map fun b => ((b.read 0 16).toOption, b.writes 1)) =
    some (some [255, 255, 255, 1, 2, 9, 4, 255, 255, 7, 255, 255, 255, 255, 255, 255], 1) := by decide +kernel

example : ∃ b', History (small 4) demo b' ∧ b'.read 3 6 = .ok [1, 2, 9] := by
  have h : (tryAll (small 4) demo).toOption.isSome = true := by decide +kernel
  cases e : tryAll (small 4) demo with
  | error x => rw [e] at h; simp [Except.toOption] at h
  | ok b' =>
    refine ⟨b', tryAll_history e, ?_⟩
    rw [C86_content_partial (small_fresh 4) (by simp [small]) (tryAll_history e) (by simp [small, Buf.length])]
    congr 1

/-- **C86, finding**: with accesses in the middle of a word the bound above is met, not only approached: on a flash that allows each
word to be written twice before its page is erased (as the format of the store requires it, `format.rs:179`), replacing one byte in
the middle of a word writes the word three times, and the second write of the example below breaks the rule of the flash. So the
view is not usable in general on a storage whose limit is below the size of a word. -/
theorem C86_worn : ∃ b', History (small 2) [.write 0 [1, 2, 3, 4]] b' ∧ (Op.write 1 [5]).Inside b'.length
    ∧ b'.apply (.write 1 [5]) = .error .panic := by
  have h : (tryAll (small 2) [.write 0 [1, 2, 3, 4]]).toOption.isSome = true := by decide +kernel
  have h2 : (match tryAll (small 2) [.write 0 [1, 2, 3, 4]] with
    | .ok b' => (match b'.apply (.write 1 [5]) with | .error .panic => b'.length == 16 | _ => false)
    | .error _ => false) = true := by decide +kernel
  cases e : tryAll (small 2) [.write 0 [1, 2, 3, 4]] with
  | error x => rw [e] at h; simp [Except.toOption] at h
  | ok b' =>
    rw [e] at h2
    simp only at h2
    refine ⟨b', tryAll_history e, ?_, ?_⟩
    · cases e2 : b'.apply (.write 1 [5]) with
      | ok _ => rw [e2] at h2; simp at h2
      | error x =>
        rw [e2] at h2
        cases x <;> simp at h2
        simp [Op.Inside, h2]
    · cases e2 : b'.apply (.write 1 [5]) with
      | ok _ => rw [e2] at h2; simp at h2
      | error x =>
        rw [e2] at h2
        cases x <;> simp at h2
        rfl

example : (Op.write 4 [1, 2, 3, 4]).Aligned (small 1).word ∧ (Op.write 4 [1, 2, 3, 4]).Inside (small 1).length := by
  simp [Op.Aligned, Op.Inside, small, Buf.length]

end Verif.Store.Linear
