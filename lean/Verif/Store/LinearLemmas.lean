import Verif.Store.Linear

/-!
# Lemmas about linear access
-/
namespace Verif.Store.Linear

/-- The bytes of a word that are not erased. -/
def nonff (n : Nat) (f : Nat → UInt8) (w : Nat) : Nat := (List.range n).countP fun j => f (w * n + j) != 0xff

/-- How often a word may have been written: once if all accesses are aligned, otherwise once for each byte. -/
def cost (al : Bool) (n : Nat) (f : Nat → UInt8) (w : Nat) : Nat := if al then min 1 (nonff n f w) else nonff n f w

structure Good (al : Bool) (b : Buf) : Prop where
  word : 0 < b.word
  page : 0 < b.page
  dvd : b.page % b.word = 0
  lim : if al then 1 ≤ b.limit else b.word ≤ b.limit
  inv : ∀ w, b.writes w ≤ cost al b.word b.bytes w

structure Same (b b' : Buf) : Prop where
  word : b'.word = b.word
  page : b'.page = b.page
  pages : b'.pages = b.pages
  limit : b'.limit = b.limit

theorem Same.refl (b : Buf) : Same b b := ⟨rfl, rfl, rfl, rfl⟩
theorem Same.trans {a b c : Buf} (h : Same a b) (k : Same b c) : Same a c :=
  ⟨k.word.trans h.word, k.page.trans h.page, k.pages.trans h.pages, k.limit.trans h.limit⟩

theorem countP_le {α : Type} (p q : α → Bool) (h : ∀ x, p x = true → q x = true) (l : List α) : l.countP p ≤ l.countP q := by
  induction l with
  | nil => simp
  | cons x l ih =>
    simp only [List.countP_cons]
    have := h x
    cases hp : p x <;> cases hq : q x <;> simp_all <;> omega

theorem countP_lt {α : Type} (p q : α → Bool) (h : ∀ x, p x = true → q x = true) {y : α} (hp : p y = false) (hq : q y = true) (l : List α)
    (hy : y ∈ l) : l.countP p < l.countP q := by
  induction l with
  | nil => simp at hy
  | cons x l ih =>
    simp only [List.countP_cons]
    rcases List.mem_cons.1 hy with e | e
    · subst e
      have := countP_le p q h l
      simp [hp, hq]; omega
    · have := ih e
      have := h x
      cases hp : p x <;> cases hq : q x <;> simp_all <;> omega

theorem countP_none {α : Type} (p : α → Bool) (l : List α) (h : ∀ x ∈ l, p x = false) : l.countP p = 0 := by
  induction l with
  | nil => rfl
  | cons x l ih =>
    simp only [List.countP_cons, h x (by simp)]
    simpa using ih fun y hy => h y (by simp [hy])

theorem nonff_le (n : Nat) (f : Nat → UInt8) (w : Nat) : nonff n f w ≤ n := by
  unfold nonff
  have := List.countP_le_length (p := fun j => f (w * n + j) != 0xff) (l := List.range n)
  simpa using this

theorem put_at {f : Nat → UInt8} {s i : Nat} {v : List UInt8} (h : i < v.length) : put f s v (s + i) = v.getD i 0 := by
  unfold put
  rw [if_pos (by omega)]
  congr 1; omega

theorem put_out {f : Nat → UInt8} {s i : Nat} {v : List UInt8} (h : ¬ (s ≤ i ∧ i < s + v.length)) : put f s v i = f i := by
  unfold put; rw [if_neg h]

theorem put_nil (f : Nat → UInt8) (s : Nat) : put f s [] = f := by
  funext i; exact put_out (by simp)

theorem put_put (f : Nat → UInt8) (s : Nat) (u v : List UInt8) : put (put f s u) (s + u.length) v = put f s (u ++ v) := by
  funext i
  unfold put
  simp only [List.length_append]
  by_cases h1 : s + u.length ≤ i ∧ i < s + u.length + v.length
  · rw [if_pos h1, if_pos (by omega)]
    simp only [List.getD_eq_getElem?_getD]
    rw [List.getElem?_append_right (by omega)]
    congr 2; omega
  · rw [if_neg h1]
    by_cases h2 : s ≤ i ∧ i < s + u.length
    · rw [if_pos h2, if_pos (by omega)]
      simp only [List.getD_eq_getElem?_getD]
      rw [List.getElem?_append_left (by omega)]
    · rw [if_neg h2, if_neg (by omega)]

/-- The start of a page is at a multiple of the word size. -/
theorem start_mod {al : Bool} {b : Buf} (hb : Good al b) (page : Nat) {byte : Nat} (h : byte % b.word = 0) :
    (page * b.page + byte) % b.word = 0 := by
  have := hb.dvd
  obtain ⟨k, hk⟩ := Nat.dvd_of_mod_eq_zero this
  rw [hk, show page * (b.word * k) + byte = byte + b.word * (page * k) by rw [Nat.mul_left_comm]; omega, Nat.add_mul_mod_self_left, h]

theorem and_ff (x : UInt8) : (0xff : UInt8) &&& x = x := by
  rw [show (0xff : UInt8) = -1 by rfl]; exact UInt8.neg_one_and

theorem writeSlice_ok {al : Bool} {b : Buf} (hb : Good al b) {page byte : Nat} {v : List UInt8} (h1 : byte % b.word = 0)
    (h2 : v.length % b.word = 0) (hp : page < b.pages) (hl : byte + v.length ≤ b.page)
    (fits : ∀ i, i < v.length → b.bytes (page * b.page + byte + i) = 0xff ∨ b.bytes (page * b.page + byte + i) = v.getD i 0)
    (fresh : al = true → ∀ i, i < v.length → b.bytes (page * b.page + byte + i) = 0xff) :
    ∃ b', b.writeSlice page byte v = .ok b' ∧ Same b b' ∧ b'.bytes = put b.bytes (page * b.page + byte) v ∧ Good al b' := by
  have hw := hb.word
  have hs := start_mod hb page h1
  generalize hS : page * b.page + byte = S at *
  have hS' : S / b.word * b.word = S := Nat.div_mul_cancel (Nat.dvd_of_mod_eq_zero hs)
  have hV' : v.length / b.word * b.word = v.length := Nat.div_mul_cancel (Nat.dvd_of_mod_eq_zero h2)
  -- the old and the new bytes
  have mono : ∀ i, b.bytes i ≠ 0xff → put b.bytes S v i ≠ 0xff := by
    intro i hi
    by_cases hin : S ≤ i ∧ i < S + v.length
    · have e : i = S + (i - S) := by omega
      have := fits (i - S) (by omega)
      rw [← e] at this
      rw [e, put_at (by omega)]
      rcases this with h | h
      · exact absurd h hi
      · rw [← h]; exact hi
    · rw [put_out hin]; exact hi
  have monoB : ∀ w, nonff b.word b.bytes w ≤ nonff b.word (put b.bytes S v) w := by
    intro w
    apply countP_le
    intro j hj
    simp only [bne_iff_ne, ne_eq] at hj ⊢
    exact mono _ hj
  have lt : ∀ w, differs b.word b.bytes (put b.bytes S v) w = true → nonff b.word b.bytes w < nonff b.word (put b.bytes S v) w := by
    intro w hd
    unfold differs at hd
    obtain ⟨j, hj, hne⟩ := List.any_eq_true.1 hd
    simp only [bne_iff_ne, ne_eq] at hne
    have hin : S ≤ w * b.word + j ∧ w * b.word + j < S + v.length := by
      by_cases hin : S ≤ w * b.word + j ∧ w * b.word + j < S + v.length
      · exact hin
      · rw [put_out hin] at hne; exact absurd rfl hne
    have e : w * b.word + j = S + (w * b.word + j - S) := by omega
    have hf := fits (w * b.word + j - S) (by omega)
    rw [← e] at hf
    have hnew : put b.bytes S v (w * b.word + j) = v.getD (w * b.word + j - S) 0 := by
      conv => lhs; rw [e]
      exact put_at (by omega)
    have hff : b.bytes (w * b.word + j) = 0xff := by
      rcases hf with h | h
      · exact h
      · rw [hnew] at hne; exact absurd h hne
    refine countP_lt _ _ ?_ (y := j) ?_ ?_ _ hj
    · intro k hk
      simp only [bne_iff_ne, ne_eq] at hk ⊢
      exact mono _ hk
    · simp [hff]
    · simp only [bne_iff_ne, ne_eq]
      intro h
      exact hne (by rw [hff, h])
  have zero : ∀ w, al = true → S / b.word ≤ w ∧ w < S / b.word + v.length / b.word → nonff b.word b.bytes w = 0 := by
    intro w ha hr
    apply countP_none
    intro j hj
    simp only [List.mem_range] at hj
    have e1 : S / b.word * b.word ≤ w * b.word := Nat.mul_le_mul_right _ hr.1
    have e2 : (w + 1) * b.word ≤ (S / b.word + v.length / b.word) * b.word := Nat.mul_le_mul_right _ hr.2
    rw [Nat.add_mul, Nat.add_mul, hS', hV'] at e2
    have := fresh ha (w * b.word + j - S) (by omega)
    rw [show S + (w * b.word + j - S) = w * b.word + j by omega] at this
    simp [this]
  have costLt : ∀ w, S / b.word ≤ w ∧ w < S / b.word + v.length / b.word → differs b.word b.bytes (put b.bytes S v) w = true →
      cost al b.word b.bytes w < cost al b.word (put b.bytes S v) w := by
    intro w hr hd
    have h1 := lt w hd
    unfold cost
    cases al with
    | false => simpa using h1
    | true =>
      have h0 := zero w rfl hr
      simp only [if_true, h0]
      rw [h0] at h1
      omega
  have costLe : ∀ w, cost al b.word b.bytes w ≤ cost al b.word (put b.bytes S v) w := by
    intro w
    have := monoB w
    unfold cost
    split <;> omega
  have costMax : ∀ w, cost al b.word b.bytes w ≤ b.limit := by
    intro w
    have h1 := hb.lim
    have h2 := nonff_le b.word b.bytes w
    unfold cost
    cases al <;> simp_all <;> omega
  have costMax' : ∀ w, cost al b.word (put b.bytes S v) w ≤ b.limit := by
    intro w
    have h1 := hb.lim
    have h2 := nonff_le b.word (put b.bytes S v) w
    unfold cost
    cases al <;> simp_all <;> omega
  let wr : Nat → Nat := fun w => if decide (S / b.word ≤ w ∧ w < S / b.word + v.length / b.word) &&
    differs b.word b.bytes (put b.bytes S v) w then b.writes w + 1 else b.writes w
  refine ⟨{ b with bytes := put b.bytes S v, writes := wr }, ?_, ⟨rfl, rfl, rfl, rfl⟩, rfl, ⟨hb.word, hb.page, hb.dvd, hb.lim, ?_⟩⟩
  · unfold Buf.writeSlice
    rw [if_neg (by omega), if_neg (by simp [Buf.valid]; omega)]
    simp only [hS]
    rw [if_neg, if_neg]
    · rw [Bool.not_eq_true, List.any_eq_false]
      intro i hi
      simp only [List.mem_range] at hi
      simp only [bne_iff_ne, ne_eq, Decidable.not_not]
      rcases fits i hi with h | h
      · rw [h]; exact and_ff _
      · rw [h]; exact UInt8.and_self
    · rw [Bool.not_eq_true, List.any_eq_false]
      intro i hi
      simp only [List.mem_range] at hi
      rw [Bool.not_eq_true, Bool.and_eq_false_iff]
      by_cases hd : differs b.word b.bytes (put b.bytes S v) (S / b.word + i) = true
      · right
        have h1 := costLt (S / b.word + i) (by omega) hd
        have h2 := hb.inv (S / b.word + i)
        have h3 := costMax' (S / b.word + i)
        simp; omega
      · left
        simp [Bool.not_eq_true _ ▸ hd]
  · intro w
    have h0 := hb.inv w
    show (if _ then _ else _) ≤ cost al b.word (put b.bytes S v) w
    split
    · rename_i h
      simp only [Bool.and_eq_true, decide_eq_true_eq] at h
      have := costLt w h.1 h.2
      show b.writes w + 1 ≤ _
      omega
    · have := costLe w
      omega

theorem readSlice_ok {b : Buf} {page byte len : Nat} (hp : page < b.pages) (hl : byte + len ≤ b.page) :
    b.readSlice page byte len = .ok ((List.range len).map fun i => b.bytes (page * b.page + byte + i)) := by
  unfold Buf.readSlice
  rw [if_pos (by simp [Buf.valid]; omega)]

theorem getD_map_range (f : Nat → UInt8) {n i : Nat} (h : i < n) : ((List.range n).map f).getD i 0 = f i := by
  simp [List.getD_eq_getElem?_getD, h]

/-- A word of which a part is replaced. -/
theorem patch_getD (w v : List UInt8) {u n i : Nat} (hu : u + v.length ≤ n) (hw : w.length = n) (hi : i < n) :
    (w.take u ++ v ++ w.drop (u + v.length)).getD i 0 = if u ≤ i ∧ i < u + v.length then v.getD (i - u) 0 else w.getD i 0 := by
  simp only [List.getD_eq_getElem?_getD]
  by_cases h1 : i < u
  · rw [List.append_assoc, List.getElem?_append_left (by simp; omega), if_neg (by omega), List.getElem?_take_of_lt h1]
  · by_cases h2 : i < u + v.length
    · rw [List.getElem?_append_left (by simp; omega), List.getElem?_append_right (by simp; omega), if_pos (by omega)]
      congr 2; simp; omega
    · rw [List.getElem?_append_right (by simp; omega), if_neg (by omega), List.getElem?_drop]
      congr 2; simp; omega

/-- Writing a word of which a part is replaced is the same as writing that part. -/
theorem put_patch (f : Nat → UInt8) (s n u : Nat) (v : List UInt8) (hu : u + v.length ≤ n) :
    put f s (((List.range n).map fun i => f (s + i)).take u ++ v ++ ((List.range n).map fun i => f (s + i)).drop (u + v.length))
      = put f (s + u) v := by
  funext i
  unfold put
  have hlen : (((List.range n).map fun i => f (s + i)).take u ++ v ++ ((List.range n).map fun i => f (s + i)).drop (u + v.length)).length = n := by
    simp; omega
  rw [hlen]
  by_cases h1 : s ≤ i ∧ i < s + n
  · rw [if_pos h1, patch_getD (n := n) _ _ hu (by simp) (by omega), getD_map_range _ (by omega)]
    by_cases h2 : u ≤ i - s ∧ i - s < u + v.length
    · rw [if_pos h2, if_pos (by omega)]; congr 1; omega
    · rw [if_neg h2, if_neg (by omega)]; congr 1; omega
  · rw [if_neg h1, if_neg (by omega)]

theorem writePatch_ok {al : Bool} {b : Buf} (hb : Good al b) {page byte u : Nat} {v : List UInt8} (ha : al = false) (h1 : byte % b.word = 0)
    (hu : u + v.length ≤ b.word) (hp : page < b.pages) (hl : byte + b.word ≤ b.page)
    (fresh : ∀ i, i < v.length → b.bytes (page * b.page + byte + u + i) = 0xff) :
    ∃ b', b.writeSlice page byte (((List.range b.word).map fun i => b.bytes (page * b.page + byte + i)).take u ++ v
        ++ ((List.range b.word).map fun i => b.bytes (page * b.page + byte + i)).drop (u + v.length)) = .ok b' ∧ Same b b'
      ∧ b'.bytes = put b.bytes (page * b.page + byte + u) v ∧ Good al b' := by
  have hlen : (((List.range b.word).map fun i => b.bytes (page * b.page + byte + i)).take u ++ v
      ++ ((List.range b.word).map fun i => b.bytes (page * b.page + byte + i)).drop (u + v.length)).length = b.word := by
    simp; omega
  obtain ⟨b', e1, e2, e3, e4⟩ := writeSlice_ok hb (page := page) (byte := byte) h1 (v := _) (by rw [hlen]; exact Nat.mod_self _) hp
    (by rw [hlen]; exact hl) (by
      rw [hlen]
      intro i hi
      rw [patch_getD (n := b.word) _ _ hu (by simp) hi, getD_map_range _ hi]
      by_cases h2 : u ≤ i ∧ i < u + v.length
      · left
        have := fresh (i - u) (by omega)
        rw [← this]; congr 1; omega
      · right; rw [if_neg h2]) (by intro h; rw [ha] at h; simp at h)
  exact ⟨b', e1, e2, by rw [e3, put_patch _ _ _ _ _ hu], e4⟩

theorem writeUnaligned_ok {al : Bool} {b : Buf} (hb : Good al b) {page byte : Nat} {v : List UInt8} (hp : page < b.pages)
    (hl : byte + v.length ≤ b.page) (ha : al = true → byte % b.word = 0 ∧ v.length % b.word = 0)
    (fresh : ∀ i, i < v.length → b.bytes (page * b.page + byte + i) = 0xff) :
    ∃ b', writeUnaligned b page byte v = .ok b' ∧ Same b b' ∧ b'.bytes = put b.bytes (page * b.page + byte) v ∧ Good al b' := by
  have hw := hb.word
  have hdv := hb.dvd
  -- the first word
  have head : ∃ b1 byte1 n, writeHead b page byte v = .ok (b1, byte1, v.drop n) ∧ Same b b1
      ∧ b1.bytes = put b.bytes (page * b.page + byte) (v.take n) ∧ Good al b1 ∧ byte1 % b.word = 0 ∧ n ≤ v.length ∧ byte1 ≤ b.page
      ∧ (n < v.length → byte1 = byte + n) ∧ (al = true → n = 0) := by
    unfold writeHead
    by_cases h0 : byte % b.word = 0
    · exact ⟨b, byte, 0, by simp [h0], Same.refl b, by simp [put_nil], hb, h0, by omega, by omega, by omega, fun _ => rfl⟩
    · have hal : al = false := by
        cases al with
        | false => rfl
        | true => exact absurd (ha rfl).1 h0
      have hlt := Nat.mod_lt byte hw
      have hle := Nat.mod_le byte b.word
      have hbm : (byte - byte % b.word) % b.word = 0 := by
        rw [show byte - byte % b.word = b.word * (byte / b.word) by have := Nat.div_add_mod byte b.word; omega]
        exact Nat.mul_mod_right _ _
      have hbw : byte - byte % b.word + b.word ≤ b.page := by
        obtain ⟨k, hk⟩ := Nat.dvd_of_mod_eq_zero hdv
        obtain ⟨m, hm⟩ := Nat.dvd_of_mod_eq_zero hbm
        rw [hm, hk]
        have : b.word * m < b.word * k := by omega
        have := Nat.lt_of_mul_lt_mul_left this
        have := Nat.mul_le_mul_left b.word (show m + 1 ≤ k by omega)
        rw [Nat.mul_add] at this; omega
      have hn : (v.take (min v.length (b.word - byte % b.word))).length = min v.length (b.word - byte % b.word) := by
        rw [List.length_take]; omega
      obtain ⟨b1, e1, e2, e3, e4⟩ := writePatch_ok hb (page := page) (byte := byte - byte % b.word) (u := byte % b.word)
        (v := v.take (min v.length (b.word - byte % b.word))) hal hbm (by rw [hn]; omega) hp hbw (by
          intro i hi
          rw [hn] at hi
          have := fresh i (by omega)
          rw [← this]; congr 1; omega)
      rw [hn] at e1
      refine ⟨b1, byte - byte % b.word + b.word, min v.length (b.word - byte % b.word), ?_, e2, ?_, e4, ?_, by omega, by omega, by omega, ?_⟩
      · simp only [h0, if_false]
        rw [readSlice_ok hp hbw]
        show (Except.bind _ _) = _
        simp only [Except.bind, bind]
        rw [e1]
        simp only [Except.pure, pure, e2.word]
      · rw [e3]; congr 1; omega
      · rw [Nat.add_mod_right]; exact hbm
      · intro h; rw [hal] at h; simp at h
  obtain ⟨b1, byte1, n, e1, s1, p1, g1, m1, l1, q1, a1, al1⟩ := head
  -- the words
  have hvl : (v.drop n).length = v.length - n := by simp
  have hmle := Nat.mod_le (v.drop n).length b.word
  have hmlt := Nat.mod_lt (v.drop n).length hw
  generalize hL : (v.drop n).length - (v.drop n).length % b.word = L at *
  have hLm : L % b.word = 0 := by
    rw [← hL, show (v.drop n).length - (v.drop n).length % b.word = b.word * ((v.drop n).length / b.word) by
      have := Nat.div_add_mod (v.drop n).length b.word; omega]
    exact Nat.mul_mod_right _ _
  have hLl : ((v.drop n).take L).length = L := by rw [List.length_take]; omega
  have old1 : ∀ i, i < v.length - n → b1.bytes (page * b.page + byte1 + i) = 0xff := by
    intro i hi
    have hbyte := a1 (by omega)
    rw [p1, put_out (by simp; omega)]
    have := fresh (n + i) (by omega)
    rw [← this]; congr 1; omega
  obtain ⟨b2, e2, s2, p2, g2⟩ := writeSlice_ok g1 (page := page) (byte := byte1) (v := (v.drop n).take L) (by rw [s1.word]; exact m1)
    (by rw [hLl, s1.word]; exact hLm) (by rw [s1.pages]; exact hp) (by
      rw [hLl, s1.page]
      by_cases hz : n < v.length
      · have := a1 hz; omega
      · omega) (by
      rw [hLl, s1.page]
      intro i hi
      exact .inl (old1 i (by omega))) (by
      rw [hLl, s1.page]
      intro _ i hi
      exact old1 i (by omega))
  have c2 : b2.bytes = put b.bytes (page * b.page + byte) (v.take (n + L)) := by
    by_cases hz : n < v.length
    · have hbyte := a1 hz
      rw [p2, p1, s1.page, hbyte, show page * b.page + (byte + n) = page * b.page + byte + (v.take n).length by simp; omega, put_put,
        ← List.take_add]
    · have : (v.drop n).take L = [] := by rw [List.drop_eq_nil_of_le (by omega)]; simp
      rw [p2, this, put_nil, p1, List.take_of_length_le (by omega), List.take_of_length_le (by omega)]
  have s12 := s1.trans s2
  -- the last word
  have tail : ∃ b3, writeTail b2 page (byte1 + L) ((v.drop n).drop L) = .ok b3 ∧ Same b2 b3 ∧ b3.bytes = put b.bytes (page * b.page + byte) v ∧ Good al b3 := by
    unfold writeTail
    have hdl : ((v.drop n).drop L).length = v.length - n - L := by simp; omega
    by_cases hz : (v.drop n).drop L = []
    · rw [if_pos hz]
      rw [hz] at hdl
      simp only [List.length_nil] at hdl
      refine ⟨b2, rfl, Same.refl _, ?_, g2⟩
      rw [c2, List.take_of_length_le (by omega)]
    · rw [if_neg hz]
      have hpos : 0 < ((v.drop n).drop L).length := List.length_pos_iff.2 hz
      have hbyte := a1 (by omega)
      have hal : al = false := by
        cases al with
        | false => rfl
        | true =>
          have h0 := al1 rfl
          have := (ha rfl).2
          subst h0
          simp only [List.drop_zero] at hL
          omega
      have hbm : (byte1 + L) % b.word = 0 := by rw [Nat.add_mod, m1, hLm]; simp
      have hbw : byte1 + L + b.word ≤ b.page := by
        obtain ⟨k, hk⟩ := Nat.dvd_of_mod_eq_zero hdv
        obtain ⟨m, hm⟩ := Nat.dvd_of_mod_eq_zero hbm
        rw [hm, hk]
        have : b.word * m < b.word * k := by omega
        have := Nat.lt_of_mul_lt_mul_left this
        have := Nat.mul_le_mul_left b.word (show m + 1 ≤ k by omega)
        rw [Nat.mul_add] at this; omega
      obtain ⟨b3, e3, s3, p3, g3⟩ := writePatch_ok g2 (page := page) (byte := byte1 + L) (u := 0) (v := (v.drop n).drop L) hal
        (by rw [s12.word]; exact hbm) (by rw [s12.word, hdl]; omega) (by rw [s12.pages]; exact hp) (by rw [s12.word, s12.page]; exact hbw) (by
          intro i hi
          rw [hdl] at hi
          rw [c2, s12.page, put_out (by rw [List.length_take]; omega)]
          have := fresh (n + L + i) (by omega)
          rw [← this]; congr 1; omega)
      refine ⟨b3, ?_, s3, ?_, g3⟩
      · rw [readSlice_ok (by rw [s12.pages]; exact hp) (by rw [s12.word, s12.page]; exact hbw)]
        simpa [Except.bind, bind] using e3
      · rw [p3, c2, s12.page, show page * b.page + (byte1 + L) + 0 = page * b.page + byte + (v.take (n + L)).length by
          rw [List.length_take]; omega, put_put, List.drop_drop, List.take_append_drop]
  obtain ⟨b3, e3, s3, p3, g3⟩ := tail
  refine ⟨b3, ?_, s12.trans s3, p3, g3⟩
  unfold writeUnaligned
  rw [e1]
  simp only [bind, Except.bind, s1.word, hL]
  rw [e2]
  exact e3

/-- The erased bytes of a range. -/
def wiped (f : Nat → UInt8) (s len : Nat) : Nat → UInt8 := fun i => if s ≤ i ∧ i < s + len then 0xff else f i

/-- A word is in a page or in another one. -/
theorem word_page {b : Buf} (hw : 0 < b.word) (hd : b.page % b.word = 0) (page w j : Nat) (hj : j < b.word) :
    (page * b.page ≤ w * b.word + j ∧ w * b.word + j < page * b.page + b.page)
      ↔ (page * (b.page / b.word) ≤ w ∧ w < page * (b.page / b.word) + b.page / b.word) := by
  obtain ⟨k, hk⟩ := Nat.dvd_of_mod_eq_zero hd
  rw [hk, Nat.mul_div_cancel_left _ hw]
  have e1 : page * (b.word * k) = (page * k) * b.word := by rw [Nat.mul_comm b.word k, Nat.mul_assoc]
  have e2 : page * (b.word * k) + b.word * k = (page * k + k) * b.word := by rw [Nat.add_mul, e1, Nat.mul_comm b.word k]
  rw [e2, e1]
  constructor
  · rintro ⟨h1, h2⟩
    constructor
    · have : page * k * b.word < (w + 1) * b.word := by rw [Nat.add_mul]; omega
      have := Nat.lt_of_mul_lt_mul_right this
      omega
    · have : w * b.word < (page * k + k) * b.word := by omega
      exact Nat.lt_of_mul_lt_mul_right this
  · rintro ⟨h1, h2⟩
    have a1 := Nat.mul_le_mul_right b.word h1
    have a2 := Nat.mul_le_mul_right b.word (show w + 1 ≤ page * k + k by omega)
    rw [Nat.add_mul w 1] at a2
    omega

theorem erasePage_ok {al : Bool} {b : Buf} (hb : Good al b) {page : Nat} (hp : page < b.pages) :
    ∃ b', b.erasePage page = .ok b' ∧ Same b b' ∧ b'.bytes = wiped b.bytes (page * b.page) b.page ∧ Good al b' := by
  unfold Buf.erasePage
  rw [if_pos (by simp [Buf.valid]; omega)]
  refine ⟨_, rfl, ⟨rfl, rfl, rfl, rfl⟩, rfl, ⟨hb.word, hb.page, hb.dvd, hb.lim, ?_⟩⟩
  intro w
  show (if _ then _ else _) ≤ _
  split
  · exact Nat.zero_le _
  · rename_i h
    have h0 := hb.inv w
    suffices hs : nonff b.word (fun i => if page * b.page ≤ i ∧ i < page * b.page + b.page then 0xff else b.bytes i) w = nonff b.word b.bytes w by
      unfold cost at h0 ⊢
      rw [hs]; exact h0
    unfold nonff
    apply List.countP_congr
    intro j hj
    rw [List.mem_range] at hj
    simp only
    rw [if_neg (fun hc => h ((word_page hb.word hb.dvd page w j hj).1 hc))]

theorem all_ff {f : Nat → UInt8} {n : Nat} (h : ((List.range n).map f).all (· == 0xff) = true) (i : Nat) (hi : i < n) : f i = 0xff := by
  rw [List.all_eq_true] at h
  have := h (f i) (List.mem_map.2 ⟨i, List.mem_range.2 hi, rfl⟩)
  simpa using this

theorem put_self (f g : Nat → UInt8) (s n : Nat) :
    put g s ((List.range n).map fun i => f (s + i)) = fun i => if s ≤ i ∧ i < s + n then f i else g i := by
  funext i
  unfold put
  simp only [List.length_map, List.length_range]
  split
  · rw [getD_map_range _ (by omega)]; congr 1; omega
  · rfl

theorem eraseWithin_ok {al : Bool} {b : Buf} (hb : Good al b) {page byte len : Nat} (hp : page < b.pages) (hl : byte + len ≤ b.page)
    (ha : al = true → byte % b.word = 0 ∧ len % b.word = 0) :
    ∃ b', eraseWithin b page byte len = .ok b' ∧ Same b b' ∧ b'.bytes = wiped b.bytes (page * b.page + byte) len ∧ Good al b' := by
  unfold eraseWithin
  rw [readSlice_ok hp hl]
  simp only [bind, Except.bind]
  split
  · rename_i h
    refine ⟨b, rfl, Same.refl _, ?_, hb⟩
    funext i
    unfold wiped
    split
    · have := all_ff h (i - (page * b.page + byte)) (by omega)
      rw [← this]; congr 1; omega
    · rfl
  · unfold saveComplement
    rw [readSlice_ok (byte := 0) hp (by omega), readSlice_ok (byte := byte + len) hp (by omega)]
    simp only [bind, Except.bind, pure, Except.pure]
    obtain ⟨b1, e1, s1, p1, g1⟩ := erasePage_ok hb hp
    rw [e1]
    simp only
    unfold restoreComplement
    have hd := hb.dvd
    obtain ⟨b2, e2, s2, p2, g2⟩ := writeUnaligned_ok g1 (page := page) (byte := 0)
      (v := (List.range byte).map fun i => b.bytes (page * b.page + 0 + i)) (by rw [s1.pages]; exact hp) (by simp [s1.page]; omega)
      (by intro h; rw [s1.word]; simpa using (ha h).1) (by
        intro i hi
        simp only [List.length_map, List.length_range] at hi
        rw [p1, s1.page, wiped, if_pos (by omega)])
    have s12 := s1.trans s2
    obtain ⟨b3, e3, s3, p3, g3⟩ := writeUnaligned_ok g2 (page := page) (byte := byte + len)
      (v := (List.range (b.page - byte - len)).map fun i => b.bytes (page * b.page + (byte + len) + i)) (by rw [s12.pages]; exact hp)
      (by simp [s12.page]; omega)
      (by
        intro h
        rw [s12.word]
        have := ha h
        refine ⟨by rw [Nat.add_mod, this.1, this.2]; simp, ?_⟩
        simp only [List.length_map, List.length_range]
        obtain ⟨k, hk⟩ := Nat.dvd_of_mod_eq_zero hd
        obtain ⟨m, hm⟩ := Nat.dvd_of_mod_eq_zero this.1
        obtain ⟨l, hl⟩ := Nat.dvd_of_mod_eq_zero this.2
        rw [hk, hm, hl, ← Nat.mul_sub, ← Nat.mul_sub]
        exact Nat.mul_mod_right _ _) (by
        intro i hi
        simp only [List.length_map, List.length_range] at hi
        rw [p2, s12.page, put_out (by rw [s1.page]; simp; omega), p1, wiped, if_pos (by omega)])
    refine ⟨b3, ?_, s12.trans s3, ?_, g3⟩
    · rw [e2]
      simp only [bind, Except.bind, List.length_map, List.length_range, s12.page]
      rw [show b.page - (b.page - byte - len) = byte + len by omega]
      exact e3
    · rw [p3, p2, p1, s12.page, s1.page, put_self, put_self]
      funext i
      unfold wiped
      by_cases h1 : page * b.page + (byte + len) ≤ i ∧ i < page * b.page + (byte + len) + (b.page - byte - len)
      · rw [if_pos h1, if_neg (by omega)]
      · rw [if_neg h1]
        simp only
        by_cases h2 : page * b.page + 0 ≤ i ∧ i < page * b.page + 0 + byte
        · rw [if_pos h2, if_neg (by omega)]
        · rw [if_neg h2]
          by_cases h3 : page * b.page ≤ i ∧ i < page * b.page + b.page
          · rw [if_pos h3, if_pos (by omega)]
          · rw [if_neg h3, if_neg (by omega)]

theorem put_wiped (f : Nat → UInt8) (s : Nat) (v : List UInt8) : put (wiped f s v.length) s v = put f s v := by
  funext i
  unfold put wiped
  split
  · rfl
  · rfl

theorem writeWithin_ok {al : Bool} {b : Buf} (hb : Good al b) {page byte : Nat} {v : List UInt8} (hp : page < b.pages)
    (hl : byte + v.length ≤ b.page) (ha : al = true → byte % b.word = 0 ∧ v.length % b.word = 0) :
    ∃ b', writeWithin b page byte v = .ok b' ∧ Same b b' ∧ b'.bytes = put b.bytes (page * b.page + byte) v ∧ Good al b' := by
  obtain ⟨b1, e1, s1, p1, g1⟩ := eraseWithin_ok hb hp hl ha
  obtain ⟨b2, e2, s2, p2, g2⟩ := writeUnaligned_ok g1 (page := page) (byte := byte) (v := v) (by rw [s1.pages]; exact hp)
    (by rw [s1.page]; exact hl) (by rw [s1.word]; exact ha) (by
      intro i hi
      rw [p1, s1.page, wiped, if_pos (by omega)])
  refine ⟨b2, ?_, s1.trans s2, ?_, g2⟩
  · unfold writeWithin
    rw [e1]
    exact e2
  · rw [p2, p1, s1.page, put_wiped]

/-- The next part of a range starts the next page, if anything is left. -/
theorem pages_left {b : Buf} {page byte len : Nat} (h : page * b.page + byte + len ≤ b.pages * b.page) (hl : 0 < len) :
    page < b.pages := by
  have : page * b.page < b.pages * b.page := by omega
  exact Nat.lt_of_mul_lt_mul_right this

theorem min_aligned {b : Buf} (hd : b.page % b.word = 0) {byte len : Nat} (h1 : byte % b.word = 0) (h2 : len % b.word = 0) :
    min len (b.page - byte) % b.word = 0 ∧ (len - min len (b.page - byte)) % b.word = 0 := by
  obtain ⟨k, hk⟩ := Nat.dvd_of_mod_eq_zero hd
  obtain ⟨m, hm⟩ := Nat.dvd_of_mod_eq_zero h1
  obtain ⟨l, hl⟩ := Nat.dvd_of_mod_eq_zero h2
  rw [hk, hm, hl, ← Nat.mul_sub, Nat.mul_min_mul_left, ← Nat.mul_sub]
  exact ⟨Nat.mul_mod_right _ _, Nat.mul_mod_right _ _⟩

theorem writeLoop_ok {al : Bool} : ∀ (fuel : Nat) {b : Buf} (_ : Good al b) {page byte : Nat} {v : List UInt8}, v.length ≤ fuel → byte < b.page →
    page * b.page + byte + v.length ≤ b.pages * b.page → (al = true → byte % b.word = 0 ∧ v.length % b.word = 0) →
    ∃ b', writeLoop b fuel page byte v = .ok b' ∧ Same b b' ∧ b'.bytes = put b.bytes (page * b.page + byte) v ∧ Good al b'
  | 0, b, hb, page, byte, v, hf, _, _, _ => by
    have : v = [] := List.eq_nil_of_length_eq_zero (by omega)
    subst this
    exact ⟨b, rfl, Same.refl _, by rw [put_nil], hb⟩
  | fuel + 1, b, hb, page, byte, v, hf, hbyte, hl, ha => by
    unfold writeLoop
    by_cases hv : v = []
    · subst hv
      exact ⟨b, by simp, Same.refl _, by rw [put_nil], hb⟩
    · rw [if_neg hv]
      have hpos : 0 < v.length := List.length_pos_iff.2 hv
      have hpg := pages_left hl hpos
      generalize hn : min v.length (b.page - byte) = n
      have htl : (v.take n).length = n := by rw [List.length_take]; omega
      have hal : al = true → n % b.word = 0 ∧ (v.length - n) % b.word = 0 := by
        intro h
        rw [← hn]
        exact min_aligned hb.dvd (ha h).1 (ha h).2
      obtain ⟨b1, e1, s1, p1, g1⟩ := writeWithin_ok hb (page := page) (byte := byte) (v := v.take n) hpg (by rw [htl]; omega)
        (by intro h; rw [htl]; exact ⟨(ha h).1, (hal h).1⟩)
      have hdl : (v.drop n).length = v.length - n := by simp
      have hstart : (page + 1) * b.page = page * b.page + b.page := by rw [Nat.add_mul]; omega
      have hroom : (page + 1) * b.page + 0 + (v.drop n).length ≤ b.pages * b.page := by
        rw [hstart, hdl]
        by_cases hc : v.length ≤ b.page - byte
        · have := Nat.mul_le_mul_right b.page (show page + 1 ≤ b.pages by omega)
          rw [hstart] at this
          omega
        · omega
      obtain ⟨b2, e2, s2, p2, g2⟩ := writeLoop_ok fuel g1 (page := page + 1) (byte := 0) (v := v.drop n) (by omega) (by rw [s1.page]; exact hb.page)
        (by rw [s1.page, s1.pages]; exact hroom) (by intro h; rw [s1.word, hdl]; exact ⟨Nat.zero_mod _, (hal h).2⟩)
      refine ⟨b2, ?_, s1.trans s2, ?_, g2⟩
      · show Except.bind _ _ = _
        rw [e1]; exact e2
      · rw [p2, p1, s1.page]
        by_cases hc : v.length ≤ b.page - byte
        · rw [List.drop_eq_nil_of_le (by omega), put_nil, List.take_of_length_le (by omega)]
        · rw [show (page + 1) * b.page + 0 = page * b.page + byte + (v.take n).length by omega, put_put, List.take_append_drop]

theorem wiped_wiped (f : Nat → UInt8) (s m n : Nat) : wiped (wiped f s m) (s + m) n = wiped f s (m + n) := by
  funext i
  unfold wiped
  by_cases h1 : s + m ≤ i ∧ i < s + m + n
  · rw [if_pos h1, if_pos (by omega)]
  · rw [if_neg h1]
    by_cases h2 : s ≤ i ∧ i < s + m
    · rw [if_pos h2, if_pos (by omega)]
    · rw [if_neg h2, if_neg (by omega)]

theorem wiped_zero (f : Nat → UInt8) (s : Nat) : wiped f s 0 = f := by
  funext i
  unfold wiped
  rw [if_neg (by omega)]

theorem eraseLoop_ok {al : Bool} : ∀ (fuel : Nat) {b : Buf} (_ : Good al b) {page byte len : Nat}, len ≤ fuel → byte < b.page →
    page * b.page + byte + len ≤ b.pages * b.page → (al = true → byte % b.word = 0 ∧ len % b.word = 0) →
    ∃ b', eraseLoop b fuel page byte len = .ok b' ∧ Same b b' ∧ b'.bytes = wiped b.bytes (page * b.page + byte) len ∧ Good al b'
  | 0, b, hb, page, byte, len, hf, _, _, _ => by
    have : len = 0 := by omega
    subst this
    exact ⟨b, rfl, Same.refl _, by rw [wiped_zero], hb⟩
  | fuel + 1, b, hb, page, byte, len, hf, hbyte, hl, ha => by
    unfold eraseLoop
    by_cases hv : len = 0
    · subst hv
      exact ⟨b, by simp, Same.refl _, by rw [wiped_zero], hb⟩
    · rw [if_neg hv]
      have hpg := pages_left hl (by omega)
      generalize hn : min len (b.page - byte) = n
      have hal : al = true → n % b.word = 0 ∧ (len - n) % b.word = 0 := by
        intro h
        rw [← hn]
        exact min_aligned hb.dvd (ha h).1 (ha h).2
      obtain ⟨b1, e1, s1, p1, g1⟩ := eraseWithin_ok hb (page := page) (byte := byte) (len := n) hpg (by omega)
        (by intro h; exact ⟨(ha h).1, (hal h).1⟩)
      have hstart : (page + 1) * b.page = page * b.page + b.page := by rw [Nat.add_mul]; omega
      have hroom : (page + 1) * b.page + 0 + (len - n) ≤ b.pages * b.page := by
        rw [hstart]
        by_cases hc : len ≤ b.page - byte
        · have := Nat.mul_le_mul_right b.page (show page + 1 ≤ b.pages by omega)
          rw [hstart] at this
          omega
        · omega
      obtain ⟨b2, e2, s2, p2, g2⟩ := eraseLoop_ok fuel g1 (page := page + 1) (byte := 0) (len := len - n) (by omega) (by rw [s1.page]; exact hb.page)
        (by rw [s1.page, s1.pages]; exact hroom) (by intro h; rw [s1.word]; exact ⟨Nat.zero_mod _, (hal h).2⟩)
      refine ⟨b2, ?_, s1.trans s2, ?_, g2⟩
      · show Except.bind _ _ = _
        rw [e1]; exact e2
      · rw [p2, p1, s1.page]
        by_cases hc : len ≤ b.page - byte
        · rw [show len - n = 0 by omega, wiped_zero, show n = len by omega]
        · rw [show (page + 1) * b.page + 0 = page * b.page + byte + n by omega, wiped_wiped, show n + (len - n) = len by omega]

theorem readLoop_ok {b : Buf} (hp : 0 < b.page) : ∀ (fuel : Nat) {page byte len : Nat}, len ≤ fuel → byte < b.page →
    readLoop b fuel page byte len = if page * b.page + byte + len ≤ b.pages * b.page ∨ len = 0
      then .ok ((List.range len).map fun i => b.bytes (page * b.page + byte + i)) else .error .outOfBounds
  | 0, page, byte, len, hf, _ => by
    have : len = 0 := by omega
    subst this
    simp [readLoop]
  | fuel + 1, page, byte, len, hf, hbyte => by
    unfold readLoop
    by_cases hv : len = 0
    · subst hv; simp
    · rw [if_neg hv]
      generalize hn : min len (b.page - byte) = n
      have hstart : (page + 1) * b.page = page * b.page + b.page := by rw [Nat.add_mul]; omega
      by_cases hpg : page < b.pages
      · have hle := Nat.mul_le_mul_right b.page (show page + 1 ≤ b.pages by omega)
        rw [hstart] at hle
        simp only [readSlice_ok hpg (show byte + n ≤ b.page by omega), bind, Except.bind]
        rw [readLoop_ok hp fuel (by omega) hp]
        by_cases hc : (page + 1) * b.page + 0 + (len - n) ≤ b.pages * b.page ∨ len - n = 0
        · rw [if_pos hc, if_pos (by left; rcases hc with h | h <;> omega)]
          show Except.ok _ = _
          congr 1
          have hsum : len = n + (len - n) := by omega
          conv => rhs; rw [hsum, List.range_add, List.map_append, List.map_map]
          congr 1
          apply List.map_congr_left
          intro i hi
          rw [List.mem_range] at hi
          simp only [Function.comp]
          congr 1; omega
        · rw [if_neg hc, if_neg (by
            intro h
            apply hc
            rcases h with h | h
            · by_cases hq : len - n = 0
              · exact .inr hq
              · left; omega
            · omega)]
      · rw [if_neg (by
          intro h
          rcases h with h | h
          · exact hpg (pages_left h (by omega))
          · exact hv h)]
        have : b.readSlice page byte n = .error .outOfBounds := by
          unfold Buf.readSlice
          rw [if_neg (by simp [Buf.valid]; omega)]
        simp only [this]; rfl

end Verif.Store.Linear
