import Verif.P256.PointLemmas

/-! Multiplication of points by scalars. -/

namespace Verif.P256

set_option exponentiation.threshold 600

open Mont (Good)

namespace Proj

/-- The accumulator holds the multiple `s` of `A`; its flag says that `s` is zero. -/
def Acc (A : E.Point) (st : Proj × Bool) (s : Nat) : Prop :=
  st.2 = decide (s = 0) ∧ (s ≠ 0 → st.1.Is (s • A))

theorem accumulate_acc {A : E.Point} {n p t : Proj} {inf : Bool} {index : UInt32} {s k : Nat}
    (h : Acc A (n, inf) s) (hk : index.toNat = 0 ↔ k = 0) (hp : k ≠ 0 → p.Is (k • A))
    (ht : s ≠ 0 → k ≠ 0 → t.Is (s • A + k • A)) :
    Acc A (accumulate n inf p t index) (s + k) := by
  obtain ⟨hf, hn⟩ := h
  simp only at hf hn
  have hi : (index == 0) = decide (k = 0) := by
    have : (index = 0) ↔ k = 0 := by
      rw [← hk]
      exact ⟨fun h => by simp [h], fun h => UInt32.toNat_inj.1 (by simpa using h)⟩
    by_cases h0 : k = 0
    · rw [decide_eq_true h0]; simpa using this.2 h0
    · rw [decide_eq_false h0]; simpa using fun h => h0 (this.1 h)
  unfold accumulate
  rw [hi, hf]
  by_cases hs : s = 0 <;> by_cases hk0 : k = 0
  · subst hs hk0
    simp [Acc]
  · subst hs
    simp only [decide_true, if_true, decide_eq_false hk0, Bool.false_or, Bool.not_true,
      Bool.false_eq_true, if_false, Bool.and_false]
    refine ⟨by simp [hk0], fun _ => ?_⟩
    rw [Nat.zero_add]
    exact hp hk0
  · subst hk0
    simp only [decide_true, decide_eq_false hs, Bool.false_eq_true, if_false, Bool.true_or,
      Bool.not_true, Bool.and_true]
    exact ⟨by simp [hs], fun _ => by rw [Nat.add_zero]; exact hn hs⟩
  · simp only [decide_eq_false hs, decide_eq_false hk0, Bool.false_eq_true, if_false,
      Bool.or_false, Bool.not_false, if_true, Bool.and_false]
    refine ⟨by simp [hs], fun _ => ?_⟩
    rw [add_nsmul]
    exact ht hs hk0

theorem double_acc {A : E.Point} {st : Proj × Bool} {s : Nat} (h : Acc A st s) :
    Acc A (double st.1, st.2) (2 * s) := by
  obtain ⟨hf, hn⟩ := h
  refine ⟨by rw [hf]; simp, fun h2 => ?_⟩
  have := double_is (hn (by omega))
  rwa [two_mul, add_nsmul]

theorem acc_zero (A : E.Point) : Acc A (zero, true) 0 := ⟨rfl, fun h => absurd rfl h⟩

theorem ofNat_succ (i : Nat) : UInt32.ofNat i + 1 = UInt32.ofNat (i + 1) := by
  rw [UInt32.ofNat_add]
  rfl

theorem select_point_spec (table : List Proj) (index : UInt32) (h0 : index.toNat ≠ 0)
    (h15 : index.toNat ≤ 15) : select_point table index = table.getD (index.toNat - 1) zero := by
  unfold select_point
  simp only [ofNat_succ]
  rw [Int256.select_foldl table zero zero index 15 (Nat.le_refl _), if_pos (by omega)]

end Proj

namespace Aff

theorem select_point_spec (table : List (Mont × Mont)) (index : UInt32) (h0 : index.toNat ≠ 0)
    (h15 : index.toNat ≤ 15) : select_point table index =
      ⟨(table.getD (index.toNat - 1) (Mont.ZERO, Mont.ZERO)).1,
       (table.getD (index.toNat - 1) (Mont.ZERO, Mont.ZERO)).2⟩ := by
  unfold select_point
  simp only [Proj.ofNat_succ]
  have key : ∀ n, n ≤ 15 → ∀ z : Mont × Mont,
      (List.range n).foldl (fun (p : Aff) i =>
        if UInt32.ofNat (i + 1) == index then
          (⟨(table.getD i (Mont.ZERO, Mont.ZERO)).1, (table.getD i (Mont.ZERO, Mont.ZERO)).2⟩ : Aff)
        else p) ⟨z.1, z.2⟩ =
      ⟨((List.range n).foldl (fun acc i => if UInt32.ofNat (i + 1) == index then
          table.getD i (Mont.ZERO, Mont.ZERO) else acc) z).1,
       ((List.range n).foldl (fun acc i => if UInt32.ofNat (i + 1) == index then
          table.getD i (Mont.ZERO, Mont.ZERO) else acc) z).2⟩ := by
    intro n
    induction n with
    | zero => intro _ z; rfl
    | succ n ih =>
      intro hn z
      rw [List.range_succ, List.foldl_append, List.foldl_append, ih (by omega) z]
      simp only [List.foldl_cons, List.foldl_nil]
      split <;> rfl
  have := key 15 (Nat.le_refl _) (Mont.ZERO, Mont.ZERO)
  simp only at this
  rw [this, Int256.select_foldl table _ _ index 15 (Nat.le_refl _), if_pos (by omega)]

/-! Any point, by windows of four bits. -/

theorem precomp_spec {a : Aff} {A : E.Point} (ha : a.Is A) : ∀ (k : Nat) (table : List Proj),
    table.length % 2 = 1 → (∀ j, j < table.length → (table.getD j Proj.zero).Is ((j + 1) • A)) →
    (precomp a k table).length = table.length + 2 * k ∧
      ∀ j, j < table.length + 2 * k → ((precomp a k table).getD j Proj.zero).Is ((j + 1) • A)
  | 0, table, _, h => ⟨rfl, by simpa [precomp] using h⟩
  | k + 1, table, hodd, h => by
    unfold precomp
    simp only
    have hs : table.length >>> 1 = table.length / 2 := Nat.shiftRight_eq_div_pow _ 1
    have hd := Proj.double_is (h (table.length / 2) (by omega))
    rw [← hs] at hd
    have e : (table.length / 2 + 1) • A + (table.length / 2 + 1) • A = (table.length + 1) • A := by
      rw [← add_nsmul]; congr 1; omega
    rw [hs, e] at hd
    rw [← hs] at hd
    obtain ⟨d, hdd⟩ : ∃ d, d = Proj.double (table.getD (table.length >>> 1) Proj.zero) := ⟨_, rfl⟩
    rw [← hdd] at hd ⊢
    have hm := Proj.add_mixed_is hd ha
    have em : (table.length + 1) • A + A = (table.length + 1 + 1) • A := (succ_nsmul A _).symm
    rw [em] at hm
    have ih := precomp_spec ha k (table ++ [d, Proj.add_mixed d a]) (by simp; omega) (by
      intro j hj
      simp only [List.length_append, List.length_cons, List.length_nil] at hj
      rw [List.getD_eq_getElem?_getD]
      by_cases h1 : j < table.length
      · rw [List.getElem?_append_left h1]
        have := h j h1
        rwa [List.getD_eq_getElem?_getD] at this
      · rw [List.getElem?_append_right (by omega)]
        have : j - table.length = 0 ∨ j - table.length = 1 := by omega
        rcases this with h2 | h2
        · rw [h2]
          have : j = table.length := by omega
          subst this
          exact hd
        · rw [h2]
          have : j = table.length + 1 := by omega
          subst this
          exact hm)
    simp only [List.length_append, List.length_cons, List.length_nil] at ih
    refine ⟨by rw [ih.1]; omega, fun j hj => ih.2 j (by omega)⟩

theorem windowIndex_spec {scalar : Exponent} (hw : Wf scalar) (k : Nat) (hk : k < 64) :
    (windowIndex scalar (4 * k)).toNat = val scalar / 2 ^ (252 - 4 * k) % 16 := by
  have := Int256.window_spec (x := scalar) (252 - 4 * k) (by rw [hw]; omega)
  rw [← this]
  unfold windowIndex
  rw [show 255 - 4 * k = 252 - 4 * k + 3 by omega, show 252 - 4 * k + 3 - 1 = 252 - 4 * k + 2 by omega,
    show 252 - 4 * k + 3 - 2 = 252 - 4 * k + 1 by omega,
    show 252 - 4 * k + 3 - 3 = 252 - 4 * k by omega]

theorem windowTurn_acc {A : E.Point} {table : List Proj} {scalar : Exponent} (hw : Wf scalar)
    (ht : ∀ j, j < 15 → (table.getD j Proj.zero).Is ((j + 1) • A)) {st : Proj × Bool} {k : Nat}
    (hk : k < 64) (h : Proj.Acc A st (val scalar / 2 ^ (256 - 4 * k))) :
    Proj.Acc A (windowTurn table scalar st (4 * k)) (val scalar / 2 ^ (256 - 4 * (k + 1))) := by
  have hidx := windowIndex_spec hw k hk
  have hsplit : val scalar / 2 ^ (256 - 4 * (k + 1)) =
      16 * (val scalar / 2 ^ (256 - 4 * k)) + val scalar / 2 ^ (252 - 4 * k) % 16 := by
    have e1 : 256 - 4 * (k + 1) = 252 - 4 * k := by omega
    have e2 : 256 - 4 * k = (252 - 4 * k) + 4 := by omega
    rw [e1, e2, pow_add, ← Nat.div_div_eq_div_mul]
    omega
  have hz : k = 0 → val scalar / 2 ^ (256 - 4 * k) = 0 := by
    rintro rfl
    exact Nat.div_eq_of_lt (val_lt8 hw)
  rw [hsplit, ← hidx]
  generalize val scalar / 2 ^ (256 - 4 * k) = s at *
  have h4 : Proj.Acc A
      ((if 4 * k ≠ 0 then Proj.double (Proj.double (Proj.double (Proj.double st.1))) else st.1),
        st.2) (16 * s) := by
    by_cases hk0 : k = 0
    · subst hk0
      have hs : s = 0 := hz rfl
      subst hs
      simpa using h
    · rw [if_pos (by omega)]
      have := Proj.double_acc (Proj.double_acc (Proj.double_acc (Proj.double_acc h)))
      simp only at this
      rwa [show 2 * (2 * (2 * (2 * s))) = 16 * s by ring] at this
  unfold windowTurn
  simp only
  have hlt : (windowIndex scalar (4 * k)).toNat < 16 := by rw [hidx]; exact Nat.mod_lt _ (by norm_num)
  obtain ⟨idx, hi⟩ : ∃ i, i = windowIndex scalar (4 * k) := ⟨_, rfl⟩
  rw [← hi] at hlt ⊢
  have hp : idx.toNat ≠ 0 → (Proj.select_point table idx).Is (idx.toNat • A) := by
    intro h0
    rw [Proj.select_point_spec table idx h0 (by omega)]
    have := ht (idx.toNat - 1) (by omega)
    rwa [Nat.sub_add_cancel (by omega)] at this
  exact Proj.accumulate_acc h4 Iff.rfl hp (fun hs h0 => Proj.add_is (h4.2 hs) (hp h0))

/-- `scalar_mul` by a scalar other than zero is the multiple in the group. -/
theorem scalar_mul_is {a : Aff} {A : E.Point} (ha : a.Is A) {scalar : Exponent} (hw : Wf scalar)
    (h0 : val scalar ≠ 0) : (scalar_mul a scalar).Is (val scalar • A) := by
  have ht := (precomp_spec ha 7 [Proj.from_affine a] rfl (by
    intro j hj
    have : j = 0 := by simpa using hj
    subst this
    simpa using Proj.from_affine_is ha)).2
  have key : ∀ k, k ≤ 64 → Proj.Acc A ((List.range k).foldl (fun st k =>
      windowTurn (precomp a 7 [Proj.from_affine a]) scalar st (4 * k)) (Proj.zero, true))
        (val scalar / 2 ^ (256 - 4 * k)) := by
    intro k
    induction k with
    | zero =>
      intro _
      have : val scalar / 2 ^ (256 - 4 * 0) = 0 := Nat.div_eq_of_lt (val_lt8 hw)
      rw [this]
      exact Proj.acc_zero A
    | succ k ih =>
      intro hk
      rw [List.range_succ, List.foldl_append]
      simp only [List.foldl_cons, List.foldl_nil]
      exact windowTurn_acc hw (fun j hj => ht j (by simp; omega)) (by omega) (ih (by omega))
  have := key 64 (Nat.le_refl _)
  simp only [pow_zero, Nat.div_one, show 256 - 4 * 64 = 0 from rfl] at this
  unfold scalar_mul
  exact this.2 h0

end Aff

/-! The base point, by the comb of the precomputed tables. -/

namespace Proj

/-- The scalar the table entry for the four bits `i` stands for. -/
def combScalar (i : Nat) : Nat :=
  i % 2 + 2 ^ 64 * (i / 2 % 2) + 2 ^ 128 * (i / 4 % 2) + 2 ^ 192 * (i / 8 % 2)

/-- The entry holds the multiple `k` of the base point. -/
def entryCheck (e : Mont × Mont) (k : Nat) : Bool :=
  let q := nmul k (gx, gy, 1)
  Mont.goodCheck e.1 && Mont.goodCheck e.2 && decide (q.2.2 % P ≠ 0) &&
    decide (Mont.toNat e.1 * q.2.2 % P = q.1 % P) && decide (Mont.toNat e.2 * q.2.2 % P = q.2.1 % P)

theorem entry_of_check {e : Mont × Mont} {k : Nat} (hk : k < 2 ^ 256) (h : entryCheck e k = true) :
    (⟨e.1, e.2⟩ : Aff).Is (k • G) := by
  simp only [entryCheck, Bool.and_eq_true, decide_eq_true_eq] at h
  obtain ⟨⟨⟨⟨g1, g2⟩, hz⟩, hx⟩, hy⟩ := h
  have hr := nmul_spec hk g_rep
  generalize nmul k (gx, gy, 1) = q at *
  refine ⟨(Mont.good_of_check g1).1, (Mont.good_of_check g2).1, ?_⟩
  have hz' : (q.2.2 : ZMod P) ≠ 0 := by
    rw [Ne, ZMod.natCast_eq_zero_iff]
    exact fun h => hz (Nat.mod_eq_zero_of_dvd h)
  have hx' := (ZMod.natCast_eq_natCast_iff _ _ P).2 hx
  have hy' := (ZMod.natCast_eq_natCast_iff _ _ P).2 hy
  rw [Nat.cast_mul, Mont.toNat_spec] at hx' hy'
  generalize k • G = K at *
  cases K with
  | zero => exact absurd hr.2.1 hz'
  | some x y n =>
    obtain ⟨-, ex, ey⟩ := hr
    rw [ex] at hx'
    rw [ey] at hy'
    have e1 := mul_right_cancel₀ hz' hx'
    have e2 := mul_right_cancel₀ hz' hy'
    simp only
    rw [e1, e2]
    exact Law.represents_one n

set_option maxRecDepth 100000 in
theorem table0_check : (List.range 15).all (fun i =>
    entryCheck (PRECOMPUTED0.getD i (Mont.ZERO, Mont.ZERO)) (combScalar (i + 1))) = true := by
  decide +kernel

set_option maxRecDepth 100000 in
theorem table1_check : (List.range 15).all (fun i =>
    entryCheck (PRECOMPUTED1.getD i (Mont.ZERO, Mont.ZERO)) (2 ^ 32 * combScalar (i + 1))) = true := by
  decide +kernel

theorem four_bits {b0 b1 b2 b3 : UInt32} (h0 : b0.toNat < 2) (h1 : b1.toNat < 2)
    (h2 : b2.toNat < 2) (h3 : b3.toNat < 2) :
    (b0 ||| (b1 <<< 1) ||| (b2 <<< 2) ||| (b3 <<< 3)).toNat
      = b0.toNat + 2 * b1.toNat + 4 * b2.toNat + 8 * b3.toNat := by
  have c : ∀ b : UInt32, b.toNat < 2 → b = 0 ∨ b = 1 := by
    intro b hb
    have : b.toNat = 0 ∨ b.toNat = 1 := by omega
    rcases this with h | h
    · exact Or.inl (UInt32.toNat_inj.1 (by simpa using h))
    · exact Or.inr (UInt32.toNat_inj.1 (by simpa using h))
  rcases c b0 h0 with h | h <;> rcases c b1 h1 with h' | h' <;> rcases c b2 h2 with h'' | h'' <;>
    rcases c b3 h3 with h''' | h''' <;> subst h <;> subst h' <;> subst h'' <;> subst h''' <;> rfl

/-- The bit of the scalar in column `c` (of 32 bits) that turn `i` reads. -/
def colBit (n i c : Nat) : Nat := n / 2 ^ (32 * c + (31 - i)) % 2

theorem colBit_lt (n i c : Nat) : colBit n i c < 2 := Nat.mod_lt _ (by norm_num)

theorem combIndex_spec {scalar : Exponent} (hw : Wf scalar) {i : Nat} (hi : i < 32) (o : Nat)
    (ho : o < 2) :
    (combIndex scalar i (32 * o)).toNat =
      colBit (val scalar) i o + 2 * colBit (val scalar) i (2 + o) +
        4 * colBit (val scalar) i (4 + o) + 8 * colBit (val scalar) i (6 + o) := by
  have hb : ∀ k c, k = 32 * c + (31 - i) → c < 8 →
      (Int256.bit scalar k).toNat = colBit (val scalar) i c := by
    intro k c hk hc
    rw [Int256.bit_spec k (by rw [hw]; omega), hk]
    rfl
  have b0 := hb (31 - i + 32 * o) o (by omega) (by omega)
  have b1 := hb (95 - i + 32 * o) (2 + o) (by omega) (by omega)
  have b2 := hb (159 - i + 32 * o) (4 + o) (by omega) (by omega)
  have b3 := hb (223 - i + 32 * o) (6 + o) (by omega) (by omega)
  unfold combIndex
  rw [four_bits (by rw [b0]; exact colBit_lt _ _ _) (by rw [b1]; exact colBit_lt _ _ _)
    (by rw [b2]; exact colBit_lt _ _ _) (by rw [b3]; exact colBit_lt _ _ _), b0, b1, b2, b3]

theorem combScalar_bits {a b c d : Nat} (ha : a < 2) (hb : b < 2) (hc : c < 2) (hd : d < 2) :
    combScalar (a + 2 * b + 4 * c + 8 * d) = a + 2 ^ 64 * b + 2 ^ 128 * c + 2 ^ 192 * d := by
  unfold combScalar
  have e0 : (a + 2 * b + 4 * c + 8 * d) % 2 = a := by omega
  have e1 : (a + 2 * b + 4 * c + 8 * d) / 2 % 2 = b := by omega
  have e2 : (a + 2 * b + 4 * c + 8 * d) / 4 % 2 = c := by omega
  have e3 : (a + 2 * b + 4 * c + 8 * d) / 8 % 2 = d := by omega
  rw [e0, e1, e2, e3]

/-- What the entry that turn `i` takes from table `o` adds. -/
def combAdd (n i o : Nat) : Nat :=
  2 ^ (32 * o) * (colBit n i o + 2 ^ 64 * colBit n i (2 + o) + 2 ^ 128 * colBit n i (4 + o) +
    2 ^ 192 * colBit n i (6 + o))

theorem combStep_acc {scalar : Exponent} (hw : Wf scalar) {i : Nat} (hi : i < 32) {o : Nat}
    (ho : o < 2) {st : Proj × Bool} {s : Nat} (h : Acc G st s) :
    Acc G (combStep scalar i o st) (s + combAdd (val scalar) i o) := by
  unfold combStep
  simp only
  have hidx := combIndex_spec hw hi o ho
  obtain ⟨idx, he⟩ : ∃ x, x = combIndex scalar i (32 * o) := ⟨_, rfl⟩
  rw [← he] at hidx ⊢
  have h0 := colBit_lt (val scalar) i o
  have h1 := colBit_lt (val scalar) i (2 + o)
  have h2 := colBit_lt (val scalar) i (4 + o)
  have h3 := colBit_lt (val scalar) i (6 + o)
  have hc := combScalar_bits h0 h1 h2 h3
  have hadd : combAdd (val scalar) i o = 2 ^ (32 * o) * combScalar idx.toNat := by
    rw [hidx, hc]; rfl
  have hz : idx.toNat = 0 ↔ combAdd (val scalar) i o = 0 := by
    rw [hadd, hidx, hc]
    have hp : (2 : Nat) ^ (32 * o) ≠ 0 := by positivity
    constructor
    · intro h; 
      have a0 : colBit (val scalar) i o = 0 := by omega
      have a1 : colBit (val scalar) i (2 + o) = 0 := by omega
      have a2 : colBit (val scalar) i (4 + o) = 0 := by omega
      have a3 : colBit (val scalar) i (6 + o) = 0 := by omega
      rw [a0, a1, a2, a3]; simp
    · intro h
      have := (Nat.mul_eq_zero.1 h).resolve_left hp
      omega
  have hle : idx.toNat ≤ 15 := by omega
  have hp : combAdd (val scalar) i o ≠ 0 →
      (Aff.select_point (if o = 0 then PRECOMPUTED0 else PRECOMPUTED1) idx).Is
        (combAdd (val scalar) i o • G) := by
    intro hne
    have hne' : idx.toNat ≠ 0 := fun h => hne (hz.1 h)
    rw [Aff.select_point_spec _ _ hne' hle, hadd]
    have hlt : ∀ i, i < 16 → 2 ^ 32 * combScalar i < 2 ^ 256 := by
      intro i _
      unfold combScalar
      omega
    have hm : idx.toNat - 1 ∈ List.range 15 := List.mem_range.2 (by omega)
    have hsub : idx.toNat - 1 + 1 = idx.toNat := by omega
    rcases (by omega : o = 0 ∨ o = 1) with rfl | rfl
    · have := List.all_eq_true.1 table0_check _ hm
      rw [hsub] at this
      have hl := hlt idx.toNat (by omega)
      rw [if_pos rfl, show 2 ^ (32 * 0) * combScalar idx.toNat = combScalar idx.toNat by simp]
      exact entry_of_check (by omega) this
    · have := List.all_eq_true.1 table1_check _ hm
      rw [hsub] at this
      have hl := hlt idx.toNat (by omega)
      rw [if_neg (by decide)]
      exact entry_of_check hl this
  exact accumulate_acc h hz (fun hk => from_affine_is (hp hk))
    (fun hs hk => add_mixed_is (h.2 hs) (hp hk))

/-- The scalar after `i` turns: of each column of 32 bits the upper `i`. -/
def combValue (n i : Nat) : Nat :=
  (n % 2 ^ 32) / 2 ^ (32 - i) +
    2 ^ 32 * ((n / 2 ^ 32 % 2 ^ 32) / 2 ^ (32 - i)) +
    2 ^ 64 * ((n / 2 ^ 64 % 2 ^ 32) / 2 ^ (32 - i)) +
    2 ^ 96 * ((n / 2 ^ 96 % 2 ^ 32) / 2 ^ (32 - i)) +
    2 ^ 128 * ((n / 2 ^ 128 % 2 ^ 32) / 2 ^ (32 - i)) +
    2 ^ 160 * ((n / 2 ^ 160 % 2 ^ 32) / 2 ^ (32 - i)) +
    2 ^ 192 * ((n / 2 ^ 192 % 2 ^ 32) / 2 ^ (32 - i)) +
    2 ^ 224 * ((n / 2 ^ 224 % 2 ^ 32) / 2 ^ (32 - i))

theorem combValue_zero (n : Nat) : combValue n 0 = 0 := by
  have h : ∀ m : Nat, m % 2 ^ 32 / 2 ^ (32 - 0) = 0 :=
    fun m => Nat.div_eq_of_lt (Nat.mod_lt _ (by norm_num))
  unfold combValue
  simp only [h, Nat.mul_zero, Nat.add_zero]

theorem combValue_full {n : Nat} (h : n < 2 ^ 256) : combValue n 32 = n := by
  unfold combValue
  simp only [Nat.sub_self, pow_zero, Nat.div_one]
  omega

theorem col_step (n c i : Nat) (hi : i < 32) :
    (n / 2 ^ (32 * c) % 2 ^ 32) / 2 ^ (32 - (i + 1)) =
      2 * ((n / 2 ^ (32 * c) % 2 ^ 32) / 2 ^ (32 - i)) + colBit n i c := by
  unfold colBit
  rw [pow_add, ← Nat.div_div_eq_div_mul]
  generalize n / 2 ^ (32 * c) = m
  have e1 : 32 - (i + 1) = 31 - i := by omega
  have e2 : 32 - i = (31 - i) + 1 := by omega
  rw [e1, e2, pow_succ 2 (31 - i), ← Nat.div_div_eq_div_mul]
  have e3 : m % 2 ^ 32 / 2 ^ (31 - i) % 2 = m / 2 ^ (31 - i) % 2 := by
    have e4 : (2 : Nat) ^ 32 = 2 ^ (31 - i) * 2 ^ (i + 1) := by
      rw [← pow_add]; congr 1; omega
    rw [e4, Nat.mod_mul_right_div_self, Nat.mod_mod_of_dvd]
    exact dvd_pow_self 2 (by omega)
  omega

theorem combValue_succ (n i : Nat) (hi : i < 32) :
    combValue n (i + 1) = 2 * combValue n i + combAdd n i 0 + combAdd n i 1 := by
  have h0 := col_step n 0 i hi
  have h1 := col_step n 1 i hi
  have h2 := col_step n 2 i hi
  have h3 := col_step n 3 i hi
  have h4 := col_step n 4 i hi
  have h5 := col_step n 5 i hi
  have h6 := col_step n 6 i hi
  have h7 := col_step n 7 i hi
  simp only [Nat.mul_zero, pow_zero, Nat.div_one, Nat.reduceMul] at h0 h1 h2 h3 h4 h5 h6 h7
  unfold combValue combAdd
  rw [h0, h1, h2, h3, h4, h5, h6, h7]
  simp only [Nat.mul_zero, pow_zero, Nat.reduceMul, Nat.reduceAdd, Nat.add_zero, Nat.one_mul]
  ring

theorem combTurn_acc {scalar : Exponent} (hw : Wf scalar) {st : Proj × Bool} {i : Nat}
    (hi : i < 32) (h : Acc G st (combValue (val scalar) i)) :
    Acc G (combTurn scalar st i) (combValue (val scalar) (i + 1)) := by
  rw [combValue_succ _ _ hi]
  unfold combTurn
  simp only
  refine combStep_acc hw hi (by decide) (combStep_acc hw hi (by decide) ?_)
  by_cases h0 : i = 0
  · subst h0
    rw [combValue_zero] at h ⊢
    simpa using h
  · rw [if_pos h0]
    exact double_acc h

/-- `scalar_base_mul` by a scalar other than zero is the multiple of the base point. -/
theorem scalar_base_mul_is {scalar : Exponent} (hw : Wf scalar) (h0 : val scalar ≠ 0) :
    (scalar_base_mul scalar).Is (val scalar • G) := by
  have key : ∀ k, k ≤ 32 → Acc G ((List.range k).foldl (combTurn scalar) (zero, true))
      (combValue (val scalar) k) := by
    intro k
    induction k with
    | zero =>
      intro _
      rw [combValue_zero]
      exact acc_zero G
    | succ k ih =>
      intro hk
      rw [List.range_succ, List.foldl_append]
      simp only [List.foldl_cons, List.foldl_nil]
      exact combTurn_acc hw (by omega) (ih (by omega))
  have := key 32 (Nat.le_refl _)
  rw [combValue_full (val_lt8 hw)] at this
  exact this.2 h0

end Proj

namespace Point

/-- `base_point_mul` of an exponent between 1 and the order. -/
theorem base_point_mul_is {n : Exponent} (hw : Wf n) (h0 : val n ≠ 0) (hN : val n < N) :
    (base_point_mul n).Is (val n • G) := by
  refine (from_projective_spec (Proj.scalar_base_mul_is hw h0)).1 ?_
  rw [Ne, smul_eq_zero G_ne_zero]
  exact fun h => h0 (Nat.eq_zero_of_dvd_of_lt h hN)

/-- `mul` of an exponent between 1 and the order. -/
theorem mul_is {p : Point} {A : E.Point} (hp : p.Is A) {n : Exponent} (hw : Wf n) (h0 : val n ≠ 0)
    (hN : val n < N) : (mul p n).Is (val n • A) := by
  refine (from_projective_spec (Aff.scalar_mul_is (to_affine_is hp) hw h0)).1 ?_
  rw [Ne, smul_eq_zero hp.ne_zero]
  exact fun h => h0 (Nat.eq_zero_of_dvd_of_lt h hN)

/-- `points_mul` of exponents between 1 and the order: the sum, or two zeros for infinity. -/
theorem points_mul_is {p : Point} {A : E.Point} (hp : p.Is A) {n₁ n₂ : Exponent} (hw₁ : Wf n₁)
    (h₁ : val n₁ ≠ 0) (hw₂ : Wf n₂) (h₂ : val n₂ ≠ 0) :
    (val n₁ • G + val n₂ • A ≠ 0 → (points_mul p n₁ n₂).Is (val n₁ • G + val n₂ • A)) ∧
    (val n₁ • G + val n₂ • A = 0 → Wf (points_mul p n₁ n₂).x ∧ val (points_mul p n₁ n₂).x = 0 ∧
      val (points_mul p n₁ n₂).y = 0) :=
  from_projective_spec (Proj.add_is (Proj.scalar_base_mul_is hw₁ h₁)
    (Aff.scalar_mul_is (to_affine_is hp) hw₂ h₂))

end Point

end Verif.P256
