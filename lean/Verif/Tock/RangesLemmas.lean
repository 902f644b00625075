import Verif.Tock.SpecRanges

/-!
# Lemmas about ranges and partitions
-/
namespace Verif.Tock

theorem ModRange.mem_iff {r : ModRange} {a : Nat} : a ∈ r ↔ r.start ≤ a ∧ a < r.start + r.length := Iff.rfl

theorem ModRange.mem_addresses {r : ModRange} {a : Nat} : a ∈ r.addresses ↔ a ∈ r := by
  simp [ModRange.addresses, ModRange.mem_iff, List.mem_range'_1]

theorem stepBy_nil (m : Nat) : stepBy m [] = [] := by rw [stepBy]

theorem stepBy_cons (m x : Nat) (xs : List Nat) : stepBy m (x :: xs) = x :: stepBy m (xs.drop (m - 1)) := by rw [stepBy]

theorem filter_range'_short (m s n : Nat) (h : ∀ a, s ≤ a → a < s + n → ¬ m ∣ a) :
    (List.range' s n).filter (fun a => decide (m ∣ a)) = [] := by
  rw [List.filter_eq_nil_iff]
  intro a ha
  have := List.mem_range'_1.1 ha
  simpa using h a this.1 this.2

theorem stepBy_range' (m : Nat) (hm : 0 < m) (n s : Nat) (hs : m ∣ s) :
    stepBy m (List.range' s n) = (List.range' s n).filter (fun a => decide (m ∣ a)) := by
  induction n using Nat.strongRecOn generalizing s with
  | ind n ih =>
    cases n with
    | zero => simp [stepBy_nil]
    | succ n =>
      rw [List.range'_succ, stepBy_cons, List.filter_cons_of_pos (by simpa using hs), List.drop_range']
      congr 1
      have hsplit : List.range' (s + 1) n
          = List.range' (s + 1) (min (m - 1) n) ++ List.range' (s + 1 + min (m - 1) n) (n - min (m - 1) n) := by
        rw [List.range'_append_1]; congr 1; omega
      have hno : (List.range' (s + 1) (min (m - 1) n)).filter (fun a => decide (m ∣ a)) = [] := by
        apply filter_range'_short
        intro a h1 h2 hd
        obtain ⟨k, hk⟩ := hd
        obtain ⟨j, hj⟩ := hs
        subst hj
        have hlt : m * k < m * (j + 1) := by rw [Nat.mul_add, Nat.mul_one]; omega
        have h3 : k < j + 1 := Nat.lt_of_mul_lt_mul_left hlt
        have hgt : m * j < m * k := by omega
        have h4 : j < k := Nat.lt_of_mul_lt_mul_left hgt
        omega
      rw [hsplit, List.filter_append, hno, List.nil_append]
      by_cases hn : m - 1 ≤ n
      · rw [Nat.min_eq_left hn]
        have hsm : s + 1 + (m - 1) * 1 = s + m := by omega
        have hsm' : s + 1 + (m - 1) = s + m := by omega
        rw [hsm, hsm']
        exact ih (n - (m - 1)) (by omega) (s + m) (Nat.dvd_add hs (Nat.dvd_refl m))
      · rw [Nat.min_eq_right (by omega)]
        have : n - (m - 1) = 0 := by omega
        simp [this, stepBy_nil]

theorem take_range' (s n k : Nat) : (List.range' s n).take k = List.range' s (min k n) := by
  apply List.ext_getElem
  · simp
  · intro i h1 h2; simp

theorem skip_aligned (m s : Nat) (hm : 0 < m) : m ∣ s + (m - s % m) % m := by
  have h1 := Nat.mod_add_div s m
  have h2 := Nat.mod_lt s hm
  by_cases h0 : s % m = 0
  · rw [h0, Nat.sub_zero, Nat.mod_self, Nat.add_zero]; exact Nat.dvd_of_mod_eq_zero h0
  · rw [Nat.mod_eq_of_lt (by omega : m - s % m < m)]
    refine ⟨s / m + 1, ?_⟩
    rw [Nat.mul_add, Nat.mul_one]
    omega

theorem skip_least (m s a : Nat) (hm : 0 < m) (h1 : s ≤ a) (h2 : a < s + (m - s % m) % m) : ¬ m ∣ a := by
  intro ⟨k, hk⟩
  obtain ⟨j, hj⟩ := skip_aligned m s hm
  have h3 := Nat.mod_lt (m - s % m) hm
  have hkj : m * k < m * j := by omega
  have h4 : k < j := Nat.lt_of_mul_lt_mul_left hkj
  have h5 : m * (k + 1) ≤ m * j := Nat.mul_le_mul_left m h4
  rw [Nat.mul_add, Nat.mul_one] at h5
  omega

theorem alignedIter_eq (r : ModRange) (m : Nat) (hm : 0 < m) :
    r.alignedIter m = (List.range' r.start (min r.length (usizeSize - r.start))).filter (fun a => decide (m ∣ a)) := by
  unfold ModRange.alignedIter
  rw [take_range', List.drop_range', Nat.mul_one, stepBy_range' m hm _ _ (skip_aligned m r.start hm)]
  generalize min r.length (usizeSize - r.start) = n
  generalize hk : (m - r.start % m) % m = k
  have hsplit : List.range' r.start n
      = List.range' r.start (min k n) ++ List.range' (r.start + min k n) (n - min k n) := by
    rw [List.range'_append_1]; congr 1; omega
  have hno : (List.range' r.start (min k n)).filter (fun a => decide (m ∣ a)) = [] := by
    apply filter_range'_short
    intro a h1 h2
    exact skip_least m r.start a hm h1 (by omega)
  rw [hsplit, List.filter_append, hno, List.nil_append]
  by_cases hn : k ≤ n
  · rw [Nat.min_eq_left hn]
  · rw [Nat.min_eq_right (by omega)]
    have : n - k = 0 := by omega
    simp [this]

/-! ### Partitions -/

/-- The ranges of a partition are ascending, with a gap between two of them if they are not empty. -/
def Ordered (p : Partition) : Prop :=
  p.Pairwise fun r s => r.start + r.length ≤ s.start ∧ r.start < s.start

theorem addressesOf_append (p q : List ModRange) : addressesOf (p ++ q) = addressesOf p ++ addressesOf q := by
  simp [addressesOf]

theorem addressesOf_cons (r : ModRange) (q : List ModRange) : addressesOf (r :: q) = r.addresses ++ addressesOf q := by
  simp [addressesOf]

theorem addressesOf_nil : addressesOf [] = [] := rfl

theorem mem_addressesOf {p : List ModRange} {a : Nat} : a ∈ addressesOf p ↔ ∃ r ∈ p, a ∈ r := by
  simp [addressesOf, ModRange.mem_addresses]

theorem Ordered.ascending {p : Partition} (h : Ordered p) : (addressesOf p).Pairwise (· < ·) := by
  induction p with
  | nil => simp [addressesOf]
  | cons r p ih =>
    obtain ⟨h1, h2⟩ := List.pairwise_cons.1 h
    rw [addressesOf_cons, List.pairwise_append]
    refine ⟨List.pairwise_lt_range', ih h2, ?_⟩
    intro a ha b hb
    obtain ⟨s, hs, hb⟩ := mem_addressesOf.1 hb
    have ha := ModRange.mem_addresses.1 ha
    have := h1 s hs
    rw [ModRange.mem_iff] at ha hb
    omega

theorem ModRange.append_true {r s : ModRange} (h : (r.append s).1 = true) :
    (r.append s).2.addresses = r.addresses ++ s.addresses ∧
      ((r.length = 0 ∧ (r.append s).2 = s) ∨
        (r.length ≠ 0 ∧ s.start = r.start + r.length ∧ (r.append s).2 = ⟨r.start, r.length + s.length⟩)) := by
  unfold ModRange.append at *
  simp only [ModRange.isEmpty, beq_iff_eq] at *
  split at h
  · rename_i h0
    rw [if_pos h0]
    simp [ModRange.addresses, h0]
  · rename_i h0
    rw [if_neg h0]
    split at h
    · simp at h
    · rename_i h1
      rw [if_neg h1]
      split at h
      · simp at h
      · rename_i h2
        rw [if_neg h2]
        split at h
        · simp at h
        · rename_i h3
          rw [if_neg h3]
          split at h
          · rename_i h4
            rw [if_pos h4]
            have : s.start = r.start + r.length := by omega
            refine ⟨?_, .inr ⟨h0, this, rfl⟩⟩
            simp [ModRange.addresses, this, List.range'_append_1]
          · simp at h

theorem ModRange.append_false {r s : ModRange} (h : (r.append s).1 = false) :
    (r.append s).2 = r ∧ r.length ≠ 0 ∧
      (s.length = 0 ∨ s.start ≠ r.start + r.length ∨ usizeSize ≤ r.length + s.length) := by
  unfold ModRange.append at *
  simp only [ModRange.isEmpty, beq_iff_eq] at *
  split at h
  · simp at h
  · rename_i h0
    rw [if_neg h0]
    split at h
    · rename_i h1; rw [if_pos h1]; exact ⟨rfl, h0, .inl h1⟩
    · rename_i h1
      rw [if_neg h1]
      split at h
      · rename_i h2; rw [if_pos h2]; exact ⟨rfl, h0, .inr (.inl (by omega))⟩
      · rename_i h2
        rw [if_neg h2]
        split at h
        · rename_i h3; rw [if_pos h3]; exact ⟨rfl, h0, .inr (.inl (by omega))⟩
        · rename_i h3
          rw [if_neg h3]
          split at h
          · simp at h
          · rename_i h4; rw [if_neg h4]; exact ⟨rfl, h0, .inr (.inr (by omega))⟩

/-- Nothing of the partition is at or above `a`. -/
def Below (p : Partition) (a : Nat) : Prop := ∀ r ∈ p, r.start + r.length ≤ a ∧ r.start < a

theorem append_spec {p : Partition} (ho : Ordered p) {r : ModRange} :
    ((Partition.append p r).1 = true → Below p r.start ∧ Ordered (Partition.append p r).2 ∧
      addressesOf (Partition.append p r).2 = addressesOf p ++ r.addresses) ∧
    ((Partition.append p r).1 = false → (Partition.append p r).2 = p ∧ ¬ Below p r.start) := by
  unfold Partition.append
  cases hl : p.getLast? with
  | none =>
    rw [List.getLast?_eq_none_iff] at hl
    subst hl
    simp [Below, Ordered, addressesOf]
  | some last =>
    obtain ⟨q, rfl⟩ := List.getLast?_eq_some_iff.1 hl
    obtain ⟨hq, -, hql⟩ := List.pairwise_append.1 ho
    have hql : ∀ a ∈ q, a.start + a.length ≤ last.start ∧ a.start < last.start :=
      fun a ha => hql a ha last (by simp)
    dsimp only
    split
    · rename_i hc
      refine ⟨by simp, fun _ => ⟨rfl, fun hb => ?_⟩⟩
      have := hb last (by simp)
      omega
    · rename_i hc
      have hb : Below (q ++ [last]) r.start := by
        intro a ha
        rcases List.mem_append.1 ha with ha | ha
        · have := hql a ha; omega
        · simp at ha; subst ha; omega
      split
      · rename_i ht
        refine ⟨fun _ => ⟨hb, ?_, ?_⟩, by simp⟩
        · rw [List.dropLast_concat]
          refine List.pairwise_append.2 ⟨hq, by simp, ?_⟩
          intro a ha b hbm
          simp at hbm
          subst hbm
          have h1 := hql a ha
          rcases (ModRange.append_true ht).2 with ⟨-, he⟩ | ⟨-, -, he⟩ <;> rw [he]
          · exact hb a (by simp [ha])
          · exact h1
        · rw [List.dropLast_concat, addressesOf_append, addressesOf_append, addressesOf_cons, addressesOf_cons,
            (ModRange.append_true ht).1, addressesOf_nil, List.append_nil, List.append_nil, List.append_assoc]
      · rename_i ht
        have ht : (last.append r).1 = false := by simpa using ht
        have he := (ModRange.append_false ht).1
        refine ⟨fun _ => ⟨hb, ?_, ?_⟩, by simp⟩
        · dsimp only
          rw [he, List.dropLast_concat]
          have : q ++ [last, r] = (q ++ [last]) ++ [r] := by simp
          rw [this]
          refine List.pairwise_append.2 ⟨ho, by simp, ?_⟩
          intro a ha b hbm
          simp at hbm
          subst hbm
          exact hb a ha
        · dsimp only
          rw [he, List.dropLast_concat]
          simp [addressesOf_append, addressesOf_cons, addressesOf_nil]

/-! ### Offsets -/

theorem findAddress_sound {p : Partition} (hin : ∀ r ∈ p, r.Inside) {off len a : Nat}
    (h : Partition.findAddress p off len = some a) :
    (addressesOf p)[off]? = some a ∧ ∀ i < len, (addressesOf p)[off + i]? = some (a + i) := by
  induction p generalizing off with
  | nil => simp [Partition.findAddress] at h
  | cons r p ih =>
    have hl : r.addresses.length = r.length := by simp [ModRange.addresses]
    rw [addressesOf_cons]
    unfold Partition.findAddress at h
    split at h
    · rename_i ho
      split at h
      · rename_i hg
        have hr := hin r (by simp)
        have hm : (r.start + off) % usizeSize = r.start + off :=
          Nat.mod_eq_of_lt (by unfold ModRange.Inside at hr; omega)
        rw [hm] at h
        cases h
        refine ⟨?_, fun i hi => ?_⟩
        · rw [List.getElem?_append_left (by omega)]
          simp [ModRange.addresses, ho]
        · rw [List.getElem?_append_left (by omega)]
          have : off + i < r.length := by omega
          simp [ModRange.addresses, Nat.add_assoc, this]
      · simp at h
    · rename_i ho
      obtain ⟨h1, h2⟩ := ih (fun r hr => hin r (by simp [hr])) h
      refine ⟨?_, fun i hi => ?_⟩
      · rw [List.getElem?_append_right (by omega), hl]; exact h1
      · rw [List.getElem?_append_right (by omega), hl, ← h2 i hi]
        congr 1; omega

/-- There is a gap between the ranges. -/
def Gapped (p : Partition) : Prop := p.Pairwise fun r s => r.start + r.length < s.start

theorem findAddress_complete {p : Partition} (hg : Gapped p) (hin : ∀ r ∈ p, r.Inside) {off len a : Nat}
    (h0 : (addressesOf p)[off]? = some a) (h : ∀ i < len, (addressesOf p)[off + i]? = some (a + i)) :
    Partition.findAddress p off len = some a := by
  induction p generalizing off with
  | nil => simp [addressesOf] at h0
  | cons r p ih =>
    have hl : r.addresses.length = r.length := by simp [ModRange.addresses]
    obtain ⟨hg1, hg2⟩ := List.pairwise_cons.1 hg
    rw [addressesOf_cons] at h0 h
    unfold Partition.findAddress
    split
    · rename_i ho
      rw [List.getElem?_append_left (by omega)] at h0
      have ha : r.start + off = a := by simpa [ModRange.addresses, ho] using h0
      have hr := hin r (by simp)
      have hm : (r.start + off) % usizeSize = r.start + off :=
        Nat.mod_eq_of_lt (by unfold ModRange.Inside at hr; omega)
      split
      · rw [hm, ha]
      · rename_i hlen
        exfalso
        have h1 := h (r.length - off) (by omega)
        rw [List.getElem?_append_right (by omega)] at h1
        have h2 := List.mem_of_getElem? h1
        obtain ⟨s, hs, hs2⟩ := mem_addressesOf.1 h2
        have := hg1 s hs
        rw [ModRange.mem_iff] at hs2
        omega
    · rename_i ho
      rw [List.getElem?_append_right (by omega), hl] at h0
      refine ih hg2 (fun r hr => hin r (by simp [hr])) h0 fun i hi => ?_
      have := h i hi
      rw [List.getElem?_append_right (by omega), hl] at this
      rw [← this]; congr 1; omega

theorem filter_range'_all (s n a : Nat) (h : a ≤ s) :
    (List.range' s n).filter (fun x => decide (a ≤ x)) = List.range' s n := by
  rw [List.filter_eq_self]
  intro x hx
  have := List.mem_range'_1.1 hx
  simp; omega

theorem filter_range'_none (s n a : Nat) (h : s + n ≤ a) :
    (List.range' s n).filter (fun x => decide (a ≤ x)) = [] := by
  rw [List.filter_eq_nil_iff]
  intro x hx
  have := List.mem_range'_1.1 hx
  simp; omega

theorem rangesFrom_eq (p : Partition) (a : Nat) :
    addressesOf (Partition.rangesFrom p a) = (addressesOf p).filter (fun x => decide (a ≤ x)) := by
  induction p with
  | nil => rfl
  | cons r p ih =>
    rw [addressesOf_cons, List.filter_append, ← ih, Partition.rangesFrom]
    split
    · rename_i h
      rw [addressesOf_cons]
      congr 1
      exact (filter_range'_all _ _ _ h).symm
    · rename_i h
      split
      · rename_i h2
        rw [addressesOf_cons]
        congr 1
        unfold ModRange.addresses
        have hs : List.range' r.start r.length
            = List.range' r.start (a - r.start) ++ List.range' (r.start + (a - r.start)) (r.length - (a - r.start)) := by
          rw [List.range'_append_1]; congr 1; omega
        rw [hs, List.filter_append, filter_range'_none _ _ _ (by omega), filter_range'_all _ _ _ (by omega),
          List.nil_append]
        congr 1; dsimp only; omega
      · rename_i h2
        unfold ModRange.addresses
        rw [filter_range'_none _ _ _ (by omega), List.nil_append]

theorem foldl_length (p : Partition) (n : Nat) :
    p.foldl (fun n (r : ModRange) => (n + r.length) % usizeSize) n % usizeSize
      = (n + (addressesOf p).length) % usizeSize := by
  induction p generalizing n with
  | nil => simp [addressesOf]
  | cons r p ih =>
    rw [List.foldl_cons, ih, addressesOf_cons, List.length_append]
    have : r.addresses.length = r.length := by simp [ModRange.addresses]
    rw [this, Nat.mod_add_mod, Nat.add_assoc]

theorem foldl_lt (p : Partition) (n : Nat) (hn : n < usizeSize) :
    p.foldl (fun n (r : ModRange) => (n + r.length) % usizeSize) n < usizeSize := by
  induction p generalizing n with
  | nil => exact hn
  | cons r p ih => exact ih _ (Nat.mod_lt _ (by decide))

theorem length_eq {p : Partition} (h : (addressesOf p).length < usizeSize) :
    Partition.length p = (addressesOf p).length := by
  have h1 := foldl_length p 0
  rw [Nat.mod_eq_of_lt (foldl_lt p 0 (by decide)), Nat.zero_add, Nat.mod_eq_of_lt h] at h1
  exact h1

/-- Ascending addresses below a bound are at most as many as the bound. -/
theorem ascending_length {l : List Nat} (h : l.Pairwise (· < ·)) {lo n : Nat} (hb : ∀ a ∈ l, lo ≤ a ∧ a < lo + n) :
    l.length ≤ n := by
  induction l generalizing lo n with
  | nil => simp
  | cons a l ih =>
    obtain ⟨h1, h2⟩ := List.pairwise_cons.1 h
    have ha := hb a (by simp)
    have := ih h2 (lo := a + 1) (n := lo + n - (a + 1)) (fun b hbm => by
      have := h1 b hbm
      have := hb b (by simp [hbm])
      omega)
    simp
    omega

/-! ### Partitions that are built by appending -/

theorem foldl_none (rs : List ModRange) :
    rs.foldl (fun p r => p.bind fun p => if (Partition.append p r).1 then some (Partition.append p r).2 else none)
      (none : Option Partition) = none := by
  induction rs with
  | nil => rfl
  | cons r rs ih => exact ih

theorem build_induction {P : Partition → Prop} {Q : ModRange → Prop} (h0 : P [])
    (hs : ∀ p r, P p → Q r → (Partition.append p r).1 = true → P (Partition.append p r).2)
    {rs : List ModRange} (hQ : ∀ r ∈ rs, Q r) {p : Partition} (h : build rs = some p) : P p := by
  unfold build at h
  have key : ∀ (rs : List ModRange) (q : Partition), (∀ r ∈ rs, Q r) → P q →
      rs.foldl (fun p r => p.bind fun p => if (Partition.append p r).1 then some (Partition.append p r).2 else none)
        (some q) = some p → P p := by
    intro rs
    induction rs with
    | nil => intro q _ hq he; cases he; exact hq
    | cons r rs ih =>
      intro q hQ hq he
      rw [List.foldl_cons] at he
      simp only [Option.bind_some] at he
      by_cases hc : (Partition.append q r).1 = true
      · rw [if_pos hc] at he
        exact ih _ (fun r hr => hQ r (by simp [hr])) (hs q r hq (hQ r (by simp)) hc) he
      · rw [if_neg hc, foldl_none] at he
        cases he
  exact key rs [] hQ h0 h

theorem build_addresses {rs : List ModRange} {p : Partition} (h : build rs = some p) :
    Ordered p ∧ addressesOf p = addressesOf rs := by
  have key : ∀ (rs : List ModRange) (q : Partition), Ordered q →
      rs.foldl (fun p r => p.bind fun p => if (Partition.append p r).1 then some (Partition.append p r).2 else none)
        (some q) = some p → Ordered p ∧ addressesOf p = addressesOf q ++ addressesOf rs := by
    intro rs
    induction rs with
    | nil => intro q hq he; cases he; exact ⟨hq, by simp [addressesOf]⟩
    | cons r rs ih =>
      intro q hq he
      rw [List.foldl_cons] at he
      simp only [Option.bind_some] at he
      by_cases hc : (Partition.append q r).1 = true
      · rw [if_pos hc] at he
        obtain ⟨-, h1, h2⟩ := (append_spec hq).1 hc
        obtain ⟨h3, h4⟩ := ih _ h1 he
        refine ⟨h3, ?_⟩
        rw [h4, h2, addressesOf_cons, List.append_assoc]
      · rw [if_neg hc, foldl_none] at he
        cases he
  obtain ⟨h1, h2⟩ := key rs [] (by simp [Ordered]) h
  exact ⟨h1, by simpa [addressesOf_nil] using h2⟩

theorem append_gapped {p : Partition} {r : ModRange} (hg : Gapped p) (hin : ∀ r ∈ p, r.Inside ∧ r.length ≠ 0)
    (hr : r.Inside ∧ r.length ≠ 0) (h : (Partition.append p r).1 = true) :
    Gapped (Partition.append p r).2 ∧ ∀ s ∈ (Partition.append p r).2, s.Inside ∧ s.length ≠ 0 := by
  unfold Partition.append at *
  cases hl : p.getLast? with
  | none =>
    rw [List.getLast?_eq_none_iff] at hl
    subst hl
    simpa [Gapped] using hr
  | some last =>
    obtain ⟨q, rfl⟩ := List.getLast?_eq_some_iff.1 hl
    obtain ⟨hq, -, hql⟩ := List.pairwise_append.1 hg
    have hql : ∀ a ∈ q, a.start + a.length < last.start := fun a ha => hql a ha last (by simp)
    have hlast := hin last (by simp)
    rw [hl] at h
    dsimp only at h ⊢
    split at h
    · simp at h
    · rename_i hc
      rw [if_neg hc]
      split
      · rename_i ht
        rw [List.dropLast_concat]
        rcases (ModRange.append_true ht).2 with ⟨h0, -⟩ | ⟨-, hs, he⟩
        · exact absurd h0 hlast.2
        · constructor
          · refine List.pairwise_append.2 ⟨hq, by simp, ?_⟩
            intro a ha b hbm
            simp at hbm
            subst hbm
            rw [he]
            exact hql a ha
          · intro s hsm
            rcases List.mem_append.1 hsm with hsm | hsm
            · exact hin s (by simp [hsm])
            · simp at hsm
              subst hsm
              rw [he]
              unfold ModRange.Inside at *
              dsimp only
              omega
      · rename_i ht
        have ht : (last.append r).1 = false := by simpa using ht
        obtain ⟨he, -, hc2⟩ := ModRange.append_false ht
        dsimp only
        rw [he, List.dropLast_concat]
        have hlr : last.start + last.length < r.start := by
          unfold ModRange.Inside at *
          rcases hc2 with h1 | h1 | h1
          · omega
          · omega
          · omega
        constructor
        · refine List.pairwise_append.2 ⟨hq, by simp [hlr], ?_⟩
          intro a ha b hbm
          simp at hbm
          have := hql a ha
          rcases hbm with rfl | rfl <;> omega
        · intro s hsm
          simp at hsm
          rcases hsm with hsm | rfl | rfl
          · exact hin s (by simp [hsm])
          · exact hlast
          · exact hr

theorem build_gapped {rs : List ModRange} (hrs : ∀ r ∈ rs, r.Inside ∧ r.length ≠ 0) {p : Partition}
    (h : build rs = some p) : Gapped p ∧ ∀ s ∈ p, s.Inside ∧ s.length ≠ 0 :=
  build_induction (P := fun p => Gapped p ∧ ∀ s ∈ p, s.Inside ∧ s.length ≠ 0)
    (Q := fun r => r.Inside ∧ r.length ≠ 0) ⟨by simp [Gapped], by simp⟩
    (fun _ _ hp hr ht => append_gapped hp.1 hp.2 hr ht) hrs h

end Verif.Tock
