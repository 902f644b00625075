import Verif.Cbor.Lemmas

/-! Order lemmas: `Value.cmp` is the bytewise order of canonical encodings. -/
namespace Verif.Cbor
open Verif.Utf8 (toNat_ofNat byte_ext)

theorem cmpBytes_refl (s : Bytes) : cmpBytes s s = .eq := by
  induction s with
  | nil => rfl
  | cons a s ih => simp [cmpBytes, ih, Ordering.then]

theorem cmpBytes_eq_iff {s t : Bytes} : cmpBytes s t = .eq ↔ s = t := by
  constructor
  · intro h
    induction s generalizing t with
    | nil => cases t <;> simp [cmpBytes] at h ⊢
    | cons a s ih =>
      cases t with
      | nil => simp [cmpBytes] at h
      | cons b t =>
        simp only [cmpBytes, Ordering.then_eq_eq] at h
        obtain ⟨h1, h2⟩ := h
        rw [ih h2]
        rw [Nat.compare_eq_eq, UInt8.toNat_inj] at h1
        rw [h1]
  · rintro rfl; exact cmpBytes_refl s

theorem cmpBytes_swap (s t : Bytes) : (cmpBytes s t).swap = cmpBytes t s := by
  induction s generalizing t with
  | nil => cases t <;> rfl
  | cons a s ih =>
    cases t with
    | nil => rfl
    | cons b t => simp [cmpBytes, Ordering.swap_then, ih, Nat.compare_swap]

theorem cmpBytes_lt_iff {s t : Bytes} : cmpBytes s t = .lt ↔ LexLt s t := by
  induction s generalizing t with
  | nil => cases t <;> simp [cmpBytes, LexLt]
  | cons a s ih =>
    cases t with
    | nil => simp [cmpBytes, LexLt]
    | cons b t => simp [cmpBytes, LexLt, Ordering.then_eq_lt, Nat.compare_eq_lt, Nat.compare_eq_eq, ih]

theorem LexLt.trans {a b c : Bytes} (h1 : LexLt a b) (h2 : LexLt b c) : LexLt a c := by
  induction a generalizing b c with
  | nil =>
    cases c with
    | nil => cases b <;> simp [LexLt] at h1 h2
    | cons => simp [LexLt]
  | cons x a ih =>
    cases b with
    | nil => simp [LexLt] at h1
    | cons y b =>
      cases c with
      | nil => simp [LexLt] at h2
      | cons z c =>
        simp only [LexLt] at *
        rcases h1 with h1 | ⟨h1, h1'⟩ <;> rcases h2 with h2 | ⟨h2, h2'⟩
        · left; omega
        · left; omega
        · left; omega
        · right; exact ⟨by omega, ih h1' h2'⟩

theorem LexLt.irrefl (a : Bytes) : ¬ LexLt a a := by
  induction a with
  | nil => simp [LexLt]
  | cons x a ih => simp [LexLt, ih]

theorem LexLt.total (a b : Bytes) : LexLt a b ∨ a = b ∨ LexLt b a := by
  rcases h : cmpBytes a b with _ | _ | _
  · exact Or.inl (cmpBytes_lt_iff.1 h)
  · exact Or.inr (Or.inl (cmpBytes_eq_iff.1 h))
  · refine Or.inr (Or.inr (cmpBytes_lt_iff.1 ?_))
    rw [← cmpBytes_swap, h]; rfl

/-! ### Concatenations -/

theorem then_assoc (a b c : Ordering) : (a.then b).then c = a.then (b.then c) := by
  cases a <;> rfl

theorem cmpBytes_append {x y : Bytes} (h : x.length = y.length) (a b : Bytes) :
    cmpBytes (x ++ a) (y ++ b) = (cmpBytes x y).then (cmpBytes a b) := by
  induction x generalizing y with
  | nil => cases y with
    | nil => rfl
    | cons => simp at h
  | cons c x ih =>
    cases y with
    | nil => simp at h
    | cons d y =>
      simp only [List.cons_append, cmpBytes, then_assoc]
      rw [ih (by simpa using h)]

theorem cmp_ofNat {m n : Nat} (hm : m < 256) (hn : n < 256) :
    compare (UInt8.ofNat m).toNat (UInt8.ofNat n).toNat = compare m n := by
  rw [toNat_ofNat m hm, toNat_ofNat n hn]

theorem compare_lt {m n : Nat} (h : m < n) : compare m n = .lt := Nat.compare_eq_lt.2 h
theorem compare_gt {m n : Nat} (h : n < m) : compare m n = .gt := Nat.compare_eq_gt.2 h
theorem compare_self (m : Nat) : compare m m = .eq := Nat.compare_eq_eq.2 rfl

/-- Splitting a comparison at a digit boundary. -/
theorem compare_digit (k m n : Nat) (hk : 0 < k) :
    compare m n = (compare (m / k) (n / k)).then (compare (m % k) (n % k)) := by
  rcases Nat.lt_trichotomy (m / k) (n / k) with h | h | h
  · rw [compare_lt h]
    have : m < n := by
      have := (Nat.div_lt_iff_lt_mul hk).1 (Nat.lt_of_lt_of_le h (Nat.le_refl _))
      have h2 := Nat.div_mul_le_self n k
      omega
    rw [compare_lt this]; rfl
  · rw [h, compare_self, Ordering.then]
    have e1 := Nat.div_add_mod m k
    have e2 := Nat.div_add_mod n k
    rw [h] at e1
    rcases Nat.lt_trichotomy (m % k) (n % k) with h' | h' | h'
    · rw [compare_lt h', compare_lt (by omega)]
    · rw [h', compare_self, show m = n by omega, compare_self]
    · rw [compare_gt h', compare_gt (by omega)]
  · rw [compare_gt h]
    have : n < m := by
      have := (Nat.div_lt_iff_lt_mul hk).1 (Nat.lt_of_lt_of_le h (Nat.le_refl _))
      have h2 := Nat.div_mul_le_self m k
      omega
    rw [compare_gt this]; rfl

theorem then_eq_right (o : Ordering) : Ordering.eq.then o = o := rfl

theorem cmp_head_diff {f g : UInt8} (h : f.toNat ≠ g.toNat) (a b : Bytes) :
    cmpBytes (f :: a) (g :: b) = compare f.toNat g.toNat := by
  simp only [cmpBytes]
  rcases Nat.lt_or_gt_of_ne h with h | h
  · rw [compare_lt h]; rfl
  · rw [compare_gt h]; rfl

/-- First byte of a head. -/
def headInfo (n : Nat) : Nat :=
  if n < 24 then n else if n < 2 ^ 8 then 24 else if n < 2 ^ 16 then 25 else if n < 2 ^ 32 then 26 else 27

theorem head_eq (t n : Nat) :
    head t n = UInt8.ofNat (t * 32 + headInfo n) ::
      (if n < 24 then [] else if n < 2 ^ 8 then beBytes 1 n else if n < 2 ^ 16 then beBytes 2 n
        else if n < 2 ^ 32 then beBytes 4 n else beBytes 8 n) := by
  unfold head headInfo
  simp only [beBytes]
  repeat' split
  all_goals first
    | rfl
    | (simp only [List.cons.injEq, and_true, true_and]; congr 1; omega)
    | simp

theorem headInfo_lt (n : Nat) : headInfo n < 28 := by unfold headInfo; repeat' split
                                                      all_goals omega

theorem headInfo_mono {m n : Nat} (h : headInfo m < headInfo n) : m < n := by
  unfold headInfo at h
  repeat' split at h
  all_goals omega

theorem beBytes_length (k n : Nat) : (beBytes k n).length = k := by
  induction k with
  | zero => rfl
  | succ k ih => simp [beBytes, ih]

theorem cmp_beBytes (k m n : Nat) :
    cmpBytes (beBytes k m) (beBytes k n) = compare (m % 256 ^ k) (n % 256 ^ k) := by
  induction k with
  | zero => simp [beBytes, cmpBytes, Nat.mod_one, compare_self]
  | succ k ih =>
    simp only [beBytes, cmpBytes]
    rw [cmp_ofNat (Nat.mod_lt _ (by omega)) (Nat.mod_lt _ (by omega)), ih]
    have hk : 0 < 256 ^ k := Nat.pow_pos (by omega)
    rw [compare_digit (256 ^ k) (m % 256 ^ (k + 1)) (n % 256 ^ (k + 1)) hk]
    rw [Nat.mod_mod_of_dvd _ (Nat.pow_dvd_pow 256 (Nat.le_succ k)),
      Nat.mod_mod_of_dvd _ (Nat.pow_dvd_pow 256 (Nat.le_succ k))]
    rw [Nat.pow_succ, Nat.mod_mul_right_div_self, Nat.mod_mul_right_div_self]

/-- Comparing two encodings compares major type, argument, then the rest. -/
theorem cmp_head (t t' n n' : Nat) (ht : t < 8) (ht' : t' < 8) (hn : n < 2 ^ 64) (hn' : n' < 2 ^ 64)
    (a b : Bytes) :
    cmpBytes (head t n ++ a) (head t' n' ++ b)
      = (compare t t').then ((compare n n').then (cmpBytes a b)) := by
  have i := headInfo_lt n
  have i' := headInfo_lt n'
  rw [head_eq, head_eq]
  simp only [List.cons_append]
  by_cases hb : t * 32 + headInfo n = t' * 32 + headInfo n'
  · have htt : t = t' := by omega
    have hii : headInfo n = headInfo n' := by omega
    subst htt
    rw [hb, cmpBytes, compare_self, compare_self, then_eq_right, then_eq_right]
    have key : ∀ k, n < 256 ^ k → n' < 256 ^ k →
        cmpBytes (beBytes k n ++ a) (beBytes k n' ++ b) = (compare n n').then (cmpBytes a b) := by
      intro k h1 h2
      rw [cmpBytes_append (by simp [beBytes_length]), cmp_beBytes, Nat.mod_eq_of_lt h1, Nat.mod_eq_of_lt h2]
    unfold headInfo at hii
    by_cases h1 : n < 24
    · have : n = n' := by
        rw [if_pos h1] at hii
        repeat' split at hii
        all_goals omega
      subst this
      simp [h1, compare_self, then_eq_right]
    by_cases h2 : n < 2 ^ 8
    · have : ¬ n' < 24 ∧ n' < 2 ^ 8 := by
        repeat' split at hii
        all_goals omega
      rw [if_neg h1, if_pos h2, if_neg this.1, if_pos this.2]
      exact key 1 (by omega) (by omega)
    by_cases h3 : n < 2 ^ 16
    · have : ¬ n' < 24 ∧ ¬ n' < 2 ^ 8 ∧ n' < 2 ^ 16 := by
        repeat' split at hii
        all_goals omega
      rw [if_neg h1, if_neg h2, if_pos h3, if_neg this.1, if_neg this.2.1, if_pos this.2.2]
      exact key 2 (by omega) (by omega)
    by_cases h4 : n < 2 ^ 32
    · have : ¬ n' < 24 ∧ ¬ n' < 2 ^ 8 ∧ ¬ n' < 2 ^ 16 ∧ n' < 2 ^ 32 := by
        repeat' split at hii
        all_goals omega
      rw [if_neg h1, if_neg h2, if_neg h3, if_pos h4, if_neg this.1, if_neg this.2.1, if_neg this.2.2.1,
        if_pos this.2.2.2]
      exact key 4 (by omega) (by omega)
    · have : ¬ n' < 24 ∧ ¬ n' < 2 ^ 8 ∧ ¬ n' < 2 ^ 16 ∧ ¬ n' < 2 ^ 32 := by
        repeat' split at hii
        all_goals omega
      rw [if_neg h1, if_neg h2, if_neg h3, if_neg h4, if_neg this.1, if_neg this.2.1, if_neg this.2.2.1,
        if_neg this.2.2.2]
      exact key 8 (by omega) (by omega)
  · rw [cmp_head_diff (by rw [toNat_ofNat _ (by omega), toNat_ofNat _ (by omega)]; exact hb)]
    rw [cmp_ofNat (by omega) (by omega)]
    rcases Nat.lt_trichotomy t t' with h | h | h
    · rw [compare_lt h, compare_lt (by omega)]; rfl
    · subst h
      rw [compare_self, then_eq_right]
      have hne : headInfo n ≠ headInfo n' := by omega
      rcases Nat.lt_or_gt_of_ne hne with h' | h'
      · rw [compare_lt (headInfo_mono h'), compare_lt (by omega)]; rfl
      · rw [compare_gt (headInfo_mono h'), compare_gt (by omega)]; rfl
    · rw [compare_gt h, compare_gt (by omega)]; rfl

theorem compare_int_swap {i j : Int} (hi : i < 0) (hj : j < 0) :
    (compare i j).swap = compare (-1 - i).toNat (-1 - j).toNat := by
  rcases Int.lt_trichotomy i j with h | h | h
  · rw [show compare i j = .lt from Int.compare_eq_lt.2 h]
    rw [compare_gt (by omega)]; rfl
  · subst h
    rw [compare_self, show compare i i = .eq from Int.compare_eq_eq.2 rfl]; rfl
  · rw [show compare i j = .gt from Int.compare_eq_gt.2 h]
    rw [compare_lt (by omega)]; rfl

theorem compare_ne_then {m n : Nat} (h : m ≠ n) (o : Ordering) : (compare m n).then o = compare m n := by
  rcases Nat.lt_or_gt_of_ne h with h | h
  · rw [compare_lt h]; rfl
  · rw [compare_gt h]; rfl

theorem Value.typeLabel_lt (v : Value) : v.typeLabel < 8 := by cases v <;> simp [Value.typeLabel]

theorem Simple.toNat_lt (s : Simple) : s.toNat < 24 := by cases s <;> simp [Simple.toNat]

/-- Argument of the head of a value. -/
def Value.arg : Value → Nat
  | .unsigned n => n
  | .negative i => (-1 - i).toNat
  | .bytes b => b.length
  | .text b => b.length
  | .array l => l.length
  | .map m => m.length
  | .tag n _ => n
  | .simple s => s.toNat

/-- Content after the head of a value. -/
def Value.content : Value → Bytes
  | .bytes b => b
  | .text b => b
  | .array l => Value.encList l
  | .map m => Value.encMap m
  | .tag _ v => v.enc
  | _ => []

theorem Value.enc_eq (v : Value) : v.enc = head v.typeLabel v.arg ++ v.content := by
  cases v <;> simp [Value.enc, Value.typeLabel, Value.arg, Value.content]

theorem Value.arg_lt {w : Nat} (hw : w ≤ 64) {v : Value} (h : v.WF w) : v.arg < 2 ^ 64 := by
  have hp : 2 ^ w ≤ 2 ^ 64 := Nat.pow_le_pow_right (by omega) hw
  cases v with
  | simple s => have := s.toNat_lt; simp [Value.arg]; omega
  | negative i => simp [Value.WF] at h; simp only [Value.arg]; omega
  | unsigned n => simpa [Value.WF, Value.arg] using h
  | bytes b => simp only [Value.WF, Value.arg] at *; omega
  | text b => simp only [Value.WF, Value.arg] at *; omega
  | array b => exact h.1
  | map b => exact h.1
  | tag n b => exact h.1

mutual
theorem cmp_enc {w : Nat} (hw : w ≤ 64) (v v' : Value) (hv : v.WF w) (hv' : v'.WF w) (a b : Bytes) :
    cmpBytes (v.enc ++ a) (v'.enc ++ b) = (v.cmp v').then (cmpBytes a b) := by
  rw [v.enc_eq, v'.enc_eq, List.append_assoc, List.append_assoc,
    cmp_head _ _ _ _ v.typeLabel_lt v'.typeLabel_lt (v.arg_lt hw hv) (v'.arg_lt hw hv')]
  by_cases ht : v.typeLabel = v'.typeLabel
  · rw [Value.cmp.eq_def, if_neg (by simp [ht]), ht, compare_self, then_eq_right]
    cases v <;> cases v' <;> first | (exfalso; simp [Value.typeLabel] at ht; done) | skip
    case unsigned x y => simp [Value.arg, Value.content]
    case negative x y =>
      simp only [Value.WF] at hv hv'
      simp only [Value.arg, Value.content, List.nil_append, compare_int_swap hv.2 hv'.2]
    case bytes x y =>
      simp only [Value.arg, Value.content]
      by_cases hl : x.length = y.length
      · rw [hl, compare_self, then_eq_right, then_eq_right, cmpBytes_append hl]
      · rw [then_assoc, compare_ne_then hl, compare_ne_then hl]
    case text x y =>
      simp only [Value.arg, Value.content]
      by_cases hl : x.length = y.length
      · rw [hl, compare_self, then_eq_right, then_eq_right, cmpBytes_append hl]
      · rw [then_assoc, compare_ne_then hl, compare_ne_then hl]
    case array x y =>
      simp only [Value.WF] at hv hv'
      simp only [Value.arg, Value.content]
      by_cases hl : x.length = y.length
      · rw [if_neg (by simp [hl]), hl, compare_self, then_eq_right]
        exact cmp_encList hw x y hl hv.2 hv'.2 a b
      · rw [if_pos hl, compare_ne_then hl, compare_ne_then hl]
    case map x y =>
      simp only [Value.WF] at hv hv'
      simp only [Value.arg, Value.content]
      by_cases hl : x.length = y.length
      · rw [if_neg (by simp [hl]), hl, compare_self, then_eq_right]
        exact cmp_encMap hw x y hl hv.2.1 hv'.2.1 a b
      · rw [if_pos hl, compare_ne_then hl, compare_ne_then hl]
    case tag x v y v' =>
      simp only [Value.WF] at hv hv'
      simp only [Value.arg, Value.content]
      rw [then_assoc, cmp_enc hw v v' hv.2 hv'.2 a b]
    case simple x y => simp [Value.arg, Value.content]
  · rw [Value.cmp.eq_def, if_pos ht, compare_ne_then ht, compare_ne_then ht]
theorem cmp_encList {w : Nat} (hw : w ≤ 64) (x y : List Value) (hl : x.length = y.length)
    (hx : Value.WFList w x) (hy : Value.WFList w y) (a b : Bytes) :
    cmpBytes (Value.encList x ++ a) (Value.encList y ++ b) = (Value.cmpList x y).then (cmpBytes a b) := by
  match x, y, hl, hx, hy with
  | [], [], _, _, _ => simp [Value.encList, Value.cmpList]
  | u :: x, u' :: y, hl, hx, hy =>
    simp only [Value.encList, Value.cmpList, List.append_assoc]
    rw [cmp_enc hw u u' hx.1 hy.1, cmp_encList hw x y (by simpa using hl) hx.2 hy.2, then_assoc]
theorem cmp_encMap {w : Nat} (hw : w ≤ 64) (x y : List (Value × Value)) (hl : x.length = y.length)
    (hx : Value.WFMap w x) (hy : Value.WFMap w y) (a b : Bytes) :
    cmpBytes (Value.encMap x ++ a) (Value.encMap y ++ b) = (Value.cmpMap x y).then (cmpBytes a b) := by
  match x, y, hl, hx, hy with
  | [], [], _, _, _ => simp [Value.encMap, Value.cmpMap]
  | (k, u) :: x, (k', u') :: y, hl, hx, hy =>
    simp only [Value.encMap, Value.cmpMap, List.append_assoc]
    rw [cmp_enc hw k k' hx.1 hy.1, cmp_enc hw u u' hx.2.1 hy.2.1,
      cmp_encMap hw x y (by simpa using hl) hx.2.2 hy.2.2, then_assoc, then_assoc]
end

theorem then_eq_eq_right (o : Ordering) : o.then .eq = o := by cases o <;> rfl

theorem cmp_eq_cmpBytes {w : Nat} (hw : w ≤ 64) {v v' : Value} (hv : v.WF w) (hv' : v'.WF w) :
    v.cmp v' = cmpBytes v.enc v'.enc := by
  have := cmp_enc hw v v' hv hv' [] []
  simp [cmpBytes] at this
  exact this.symm

end Verif.Cbor
