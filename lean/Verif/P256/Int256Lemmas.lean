import Verif.P256.Int256Model
import Mathlib.Tactic.Ring
import Mathlib.Tactic.Linarith
import Mathlib.Tactic.LinearCombination
import Mathlib.Data.Nat.ModEq

/-! The digit loops compute the arithmetic of natural numbers. -/

namespace Verif.P256

/-- The number a list of digits stands for. -/
def val : List UInt32 → Nat
  | [] => 0
  | d :: ds => d.toNat + 4294967296 * val ds

@[simp] theorem val_nil : val [] = 0 := rfl
@[simp] theorem val_cons (d : UInt32) (ds : List UInt32) :
    val (d :: ds) = d.toNat + 4294967296 * val ds := rfl

theorem u32_lt (d : UInt32) : d.toNat < 4294967296 := d.toNat_lt

theorem val_lt : ∀ ds : List UInt32, val ds < 4294967296 ^ ds.length
  | [] => by simp
  | d :: ds => by
    have := val_lt ds
    have hd := u32_lt d
    simp only [val_cons, List.length_cons, pow_succ]
    generalize 4294967296 ^ ds.length = q at *
    omega

theorem val_lt8 {x : Int256} (h : Wf x) : val x < 2 ^ 256 := by
  have := val_lt x
  rw [h] at this
  simpa using this

theorem val_append : ∀ a b : List UInt32, val (a ++ b) = val a + 4294967296 ^ a.length * val b
  | [], b => by simp
  | d :: a, b => by
    simp only [List.cons_append, val_cons, val_append a b, List.length_cons, pow_succ]
    ring

theorem val_inj : ∀ {a b : List UInt32}, a.length = b.length → val a = val b → a = b
  | [], [], _, _ => rfl
  | [], _ :: _, h, _ => by simp at h
  | _ :: _, [], h, _ => by simp at h
  | a :: as, b :: bs, h, hv => by
    have ha := u32_lt a
    have hb := u32_lt b
    simp only [val_cons] at hv
    have h1 : a.toNat = b.toNat := by omega
    have h2 : val as = val bs := by omega
    rw [UInt32.toNat_inj.1 h1, val_inj (by simpa using h) h2]

namespace Int256

theorem addLoop_spec : ∀ (a b : List UInt32) (c : UInt64), a.length = b.length → c.toNat ≤ 1 →
    (addLoop c a b).1.length = a.length ∧ (addLoop c a b).2.toNat ≤ 1 ∧
    val (addLoop c a b).1 + 4294967296 ^ a.length * (addLoop c a b).2.toNat
      = c.toNat + val a + val b
  | [], [], c, _, hc => by simp [addLoop, hc]
  | [], _ :: _, _, h, _ => by simp at h
  | _ :: _, [], _, h, _ => by simp at h
  | a :: as, b :: bs, c, h, hc => by
    have ha := u32_lt a
    have hb := u32_lt b
    have e : (c + (a.toUInt64 + b.toUInt64)).toNat = c.toNat + (a.toNat + b.toNat) := by
      simp; omega
    generalize hc1 : c + (a.toUInt64 + b.toUInt64) = c1 at *
    have e1 : (c1 >>> 32).toNat = c1.toNat / 4294967296 := by
      simp [Nat.shiftRight_eq_div_pow]
    have e2 : c1.toUInt32.toNat = c1.toNat % 4294967296 := by simp
    obtain ⟨l, h1, h2⟩ := addLoop_spec as bs (c1 >>> 32) (by simpa using h) (by omega)
    rw [addLoop]
    simp only [hc1]
    refine ⟨by simp [l], h1, ?_⟩
    simp only [val_cons, List.length_cons, pow_succ, e2]
    rw [e1] at h2
    generalize 4294967296 ^ as.length = q at *
    generalize (addLoop (c1 >>> 32) as bs).2.toNat = r at *
    rw [show q * 4294967296 * r = 4294967296 * (q * r) by ring]
    generalize q * r = qr at *
    omega

theorem add_spec {a b : Int256} (h : a.length = b.length) :
    (add a b).1.length = a.length ∧ (add a b).2.toNat ≤ 1 ∧
    val (add a b).1 + 4294967296 ^ a.length * (add a b).2.toNat = val a + val b := by
  obtain ⟨l, h1, h2⟩ := addLoop_spec a b 0 h (by simp)
  unfold add
  have e : ((addLoop 0 a b).2.toUInt32).toNat = (addLoop 0 a b).2.toNat := by
    simp; omega
  simp only [e]
  exact ⟨l, h1, by simpa using h2⟩

theorem addDigitLoop_spec : ∀ (a : List UInt32) (c : UInt64), c.toNat < 4294967296 →
    (addDigitLoop c a).1.length = a.length ∧ (addDigitLoop c a).2.toNat < 4294967296 ∧
    (a ≠ [] → (addDigitLoop c a).2.toNat ≤ 1) ∧
    val (addDigitLoop c a).1 + 4294967296 ^ a.length * (addDigitLoop c a).2.toNat
      = c.toNat + val a
  | [], c, hc => by simp [addDigitLoop, hc]
  | a :: as, c, hc => by
    have ha := u32_lt a
    have e : (c + a.toUInt64).toNat = c.toNat + a.toNat := by
      simp; omega
    generalize hc1 : c + a.toUInt64 = c1 at *
    have e1 : (c1 >>> 32).toNat = c1.toNat / 4294967296 := by
      simp [Nat.shiftRight_eq_div_pow]
    have e2 : c1.toUInt32.toNat = c1.toNat % 4294967296 := by simp
    obtain ⟨l, h1, h3, h2⟩ := addDigitLoop_spec as (c1 >>> 32) (by omega)
    rw [addDigitLoop]
    simp only [hc1]
    refine ⟨by simp [l], h1, ?_, ?_⟩
    · intro _
      by_cases hn : as = []
      · subst hn; simp only [addDigitLoop]; omega
      · exact h3 hn
    simp only [val_cons, List.length_cons, pow_succ, e2]
    rw [e1] at h2
    generalize 4294967296 ^ as.length = q at *
    generalize (addDigitLoop (c1 >>> 32) as).2.toNat = r at *
    rw [show q * 4294967296 * r = 4294967296 * (q * r) by ring]
    generalize q * r = qr at *
    omega

theorem add_digit_spec (a : Int256) (d : UInt32) :
    (add_digit a d).1.length = a.length ∧ (a ≠ [] → (add_digit a d).2.toNat ≤ 1) ∧
    val (add_digit a d).1 + 4294967296 ^ a.length * (add_digit a d).2.toNat
      = d.toNat + val a := by
  have hd := u32_lt d
  obtain ⟨l, h1, h3, h2⟩ := addDigitLoop_spec a d.toUInt64 (by simpa using hd)
  unfold add_digit
  have e : ((addDigitLoop d.toUInt64 a).2.toUInt32).toNat = (addDigitLoop d.toUInt64 a).2.toNat := by
    simp; omega
  simp only [e]
  exact ⟨l, h3, by simpa using h2⟩

theorem toDigit_toNat (x : Int) : ((toDigit x).toNat : Int) = x % 4294967296 := by
  unfold toDigit
  simp
  omega

theorem subLoop_spec : ∀ (a b : List UInt32) (c : Int), a.length = b.length → -1 ≤ c → c ≤ 0 →
    (subLoop c a b).1.length = a.length ∧ -1 ≤ (subLoop c a b).2 ∧ (subLoop c a b).2 ≤ 0 ∧
    (val (subLoop c a b).1 : Int) + 4294967296 ^ a.length * (subLoop c a b).2
      = c + val a - val b
  | [], [], c, _, hc, hc' => by simp [subLoop, hc, hc']
  | [], _ :: _, _, h, _, _ => by simp at h
  | _ :: _, [], _, h, _, _ => by simp at h
  | a :: as, b :: bs, c, h, hc, hc' => by
    have ha := u32_lt a
    have hb := u32_lt b
    rw [subLoop]
    generalize hc1 : c + ((a.toNat : Int) - (b.toNat : Int)) = c1 at *
    obtain ⟨l, h1, h1', h2⟩ := subLoop_spec as bs (c1 / 4294967296) (by simpa using h)
      (by omega) (by omega)
    refine ⟨by simp [l], h1, h1', ?_⟩
    have e2 := toDigit_toNat c1
    simp only [val_cons, List.length_cons, pow_succ]
    push_cast
    rw [e2]
    generalize (4294967296 : Int) ^ as.length = q at *
    generalize (subLoop (c1 / 4294967296) as bs).2 = r at *
    rw [show q * 4294967296 * r = 4294967296 * (q * r) by ring]
    generalize q * r = qr at *
    omega

theorem toDigit_small {x : Int} (h : -1 ≤ x) (h' : x ≤ 0) : toDigit x = 0 ↔ x = 0 := by
  have e := toDigit_toNat x
  constructor
  · intro h0
    rw [h0] at e
    simp at e
    omega
  · intro h0; subst h0; rfl

theorem sub_spec {a b : Int256} (h : a.length = b.length) :
    (sub a b).1.length = a.length ∧ ((sub a b).2 = 0 ↔ val b ≤ val a) ∧
    ((sub a b).2 = 0 → val (sub a b).1 = val a - val b) ∧
    ((sub a b).2 ≠ 0 → val (sub a b).1 = 4294967296 ^ a.length + val a - val b) := by
  obtain ⟨l, h1, h1', h2⟩ := subLoop_spec a b 0 h (by simp) (by simp)
  have hv := val_lt (subLoop 0 a b).1
  have hb := val_lt b
  have ha := val_lt a
  unfold sub
  simp only
  rw [l] at hv
  rw [← h] at hb
  have hq : (4294967296 : Int) ^ a.length = ((4294967296 ^ a.length : Nat) : Int) := by push_cast; rfl
  rw [hq] at h2
  rw [toDigit_small h1 h1', Ne, toDigit_small h1 h1']
  generalize 4294967296 ^ a.length = q at *
  generalize (subLoop 0 a b).2 = r at *
  have : r = 0 ∨ r = -1 := by omega
  refine ⟨l, ?_, ?_, ?_⟩
  · rcases this with r | r <;> subst r <;> omega
  · intro r; subst r; omega
  · intro hr; rcases this with r | r
    · exact absurd r hr
    · subst r; omega

theorem addCondLoop_spec (ch : Bool) : ∀ (a b : List UInt32) (c : UInt64),
    a.length = b.length → c.toNat ≤ 1 →
    (addCondLoop ch c a b).1.length = a.length ∧ (addCondLoop ch c a b).2.toNat ≤ 1 ∧
    val (addCondLoop ch c a b).1 + 4294967296 ^ a.length * (addCondLoop ch c a b).2.toNat
      = c.toNat + val a + (if ch then val b else 0)
  | [], [], c, _, hc => by simp [addCondLoop, hc]
  | [], _ :: _, _, h, _ => by simp at h
  | _ :: _, [], _, h, _ => by simp at h
  | a :: as, b :: bs, c, h, hc => by
    have ha := u32_lt a
    have hb := u32_lt (if ch then b else 0)
    have e : (c + a.toUInt64 + (if ch then b else 0).toUInt64).toNat
        = c.toNat + (a.toNat + (if ch then b else 0).toNat) := by
      generalize (if ch then b else 0) = b' at *
      simp; omega
    generalize hc1 : c + a.toUInt64 + (if ch then b else 0).toUInt64 = c1 at *
    have e1 : (c1 >>> 32).toNat = c1.toNat / 4294967296 := by
      simp [Nat.shiftRight_eq_div_pow]
    have e2 : c1.toUInt32.toNat = c1.toNat % 4294967296 := by simp
    obtain ⟨l, h1, h2⟩ := addCondLoop_spec ch as bs (c1 >>> 32) (by simpa using h) (by omega)
    rw [addCondLoop]
    simp only [hc1]
    refine ⟨by simp [l], h1, ?_⟩
    simp only [val_cons, List.length_cons, pow_succ, e2]
    rw [e1] at h2
    generalize 4294967296 ^ as.length = q at *
    generalize (addCondLoop ch (c1 >>> 32) as bs).2.toNat = r at *
    rw [show q * 4294967296 * r = 4294967296 * (q * r) by ring]
    generalize q * r = qr at *
    cases ch <;> simp at * <;> omega

theorem add_conditional_spec {a b : Int256} (h : a.length = b.length) (ch : Bool) :
    (add_conditional a b 0 ch).1.length = a.length ∧ 
    ∃ c, c ≤ 1 ∧ val (add_conditional a b 0 ch).1 + 4294967296 ^ a.length * c
      = val a + (if ch then val b else 0) := by
  obtain ⟨l, h1, h2⟩ := addCondLoop_spec ch a b 0 h (by simp)
  exact ⟨l, _, h1, by simpa [add_conditional] using h2⟩

theorem subCondLoop_spec (ch : Bool) : ∀ (a b : List UInt32) (c : Int),
    a.length = b.length → -1 ≤ c → c ≤ 0 →
    (subCondLoop ch c a b).1.length = a.length ∧ -1 ≤ (subCondLoop ch c a b).2 ∧
    (subCondLoop ch c a b).2 ≤ 0 ∧
    (val (subCondLoop ch c a b).1 : Int) + 4294967296 ^ a.length * (subCondLoop ch c a b).2
      = c + val a - (if ch then val b else 0 : Nat)
  | [], [], c, _, hc, hc' => by simp [subCondLoop, hc, hc']
  | [], _ :: _, _, h, _, _ => by simp at h
  | _ :: _, [], _, h, _, _ => by simp at h
  | a :: as, b :: bs, c, h, hc, hc' => by
    have ha := u32_lt a
    have hb := u32_lt (if ch then b else 0)
    rw [subCondLoop]
    generalize hc1 : c + (a.toNat : Int) - ((if ch then b else 0).toNat : Int) = c1 at *
    obtain ⟨l, h1, h1', h2⟩ := subCondLoop_spec ch as bs (c1 / 4294967296) (by simpa using h)
      (by omega) (by omega)
    refine ⟨by simp [l], h1, h1', ?_⟩
    have e2 := toDigit_toNat c1
    simp only [val_cons, List.length_cons, pow_succ]
    push_cast
    rw [e2]
    push_cast at h2
    generalize (4294967296 : Int) ^ as.length = q at *
    generalize (subCondLoop ch (c1 / 4294967296) as bs).2 = r at *
    rw [show q * 4294967296 * r = 4294967296 * (q * r) by ring]
    generalize q * r = qr at *
    cases ch <;> simp at * <;> omega

/-- The result of `sub_conditional` when the digits and the digit above hold at least what is
    subtracted. -/
theorem sub_conditional_ok {a b : Int256} (h : a.length = b.length) (ch : Bool) (top : UInt32)
    (hge : (if ch then val b else 0) ≤ val a + 4294967296 ^ a.length * top.toNat)
    (hlt : val a + 4294967296 ^ a.length * top.toNat < (if ch then val b else 0) + 4294967296 ^ a.length) :
    (sub_conditional a b top ch).1.length = a.length ∧
    val (sub_conditional a b top ch).1
      = val a + 4294967296 ^ a.length * top.toNat - (if ch then val b else 0) := by
  obtain ⟨l, h1, h1', h2⟩ := subCondLoop_spec ch a b 0 h (by simp) (by simp)
  have hv := val_lt (subCondLoop ch 0 a b).1
  unfold sub_conditional
  refine ⟨l, ?_⟩
  simp only
  rw [l] at hv
  have hq : (4294967296 : Int) ^ a.length = ((4294967296 ^ a.length : Nat) : Int) := by push_cast; rfl
  rw [hq] at h2
  generalize (if ch then val b else 0) = vb at *
  generalize 4294967296 ^ a.length = q at *
  generalize (subCondLoop ch 0 a b).2 = r at *
  generalize top.toNat = t at *
  have hr : r = 0 ∨ r = -1 := by omega
  rcases hr with r | r
  · subst r
    simp at h2
    have : q * t < q := by omega
    have ht : t = 0 := by
      rcases Nat.eq_zero_or_pos t with ht | ht
      · exact ht
      · have := Nat.le_mul_of_pos_right q ht; omega
    subst ht
    omega
  · subst r
    have ht : t = 1 := by
      rcases Nat.lt_trichotomy t 1 with ht | ht | ht
      · have : t = 0 := by omega
        subst this; omega
      · exact ht
      · have : q * 2 ≤ q * t := Nat.mul_le_mul_left _ ht
        omega
    subst ht
    omega

/-- `modd`, and the last lines of `modmul_top`: the digits are reduced by one subtraction. -/
theorem subAdd_spec {a b : Int256} (h : a.length = b.length) :
    (add_conditional (sub_conditional a b 0 true).1 b 0 (sub_conditional a b 0 true).2).1.length
      = a.length ∧
    val (add_conditional (sub_conditional a b 0 true).1 b 0 (sub_conditional a b 0 true).2).1
      = if val b ≤ val a then val a - val b else val a := by
  obtain ⟨l, h1, h1', h2⟩ := subCondLoop_spec true a b 0 h (by simp) (by simp)
  obtain ⟨l', c, hc, h3⟩ := add_conditional_spec (a := (sub_conditional a b 0 true).1) (b := b)
    (by rw [← h]; exact l) (sub_conditional a b 0 true).2
  have la : (sub_conditional a b 0 true).1.length = a.length := l
  have hv := val_lt (sub_conditional a b 0 true).1
  have hr := val_lt (add_conditional (sub_conditional a b 0 true).1 b 0
    (sub_conditional a b 0 true).2).1
  rw [l', la] at hr
  have hlg := l'
  rw [la] at hv h3
  refine ⟨l'.trans la, ?_⟩
  have hb := val_lt b
  have ha := val_lt a
  rw [← h] at hb
  have hq : (4294967296 : Int) ^ a.length = ((4294967296 ^ a.length : Nat) : Int) := by push_cast; rfl
  rw [hq] at h2
  have e : (sub_conditional a b 0 true).2 = ((subCondLoop true 0 a b).2 == -1) := by
    unfold sub_conditional
    simp only [UInt32.toNat_zero, Nat.cast_zero, add_zero]
    have : (subCondLoop true 0 a b).2 = 0 ∨ (subCondLoop true 0 a b).2 = -1 := by omega
    rcases this with r | r <;> rw [r] <;> rfl
  have e1 : (sub_conditional a b 0 true).1 = (subCondLoop true 0 a b).1 := rfl
  generalize hg : add_conditional (sub_conditional a b 0 true).1 b 0
    (sub_conditional a b 0 true).2 = g at *
  rw [e, e1] at *
  replace hv : val (subCondLoop true 0 a b).1 < _ := hv
  simp only [if_true] at h2
  generalize 4294967296 ^ a.length = q at *
  generalize (subCondLoop true 0 a b).2 = r at *
  have hr' : r = 0 ∨ r = -1 := by omega
  rcases hr' with r | r <;> subst r
  · simp at h3 h2
    rw [if_pos (by omega)]
    have : c = 0 := by
      rcases Nat.eq_zero_or_pos c with h | h
      · exact h
      · have : c = 1 := by omega
        subst this; omega
    subst this
    omega
  · simp only [Int.reduceNeg, BEq.rfl, if_true] at h3
    simp at h2
    rw [if_neg (by omega)]
    have : c = 0 ∨ c = 1 := by omega
    rcases this with h | h <;> subst h <;> omega

theorem modd_spec {a m : Int256} (h : a.length = m.length) :
    (modd a m).length = a.length ∧
    val (modd a m) = if val m ≤ val a then val a - val m else val a := subAdd_spec h

theorem modsub_spec {a b m : Int256} (ha : Wf a) (hb : Wf b) (hm : Wf m)
    (_ : val a < val m) (hbv : val b ≤ val m) :
    Wf (modsub_vartime a b m) ∧
      val (modsub_vartime a b m) = if val b ≤ val a then val a - val b else val a + val m - val b := by
  obtain ⟨l, h1, h2, h3⟩ := sub_spec (a := a) (b := b) (ha.trans hb.symm)
  unfold modsub_vartime
  simp only
  by_cases h0 : (sub a b).2 = 0
  · rw [if_neg (by simpa using h0), if_pos (h1.1 h0)]
    exact ⟨l.trans ha, h2 h0⟩
  · rw [if_pos h0, if_neg (fun hh => h0 (h1.2 hh))]
    obtain ⟨l', hc, h4⟩ := add_spec (a := (sub a b).1) (b := m) (l.trans (ha.trans hm.symm))
    refine ⟨l'.trans (l.trans ha), ?_⟩
    have hlt : val a < val b := by
      by_contra hh
      exact h0 (h1.2 (by omega))
    have hr := val_lt8 (show Wf (add (sub a b).1 m).1 from l'.trans (l.trans ha))
    have hm' := val_lt8 hm
    rw [h3 h0, l, ha] at h4
    norm_num at h4 hr hm'
    generalize (add (sub a b).1 m).2.toNat = c at *
    have : c = 0 ∨ c = 1 := by omega
    rcases this with h | h <;> subst h <;> omega

theorem modadd_spec {a b m : Int256} (ha : Wf a) (hb : Wf b) (hm : Wf m)
    (hav : val a < val m) (hbv : val b < val m) :
    Wf (modadd_vartime a b m) ∧ val (modadd_vartime a b m) = (val a + val b) % val m := by
  obtain ⟨l, hc, h1⟩ := add_spec (a := a) (b := b) (ha.trans hb.symm)
  obtain ⟨ls, h2, h3, h4⟩ := sub_spec (a := (add a b).1) (b := m) (l.trans (ha.trans hm.symm))
  have hm' := val_lt8 hm
  have hs := val_lt8 (show Wf (add a b).1 from l.trans ha)
  rw [l, ha] at h4
  rw [ha] at h1
  norm_num at h1 h4 hm' hs
  unfold modadd_vartime
  simp only
  by_cases h0 : (add a b).2 = 0
  · rw [if_neg (by simpa using h0)]
    rw [h0] at h1
    simp at h1
    have wf : Wf (add a b).1 := l.trans ha
    obtain ⟨ls', h2', h3', h4'⟩ := sub_spec (a := (add a b).1) (b := m) (wf.trans hm.symm)
    unfold modsub_vartime
    simp only
    by_cases h5 : (sub (add a b).1 m).2 = 0
    · rw [if_neg (by simpa using h5)]
      have := h2.1 h5
      refine ⟨ls.trans wf, ?_⟩
      rw [h3 h5, Nat.mod_eq_sub_mod (by omega), Nat.mod_eq_of_lt (by omega)]; omega
    · rw [if_pos h5]
      obtain ⟨l', hc', h6⟩ := add_spec (a := (sub (add a b).1 m).1) (b := m)
        (ls.trans (wf.trans hm.symm))
      have hr := val_lt8 (show Wf (add (sub (add a b).1 m).1 m).1 from l'.trans (ls.trans wf))
      refine ⟨l'.trans (ls.trans wf), ?_⟩
      have hlt : ¬ val m ≤ val (add a b).1 := fun hh => h5 (h2.2 hh)
      rw [h4 h5, ls, wf] at h6
      norm_num at h6 hr
      rw [Nat.mod_eq_of_lt (by omega)]
      generalize (add (sub (add a b).1 m).1 m).2.toNat = c at *
      have : c = 0 ∨ c = 1 := by omega
      rcases this with h | h <;> subst h <;> omega
  · rw [if_pos h0]
    have hc1 : (add a b).2.toNat = 1 := by
      have : (add a b).2.toNat ≠ 0 := fun h => h0 (UInt32.toNat_inj.1 (by simpa using h))
      omega
    rw [hc1] at h1
    have h5 : (sub (add a b).1 m).2 ≠ 0 := fun h => by have := h2.1 h; omega
    have hv := h4 h5
    obtain ⟨w, h7⟩ := modsub_spec (a := (sub (add a b).1 m).1) (b := m) (m := m)
      (ls.trans (l.trans ha)) hm hm (by omega) (by omega)
    refine ⟨w, ?_⟩
    rw [h7, if_neg (by omega), Nat.mod_eq_sub_mod (by omega), Nat.mod_eq_of_lt (by omega)]
    omega

theorem mulAddLoop_spec (f : UInt32) : ∀ (a b : List UInt32) (c : UInt64),
    a.length = b.length → c.toNat < 4294967296 →
    (mulAddLoop f c a b).1.length = a.length ∧ (mulAddLoop f c a b).2.toNat < 4294967296 ∧
    val (mulAddLoop f c a b).1 + 4294967296 ^ a.length * (mulAddLoop f c a b).2.toNat
      = c.toNat + val a + val b * f.toNat
  | [], [], c, _, hc => by simp [mulAddLoop, hc]
  | [], _ :: _, _, h, _ => by simp at h
  | _ :: _, [], _, h, _ => by simp at h
  | a :: as, b :: bs, c, h, hc => by
    have ha := u32_lt a
    have hb := u32_lt b
    have hf := u32_lt f
    have hp : b.toNat * f.toNat ≤ 4294967295 * 4294967295 :=
      Nat.mul_le_mul (by omega) (by omega)
    have e : (c + a.toUInt64 + b.toUInt64 * f.toUInt64).toNat
        = c.toNat + a.toNat + b.toNat * f.toNat := by
      simp only [UInt64.toNat_add, UInt64.toNat_mul, UInt32.toNat_toUInt64]
      omega
    generalize hc1 : c + a.toUInt64 + b.toUInt64 * f.toUInt64 = c1 at *
    have e1 : (c1 >>> 32).toNat = c1.toNat / 4294967296 := by
      simp [Nat.shiftRight_eq_div_pow]
    have e2 : c1.toUInt32.toNat = c1.toNat % 4294967296 := by simp
    have hc1' : c1.toNat < 18446744073709551616 := c1.toNat_lt
    obtain ⟨l, h1, h2⟩ := mulAddLoop_spec f as bs (c1 >>> 32) (by simpa using h) (by omega)
    rw [mulAddLoop]
    simp only [hc1]
    refine ⟨by simp [l], h1, ?_⟩
    simp only [val_cons, List.length_cons, pow_succ, e2]
    rw [e1] at h2
    generalize 4294967296 ^ as.length = q at *
    generalize (mulAddLoop f (c1 >>> 32) as bs).2.toNat = r at *
    rw [show q * 4294967296 * r = 4294967296 * (q * r) by ring,
      show (b.toNat + 4294967296 * val bs) * f.toNat
        = b.toNat * f.toNat + 4294967296 * (val bs * f.toNat) by ring]
    generalize q * r = qr at *
    generalize val bs * f.toNat = bf at *
    generalize b.toNat * f.toNat = bf' at *
    omega

theorem mul_add_spec {a b : Int256} (h : a.length = b.length) (f : UInt32) :
    (mul_add a b f).1.length = a.length ∧
    val (mul_add a b f).1 + 4294967296 ^ a.length * (mul_add a b f).2.toNat
      = val a + val b * f.toNat := by
  obtain ⟨l, h1, h2⟩ := mulAddLoop_spec f a b 0 h (by simp)
  unfold mul_add
  have e : ((mulAddLoop f 0 a b).2.toUInt32).toNat = (mulAddLoop f 0 a b).2.toNat := by
    simp; omega
  simp only [e]
  exact ⟨l, by simpa using h2⟩

/-- `sub_top` when the difference is non-negative and its top digit fits. -/
theorem sub_top_spec {a b : Int256} (h : a.length = b.length) (top stop : UInt32)
    (hge : val b + 4294967296 ^ a.length * stop.toNat ≤ val a + 4294967296 ^ a.length * top.toNat) :
    (sub_top a b top stop).1.length = a.length ∧
    val (sub_top a b top stop).1 + 4294967296 ^ a.length * (sub_top a b top stop).2.toNat
      = val a + 4294967296 ^ a.length * top.toNat
        - (val b + 4294967296 ^ a.length * stop.toNat) := by
  obtain ⟨l, h1, h1', h2⟩ := subLoop_spec a b 0 h (by simp) (by simp)
  have hv := val_lt (subLoop 0 a b).1
  have hs := u32_lt stop
  have ht := u32_lt top
  unfold sub_top
  refine ⟨l, ?_⟩
  simp only
  rw [l] at hv
  have hq : (4294967296 : Int) ^ a.length = ((4294967296 ^ a.length : Nat) : Int) := by push_cast; rfl
  rw [hq] at h2
  have hd := toDigit_toNat ((subLoop 0 a b).2 + (top.toNat : Int) - (stop.toNat : Int))
  have hpos : 0 < 4294967296 ^ a.length := Nat.pow_pos (by norm_num)
  generalize (subLoop 0 a b).2 = r at *
  generalize (subLoop 0 a b).1 = ds at *
  generalize 4294967296 ^ a.length = q at *
  have hnn : 0 ≤ r + (top.toNat : Int) - (stop.toNat : Int) := by
    by_contra hneg
    have h3 : r + (top.toNat : Int) - (stop.toNat : Int) ≤ -1 := by omega
    have h4 : (q : Int) * (r + (top.toNat : Int) - (stop.toNat : Int)) ≤ q * (-1) :=
      mul_le_mul_of_nonneg_left h3 (by omega)
    rw [mul_sub, _root_.mul_add] at h4
    have h5 : ((q * top.toNat : Nat) : Int) = (q : Int) * (top.toNat : Int) := by push_cast; rfl
    have h6 : ((q * stop.toNat : Nat) : Int) = (q : Int) * (stop.toNat : Int) := by push_cast; rfl
    omega
  rw [Int.emod_eq_of_lt hnn (by omega)] at hd
  zify
  rw [Nat.cast_sub hge]
  push_cast
  rw [hd]
  linear_combination h2

/-- One step of the multiplication of `modmul_top`. -/
theorem mulLoop_spec (a : Int256) (ha : Wf a) : ∀ (bs low : List UInt32) (w : Int256), Wf w →
    Wf (mulLoop a bs low w).2 ∧ (mulLoop a bs low w).1.length = low.length + bs.length ∧
    val ((mulLoop a bs low w).1.reverse) + 4294967296 ^ (low.length + bs.length) *
        val (mulLoop a bs low w).2
      = val low.reverse + 4294967296 ^ low.length * (val w + val a * val bs)
  | [], low, w, hw => by simp [mulLoop, hw]
  | b :: bs, low, w, hw => by
    obtain ⟨l, h1⟩ := mul_add_spec (a := w) (b := a) (hw.trans ha.symm) b
    have hl : (mul_add w a b).1.length = 8 := l.trans hw
    rw [mulLoop]
    simp only
    generalize (mul_add w a b).1 = w1 at *
    generalize (mul_add w a b).2 = top at *
    cases w1 with
    | nil => simp at hl
    | cons d ds =>
      have hds : ds.length = 7 := by simpa using hl
      obtain ⟨g1, g2, g3⟩ := mulLoop_spec a ha bs (d :: low) (ds ++ [top]) (by simp [Wf, hds])
      simp only [List.headD_cons, List.tail_cons]
      refine ⟨g1, by rw [g2]; simp; omega, ?_⟩
      have ee : (d :: low).length + bs.length = low.length + (b :: bs).length := by simp; omega
      rw [ee] at g3
      rw [g3]
      simp only [List.reverse_cons, val_append, List.length_reverse, val_cons, val_nil,
        List.length_cons, hds, pow_succ]
      rw [show w.length = 8 from hw] at h1
      simp only [val_cons] at h1
      generalize 4294967296 ^ low.length = q at *
      linear_combination q * h1

theorem Wf.split {x : Int256} (h : Wf x) : x = x.dropLast ++ [x.getLastD 0] := by
  have hx : x ≠ [] := by rintro rfl; simp [Wf] at h
  rw [List.getLastD_eq_getLast?, List.getLast?_eq_some_getLast hx, Option.getD_some,
    List.dropLast_concat_getLast]

/-- One turn of the reduction for a modulus with the most significant digit 0xffffffff. -/
theorem reduceWindow_spec {m w : Int256} (hm : Wf m) (hw : Wf w) (top : UInt32)
    (hmv : 2 ^ 256 - 2 ^ 224 ≤ val m) :
    Wf (reduceWindow m w top) ∧
      val (reduceWindow m w top) ≡ val w + 2 ^ 256 * top.toNat [MOD val m] := by
  have ht := u32_lt top
  have hmlt := val_lt8 hm
  have hwlt := val_lt8 hw
  obtain ⟨l1, h1⟩ := mul_add_spec (a := ZERO) (b := m) (by rw [hm]; rfl) top
  have hz : val ZERO = 0 := rfl
  have hzl : ZERO.length = 8 := rfl
  rw [hz, hzl] at h1
  have hpow : (4294967296 : Nat) ^ 8 = 2 ^ 256 := by norm_num
  rw [hpow] at h1
  unfold reduceWindow
  simp only
  generalize (mul_add ZERO m top).1 = red at *
  generalize (mul_add ZERO m top).2 = tred at *
  have hmt : val m * top.toNat ≤ 2 ^ 256 * top.toNat := Nat.mul_le_mul_right _ hmlt.le
  have hmt' : (2 ^ 256 - 2 ^ 224) * top.toNat ≤ val m * top.toNat := Nat.mul_le_mul_right _ hmv
  have hww : w.length = 8 := hw
  obtain ⟨l2, h2⟩ := sub_top_spec (a := w) (b := red) (by rw [l1, hw, hzl]) top tred
    (by rw [hww, hpow]; omega)
  rw [hww, hpow] at h2
  have l2' : (sub_top w red top tred).1.length = 8 := l2.trans hw
  have hd1lt := val_lt8 (show Wf (sub_top w red top tred).1 from l2')
  generalize (sub_top w red top tred).1 = d1 at *
  generalize (sub_top w red top tred).2 = t1 at *
  have hX : val d1 + 2 ^ 256 * t1.toNat + val m * top.toNat = val w + 2 ^ 256 * top.toNat := by
    omega
  have ht1 : t1.toNat ≤ 1 := by
    by_contra hh
    have : 2 ^ 256 * 2 ≤ 2 ^ 256 * t1.toNat := Nat.mul_le_mul_left _ (by omega)
    omega
  have hch : (t1 == 1) = decide (t1.toNat = 1) := by
    by_cases h : t1 = 1
    · subst h; rfl
    · have : t1.toNat ≠ 1 := fun hh => h (UInt32.toNat_inj.1 (by simpa using hh))
      simp [h, this]
  obtain ⟨l3, h3⟩ := sub_conditional_ok (a := d1) (b := m) (by rw [l2', hm]) (t1 == 1) t1
    (by
      rw [l2', hpow, hch]
      split
      · rename_i hh
        have : t1.toNat = 1 := by simpa using hh
        rw [this]; omega
      · omega)
    (by
      rw [l2', hpow, hch]
      split
      · rename_i hh
        have : t1.toNat = 1 := by simpa using hh
        rw [this] at hX ⊢; omega
      · rename_i hh
        have : t1.toNat = 0 := by
          have : t1.toNat ≠ 1 := by simpa using hh
          omega
        rw [this]; omega)
  refine ⟨l3.trans l2', ?_⟩
  rw [h3, l2', hpow, hch]
  by_cases hh : t1.toNat = 1
  · simp only [hh, decide_true, if_true]
    rw [hh] at hX
    rw [← hX]
    have : val m ≤ val d1 + 2 ^ 256 * 1 := by omega
    have e : val m * (top.toNat + 1) = val m * top.toNat + val m := Nat.mul_succ _ _
    refine (Nat.modEq_iff_dvd' (by omega)).2 ⟨top.toNat + 1, ?_⟩
    rw [e]
    clear h3
    omega
  · have h0 : t1.toNat = 0 := by omega
    simp only [h0]
    rw [h0] at hX
    rw [← hX]
    simp only [zero_ne_one, decide_false, Bool.false_eq_true, if_false, Nat.mul_zero, Nat.add_zero,
      Nat.sub_zero]
    exact (Nat.modEq_iff_dvd' (by omega)).2 ⟨top.toNat, by omega⟩

theorem reduceLoop_spec {m : Int256} (hm : Wf m) (hmv : 2 ^ 256 - 2 ^ 224 ≤ val m) :
    ∀ (low : List UInt32) (w : Int256) (top : UInt32), Wf w →
    Wf (reduceLoop m low w top) ∧
      val (reduceLoop m low w top) ≡
        val low.reverse + 4294967296 ^ low.length * (val w + 2 ^ 256 * top.toNat) [MOD val m]
  | [], w, top, hw => by
    obtain ⟨h1, h2⟩ := reduceWindow_spec hm hw top hmv
    simpa [reduceLoop] using ⟨h1, h2⟩
  | l :: low, w, top, hw => by
    obtain ⟨h1, h2⟩ := reduceWindow_spec hm hw top hmv
    rw [reduceLoop]
    generalize reduceWindow m w top = w1 at *
    have hs := Wf.split h1
    have hl : w1.dropLast.length = 7 := by rw [List.length_dropLast, h1]
    generalize w1.dropLast = ds at *
    generalize w1.getLastD 0 = t at *
    obtain ⟨h3, h4⟩ := reduceLoop_spec hm hmv low (l :: ds) t (by simp [Wf, hl])
    refine ⟨h3, h4.trans ?_⟩
    have h5 := ((h2.mul_left 4294967296).add_left l.toNat).mul_left (4294967296 ^ low.length)
    have h6 := h5.add_left (val low.reverse)
    simp only [List.reverse_cons, val_append, List.length_reverse, val_cons, val_nil,
      List.length_cons, pow_succ (4294967296 : Nat)]
    subst hs
    rw [val_append, hl] at h6
    simp only [val_cons, val_nil] at h6
    have e1 : val low.reverse + 4294967296 ^ low.length *
        (l.toNat + 4294967296 * val ds + 2 ^ 256 * t.toNat) =
      val low.reverse + 4294967296 ^ low.length *
        (l.toNat + 4294967296 * (val ds + 4294967296 ^ 7 * (t.toNat + 4294967296 * 0))) := by
      ring
    have e2 : val low.reverse + 4294967296 ^ low.length * (l.toNat + 4294967296 * 0) +
        4294967296 ^ low.length * 4294967296 * (val w + 2 ^ 256 * top.toNat) =
      val low.reverse + 4294967296 ^ low.length *
        (l.toNat + 4294967296 * (val w + 2 ^ 256 * top.toNat)) := by
      ring
    rw [e1, e2]
    exact h6

/-- `modmul_top` is multiplication modulo a modulus with the most significant digit 0xffffffff. -/
theorem modmul_top_spec {a b m : Int256} (top : UInt32) (ha : Wf a) (hb : Wf b) (hm : Wf m)
    (hmv : 2 ^ 256 - 2 ^ 224 ≤ val m) :
    Wf (modmul_top a b top m) ∧
      val (modmul_top a b top m) = val a * (val b + 2 ^ 256 * top.toNat) % val m := by
  obtain ⟨h1, h2, h3⟩ := mulLoop_spec a ha b [] ZERO rfl
  unfold modmul_top
  simp only
  generalize (mulLoop a b [] ZERO).1 = low at *
  generalize (mulLoop a b [] ZERO).2 = w at *
  obtain ⟨l, h4⟩ := mul_add_spec (a := w) (b := a) (h1.trans ha.symm) top
  have lw : Wf (mul_add w a top).1 := l.trans h1
  generalize (mul_add w a top).1 = w1 at *
  generalize (mul_add w a top).2 = t1 at *
  obtain ⟨h5, h6⟩ := reduceLoop_spec hm hmv low w1 t1 lw
  generalize reduceLoop m low w1 t1 = r at *
  obtain ⟨h7, h8⟩ := subAdd_spec (a := r) (b := m) (h5.trans hm.symm)
  refine ⟨h7.trans h5, ?_⟩
  rw [h8]
  have hr := val_lt8 h5
  have hz : val ZERO = 0 := rfl
  rw [hb, hz] at h3
  rw [hb] at h2
  rw [h2, show w.length = 8 from h1] at *
  simp only [List.length_nil, Nat.zero_add, List.reverse_nil, val_nil, pow_zero, Nat.one_mul] at h3 h6
  have hpow : (4294967296 : Nat) ^ 8 = 2 ^ 256 := by norm_num
  rw [hpow] at h3 h4 h6
  rw [h4] at h6
  have e : val low.reverse + 2 ^ 256 * (val w + val a * top.toNat)
      = val a * (val b + 2 ^ 256 * top.toNat) := by
    linear_combination h3
  rw [e] at h6
  have hmlt := val_lt8 hm
  unfold Nat.ModEq at h6
  rw [← h6]
  split
  · rw [Nat.mod_eq_sub_mod (by omega), Nat.mod_eq_of_lt (by omega)]
  · rw [Nat.mod_eq_of_lt (by omega)]

theorem modmul_spec {a b m : Int256} (ha : Wf a) (hb : Wf b) (hm : Wf m)
    (hmv : 2 ^ 256 - 2 ^ 224 ≤ val m) :
    Wf (modmul a b m) ∧ val (modmul a b m) = val a * val b % val m := by
  have := modmul_top_spec 0 ha hb hm hmv
  simpa [modmul] using this

theorem ltLoop_spec : ∀ (a b : List UInt32) (c : Int), a.length = b.length → -1 ≤ c → c ≤ 0 →
    ltLoop c a b = (subLoop c a b).2
  | [], [], c, _, _, _ => by simp [ltLoop, subLoop]
  | [], _ :: _, _, h, _, _ => by simp at h
  | _ :: _, [], _, h, _, _ => by simp at h
  | a :: as, b :: bs, c, h, hc, hc' => by
    have ha := u32_lt a
    have hb := u32_lt b
    rw [ltLoop, subLoop]
    exact ltLoop_spec as bs _ (by simpa using h) (by omega) (by omega)

theorem ct_lt_spec {a b : Int256} (h : a.length = b.length) :
    ct_lt a b = decide (val a < val b) := by
  obtain ⟨l, h1, h1', h2⟩ := subLoop_spec a b 0 h (by simp) (by simp)
  have hv := val_lt (subLoop 0 a b).1
  rw [l] at hv
  unfold ct_lt
  rw [ltLoop_spec a b 0 h (by simp) (by simp)]
  have hq : (4294967296 : Int) ^ a.length = ((4294967296 ^ a.length : Nat) : Int) := by push_cast; rfl
  rw [hq] at h2
  generalize 4294967296 ^ a.length = q at *
  generalize (subLoop 0 a b).2 = r at *
  have hr : r = 0 ∨ r = -1 := by omega
  rcases hr with r | r <;> subst r
  · simp; omega
  · simp; omega

theorem is_zero_spec (x : Int256) : is_zero x = decide (val x = 0) := by
  have key : ∀ (l : List UInt32) (acc : Bool),
      l.foldl (fun acc d => acc && d == 0) acc = (acc && decide (val l = 0)) := by
    intro l
    induction l with
    | nil => simp
    | cons d ds ih =>
      intro acc
      rw [List.foldl_cons, ih]
      have : (d == 0) = decide (d.toNat = 0) := by
        by_cases h : d = 0
        · subst h; rfl
        · have : d.toNat ≠ 0 := fun hh => h (UInt32.toNat_inj.1 (by simpa using hh))
          simp [h, this]
      rw [this, val_cons, Bool.and_assoc]
      congr 1
      by_cases h1 : d.toNat = 0 <;> by_cases h2 : val ds = 0 <;> simp [h1, h2]
  have := key x true
  rwa [Bool.true_and] at this

end Int256

end Verif.P256
