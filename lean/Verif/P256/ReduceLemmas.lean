import Verif.P256.MontLemmas

/-! The reduction of products in Montgomery form. -/

namespace Verif.P256

namespace Mont

/-- The number behind limbs of 64 bits. -/
def wval64 : Bool → List UInt64 → Nat
  | _, [] => 0
  | true, l :: ls => l.toNat + 2 ^ 29 * wval64 false ls
  | false, l :: ls => l.toNat + 2 ^ 28 * wval64 true ls

theorem low32 (b : UInt64) : b.toUInt32.toNat = b.toNat % 2 ^ 32 := UInt64.toNat_toUInt32 b

theorem high32 (b : UInt64) : (b >>> 32).toUInt32.toNat = b.toNat / 2 ^ 32 := by
  rw [low32, UInt64.toNat_shiftRight, show (32 : UInt64).toNat % 64 = 32 from rfl,
    Nat.shiftRight_eq_div_pow]
  have := b.toNat_lt
  omega

theorem high57 (b : UInt64) : ((b >>> 32).toUInt32 >>> 25).toNat = b.toNat / 2 ^ 57 := by
  rw [shr_toNat _ 25 (by decide), high32, show (25 : UInt32).toNat = 25 from rfl]
  omega

theorem mid29 (b : UInt64) : (b.toUInt32 >>> 29).toNat +
    (((b >>> 32).toUInt32 <<< 3) &&& BOTTOM_28_BITS).toNat = b.toNat / 2 ^ 29 % 2 ^ 28 := by
  rw [shr29, mask28, shl_toNat _ 3 (by decide), low32, high32, show (3 : UInt32).toNat = 3 from rfl]
  omega

theorem mid28 (b : UInt64) : (b.toUInt32 >>> 28).toNat +
    (((b >>> 32).toUInt32 <<< 4) &&& BOTTOM_29_BITS).toNat = b.toNat / 2 ^ 28 % 2 ^ 29 := by
  rw [shr28, mask29, shl_toNat _ 4 (by decide), low32, high32, show (4 : UInt32).toNat = 4 from rfl]
  omega

theorem propLimb_even (b2 b1 b0 : UInt64) (c : UInt32) (hc : c.toNat ≤ 15) :
    (propLimb true b2 b1 b0 c).toNat
      = b2.toNat / 2 ^ 57 + b1.toNat / 2 ^ 28 % 2 ^ 29 + b0.toNat % 2 ^ 29 + c.toNat := by
  have h1 := high57 b2
  have h2 := mid28 b1
  have h3 : (b0.toUInt32 &&& BOTTOM_29_BITS).toNat = b0.toNat % 2 ^ 29 := by
    rw [mask29, low32]; omega
  have := b2.toNat_lt
  simp only [propLimb, if_true]
  rw [UInt32.toNat_add, UInt32.toNat_add, UInt32.toNat_add, UInt32.toNat_add, h1, h3]
  omega

theorem propLimb_odd (b2 b1 b0 : UInt64) (c : UInt32) (hc : c.toNat ≤ 15) :
    (propLimb false b2 b1 b0 c).toNat
      = b2.toNat / 2 ^ 57 + b1.toNat / 2 ^ 29 % 2 ^ 28 + b0.toNat % 2 ^ 28 + c.toNat := by
  have h1 := high57 b2
  have h2 := mid29 b1
  have h3 : (b0.toUInt32 &&& BOTTOM_28_BITS).toNat = b0.toNat % 2 ^ 28 := by
    rw [mask28, low32]; omega
  have := b2.toNat_lt
  simp only [propLimb, Bool.false_eq_true, if_false]
  rw [UInt32.toNat_add, UInt32.toNat_add, UInt32.toNat_add, UInt32.toNat_add, h1, h3]
  omega

theorem propLoop_spec : ∀ (bs : List UInt64) (even : Bool) (b2 b1 : UInt64) (c : UInt32),
    c.toNat ≤ 15 → (bs.length % 2 = if even then 1 else 0) →
    (∀ x, (b1 :: bs).getLast? = some x → x.toNat < 2 ^ 60) →
    ∃ ms last, propLoop even b2 b1 c bs = ms ++ [last] ∧ ms.length = bs.length ∧
      Bounded (2 ^ 29) (2 ^ 28) even ms ∧ last.toNat ≤ 2 ^ 31 + 2 ^ 8 ∧
      wval even (propLoop even b2 b1 c bs) = b2.toNat / 2 ^ 57 +
        b1.toNat / (if even then 2 ^ 28 else 2 ^ 29) + c.toNat + wval64 even bs
  | [], even, b2, b1, c, hc, hp, hl => by
    have he : even = false := by cases even <;> simp at hp ⊢
    subst he
    have hb := hl b1 rfl
    have h1 := high57 b2
    have h2 := high32 b1
    have h3 : (b1.toUInt32 >>> 29).toNat = b1.toNat % 2 ^ 32 / 2 ^ 29 := by rw [shr29, low32]
    have h4 : ((b1 >>> 32).toUInt32 <<< 3).toNat = b1.toNat / 2 ^ 32 * 2 ^ 3 % 2 ^ 32 := by
      rw [shl_toNat _ 3 (by decide), h2]; rfl
    have hb2 := b2.toNat_lt
    have e : (((b2 >>> 32).toUInt32 >>> 25) + (b1.toUInt32 >>> 29) +
        ((b1 >>> 32).toUInt32 <<< 3) + c).toNat
        = b2.toNat / 2 ^ 57 + b1.toNat / 2 ^ 29 + c.toNat := by
      rw [UInt32.toNat_add, UInt32.toNat_add, UInt32.toNat_add, h1, h3, h4]
      omega
    refine ⟨[], _, rfl, rfl, trivial, by rw [e]; omega, ?_⟩
    rw [propLoop]
    simp only [wval, wval64, e, Bool.false_eq_true, if_false]
    omega
  | b0 :: bs, true, b2, b1, c, hc, hp, hl => by
    have e := propLimb_even b2 b1 b0 c hc
    have hb2 := b2.toNat_lt
    have e2 := shr29 (propLimb true b2 b1 b0 c)
    have e3 := mask29 (propLimb true b2 b1 b0 c)
    have hl' : ∀ x, (b0 :: bs).getLast? = some x → x.toNat < 2 ^ 60 := by
      intro x hx; exact hl x (by rw [List.getLast?_cons_cons]; exact hx)
    have hp' : bs.length % 2 = if false then 1 else 0 := by
      simp only [List.length_cons, if_true, Bool.false_eq_true, if_false] at hp ⊢; omega
    obtain ⟨ms, last, g1, g2, g3, g4, g5⟩ := propLoop_spec bs false b1 b0
      (propLimb true b2 b1 b0 c >>> 29) (by omega) hp' hl'
    refine ⟨(propLimb true b2 b1 b0 c &&& BOTTOM_29_BITS) :: ms, last, ?_, ?_, ?_, g4, ?_⟩
    · rw [propLoop]; simp only [if_true, g1, List.cons_append]
    · simp [g2]
    · exact ⟨by omega, g3⟩
    · rw [propLoop]
      simp only [if_true, wval, wval64, g5, Bool.false_eq_true, if_false]
      omega
  | b0 :: bs, false, b2, b1, c, hc, hp, hl => by
    have e := propLimb_odd b2 b1 b0 c hc
    have hb2 := b2.toNat_lt
    have e2 := shr28 (propLimb false b2 b1 b0 c)
    have e3 := mask28 (propLimb false b2 b1 b0 c)
    have hl' : ∀ x, (b0 :: bs).getLast? = some x → x.toNat < 2 ^ 60 := by
      intro x hx; exact hl x (by rw [List.getLast?_cons_cons]; exact hx)
    have hp' : bs.length % 2 = if true then 1 else 0 := by
      simp only [List.length_cons, if_true, Bool.false_eq_true, if_false] at hp ⊢; omega
    obtain ⟨ms, last, g1, g2, g3, g4, g5⟩ := propLoop_spec bs true b1 b0
      (propLimb false b2 b1 b0 c >>> 28) (by omega) hp' hl'
    refine ⟨(propLimb false b2 b1 b0 c &&& BOTTOM_28_BITS) :: ms, last, ?_, ?_, ?_, g4, ?_⟩
    · rw [propLoop]; simp only [Bool.false_eq_true, if_false, g1, List.cons_append]
    · simp [g2]
    · exact ⟨by omega, g3⟩
    · rw [propLoop]
      simp only [if_true, wval, wval64, g5, Bool.false_eq_true, if_false]
      omega

theorem or_eq_add (b : UInt64) : ((b.toUInt32 >>> 29) |||
    (((b >>> 32).toUInt32 <<< 3) &&& BOTTOM_28_BITS)).toNat = b.toNat / 2 ^ 29 % 2 ^ 28 := by
  rw [← mid29, UInt32.toNat_or]
  have h1 : (b.toUInt32 >>> 29).toNat < 2 ^ 3 := by rw [shr29, low32]; omega
  have h2 : ∃ k, (((b >>> 32).toUInt32 <<< 3) &&& BOTTOM_28_BITS).toNat = 2 ^ 3 * k := by
    refine ⟨(((b >>> 32).toUInt32 <<< 3) &&& BOTTOM_28_BITS).toNat / 8, ?_⟩
    rw [mask28, shl_toNat _ 3 (by decide), show (3 : UInt32).toNat = 3 from rfl]
    omega
  obtain ⟨k, hk⟩ := h2
  rw [hk, Nat.or_comm, ← Nat.two_pow_add_eq_or_of_lt h1, Nat.add_comm]

theorem propagate_carry_spec {bs : List UInt64} (h : bs.length = 17)
    (hl : ∀ x, bs.getLast? = some x → x.toNat < 2 ^ 60) :
    ∃ ms last, propagate_carry bs = ms ++ [last] ∧ ms.length = 17 ∧
      Bounded (2 ^ 29) (2 ^ 28) true ms ∧ last.toNat ≤ 2 ^ 31 + 2 ^ 8 ∧
      wval true (propagate_carry bs) = wval64 true bs := by
  match bs, h with
  | b0 :: b1 :: bs, h =>
    have e := or_eq_add b0
    have e1 : (((b0.toUInt32 >>> 29) ||| (((b0 >>> 32).toUInt32 <<< 3) &&& BOTTOM_28_BITS))
        + (b1.toUInt32 &&& BOTTOM_28_BITS)).toNat
        = b0.toNat / 2 ^ 29 % 2 ^ 28 + b1.toNat % 2 ^ 28 := by
      rw [UInt32.toNat_add, e, mask28, low32]; omega
    generalize hy : ((b0.toUInt32 >>> 29) ||| (((b0 >>> 32).toUInt32 <<< 3) &&& BOTTOM_28_BITS))
        + (b1.toUInt32 &&& BOTTOM_28_BITS) = y at *
    have e2 := shr28 y
    have e3 := mask28 y
    have e4 : (b0.toUInt32 &&& BOTTOM_29_BITS).toNat = b0.toNat % 2 ^ 29 := by
      rw [mask29, low32]; omega
    simp only [List.length_cons] at h
    obtain ⟨ms, last, g1, g2, g3, g4, g5⟩ := propLoop_spec bs true b0 b1 (y >>> 28) (by omega)
      (by simp only [if_true]; omega)
      (by intro x hx; exact hl x (by rw [List.getLast?_cons_cons]; exact hx))
    have hpc : propagate_carry (b0 :: b1 :: bs) = (b0.toUInt32 &&& BOTTOM_29_BITS) ::
        (y &&& BOTTOM_28_BITS) :: propLoop true b0 b1 (y >>> 28) bs := by
      rw [propagate_carry]; simp only [hy]
    refine ⟨(b0.toUInt32 &&& BOTTOM_29_BITS) :: (y &&& BOTTOM_28_BITS) :: ms, last, ?_, ?_, ?_,
      g4, ?_⟩
    · rw [hpc, g1]; rfl
    · simp only [List.length_cons]; omega
    · exact ⟨by omega, by omega, g3⟩
    · rw [hpc]
      simp only [wval, wval64, g5, if_true]
      omega

end Mont

end Verif.P256
