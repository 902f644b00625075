import Verif.Cbor.Spec

/-! Helper lemmas for `Verif.Cbor.Props`. -/
namespace Verif.Cbor
open Verif.Utf8 (toNat_ofNat byte_ext)

/-! ## Heads -/

theorem pow256 (k : Nat) : 256 ^ k = 2 ^ (8 * k) := by
  rw [show (256 : Nat) = 2 ^ 8 from rfl, ← Nat.pow_mul]

theorem startItem_eq_head (t n : Nat) (h : n < 2 ^ 64) : startItem t n = head t n := by
  unfold startItem head
  simp only [beBytes]
  repeat' split
  all_goals first
    | omega
    | rfl
    | (simp only [List.cons.injEq, and_true, true_and]
       refine ⟨?_, ?_⟩ <;> congr 1 <;> omega)
    | (simp only [List.cons.injEq, and_true, true_and]
       congr 1; omega)
    | (simp)

theorem ofNat_toNat_lt (n : Nat) (h : n < 256) : (UInt8.ofNat n).toNat = n := toNat_ofNat n h

theorem readBytes_append (l r : Bytes) : readBytes l.length (l ++ r) = some (l, r) := by
  simp [readBytes]

theorem readBytes_some {n bs l r} (h : readBytes n bs = some (l, r)) : bs = l ++ r ∧ l.length = n := by
  unfold readBytes at h
  split at h <;> simp at h
  obtain ⟨rfl, rfl⟩ := h
  simp; omega

/-- Reading the head back. -/
theorem readVariadic_head (t n : Nat) (ht : t < 8) (h : n < 2 ^ 64) (r : Bytes) :
    ∃ f tl, head t n ++ r = f :: tl ∧ f.toNat / 32 = t ∧ readVariadic (f.toNat % 32) tl = .ok (n, r)
      ∧ (n ≤ 23 → f.toNat % 32 = n) := by
  unfold head
  split
  · refine ⟨_, _, rfl, ?_, ?_, ?_⟩
    · rw [toNat_ofNat _ (by omega)]; omega
    · rw [toNat_ofNat _ (by omega), show (t * 32 + n) % 32 = n by omega]
      simp [readVariadic]; omega
    · rw [toNat_ofNat _ (by omega)]; omega
  split
  · refine ⟨_, _, rfl, ?_, ?_, ?_⟩
    · rw [toNat_ofNat _ (by omega)]; omega
    · rw [toNat_ofNat _ (by omega), show (t * 32 + 24) % 32 = 24 by omega]
      simp only [readVariadic, List.nil_append, List.cons_append]
      have := readBytes_append [UInt8.ofNat n] r
      simp at this
      simp [this, beNat]
      rw [Nat.mod_eq_of_lt (by omega)]
      rw [if_neg (by omega)]
    · omega
  split
  · refine ⟨_, _, rfl, ?_, ?_, ?_⟩
    · rw [toNat_ofNat _ (by omega)]; omega
    · rw [toNat_ofNat _ (by omega), show (t * 32 + 25) % 32 = 25 by omega]
      simp only [readVariadic, List.nil_append, List.cons_append]
      have := readBytes_append [UInt8.ofNat (n / 2 ^ 8 % 256), UInt8.ofNat (n % 256)] r
      simp at this
      simp [this, beNat]
      rw [if_neg (by omega)]; simp; omega
    · omega
  split
  · refine ⟨_, _, rfl, ?_, ?_, ?_⟩
    · rw [toNat_ofNat _ (by omega)]; omega
    · rw [toNat_ofNat _ (by omega), show (t * 32 + 26) % 32 = 26 by omega]
      simp only [readVariadic, List.nil_append, List.cons_append]
      have := readBytes_append [UInt8.ofNat (n / 2 ^ 24 % 256), UInt8.ofNat (n / 2 ^ 16 % 256),
        UInt8.ofNat (n / 2 ^ 8 % 256), UInt8.ofNat (n % 256)] r
      simp at this
      simp [this, beNat]
      rw [if_neg (by omega)]; simp; omega
    · omega
  · refine ⟨_, _, rfl, ?_, ?_, ?_⟩
    · rw [toNat_ofNat _ (by omega)]; omega
    · rw [toNat_ofNat _ (by omega), show (t * 32 + 27) % 32 = 27 by omega]
      simp only [readVariadic, List.nil_append, List.cons_append]
      have := readBytes_append [UInt8.ofNat (n / 2 ^ 56 % 256), UInt8.ofNat (n / 2 ^ 48 % 256),
        UInt8.ofNat (n / 2 ^ 40 % 256), UInt8.ofNat (n / 2 ^ 32 % 256),
        UInt8.ofNat (n / 2 ^ 24 % 256), UInt8.ofNat (n / 2 ^ 16 % 256),
        UInt8.ofNat (n / 2 ^ 8 % 256), UInt8.ofNat (n % 256)] r
      simp at this
      simp [this, beNat]
      rw [if_neg (by omega)]; simp; omega
    · omega

theorem list_len1 {l : Bytes} (h : l.length = 1) : ∃ a, l = [a] := by
  match l, h with | [a], _ => exact ⟨a, rfl⟩
theorem list_len2 {l : Bytes} (h : l.length = 2) : ∃ a b, l = [a, b] := by
  match l, h with | [a, b], _ => exact ⟨a, b, rfl⟩
theorem list_len4 {l : Bytes} (h : l.length = 4) : ∃ a b c d, l = [a, b, c, d] := by
  match l, h with | [a, b, c, d], _ => exact ⟨a, b, c, d, rfl⟩
theorem list_len8 {l : Bytes} (h : l.length = 8) : ∃ a b c d e f g i, l = [a, b, c, d, e, f, g, i] := by
  match l, h with | [a, b, c, d, e, f, g, i], _ => exact ⟨a, b, c, d, e, f, g, i, rfl⟩

/-- Only the shortest form of a head is accepted. -/
theorem readVariadic_ok {f : UInt8} {bs : Bytes} {n : Nat} {r : Bytes}
    (h : readVariadic (f.toNat % 32) bs = .ok (n, r)) :
    n < 2 ^ 64 ∧ f :: bs = head (f.toNat / 32) n ++ r := by
  have hf := f.toNat_lt
  unfold readVariadic at h
  split at h
  · simp at h
    obtain ⟨rfl, rfl⟩ := h
    refine ⟨by omega, ?_⟩
    rw [head, if_pos (by omega)]
    simp only [List.cons_append, List.nil_append, List.cons.injEq, and_true]
    exact byte_ext (by omega)
  split at h
  · simp at h
  next k hk =>
  split at h
  · simp at h
  next l r' hr =>
  obtain ⟨rfl, hl⟩ := readBytes_some hr
  simp only at h
  split at h
  · simp at h
  next hmin =>
  simp at h
  obtain ⟨rfl, rfl⟩ := h
  have hks : (f.toNat % 32 = 24 ∧ k = 1) ∨ (f.toNat % 32 = 25 ∧ k = 2) ∨ (f.toNat % 32 = 26 ∧ k = 4)
      ∨ (f.toNat % 32 = 27 ∧ k = 8) := by
    split at hk <;> simp at hk <;> omega
  rcases hks with ⟨hi, rfl⟩ | ⟨hi, rfl⟩ | ⟨hi, rfl⟩ | ⟨hi, rfl⟩
  · obtain ⟨a, rfl⟩ := list_len1 hl
    have ha := a.toNat_lt
    simp [beNat] at hmin ⊢
    refine ⟨by omega, ?_⟩
    rw [head, if_neg (by omega), if_pos (by omega)]
    simp only [List.cons_append, List.nil_append, List.cons.injEq, and_true]
    exact ⟨byte_ext (by omega), byte_ext (by omega)⟩
  · obtain ⟨a, b, rfl⟩ := list_len2 hl
    have ha := a.toNat_lt
    have hb := b.toNat_lt
    simp [beNat] at hmin ⊢
    refine ⟨by omega, ?_⟩
    rw [head, if_neg (by omega), if_neg (by omega), if_pos (by omega)]
    simp only [List.cons_append, List.nil_append, List.cons.injEq, and_true]
    exact ⟨byte_ext (by omega), byte_ext (by omega), byte_ext (by omega)⟩
  · obtain ⟨a, b, c, d, rfl⟩ := list_len4 hl
    have ha := a.toNat_lt
    have hb := b.toNat_lt
    have hc := c.toNat_lt
    have hd := d.toNat_lt
    simp [beNat] at hmin ⊢
    refine ⟨by omega, ?_⟩
    rw [head, if_neg (by omega), if_neg (by omega), if_neg (by omega), if_pos (by omega)]
    simp only [List.cons_append, List.nil_append, List.cons.injEq, and_true]
    exact ⟨byte_ext (by omega), byte_ext (by omega), byte_ext (by omega), byte_ext (by omega),
      byte_ext (by omega)⟩
  · obtain ⟨a, b, c, d, e, g, i, j, rfl⟩ := list_len8 hl
    have ha := a.toNat_lt
    have hb := b.toNat_lt
    have hc := c.toNat_lt
    have hd := d.toNat_lt
    have he := e.toNat_lt
    have hg := g.toNat_lt
    have hi' := i.toNat_lt
    have hj := j.toNat_lt
    simp [beNat] at hmin ⊢
    refine ⟨by omega, ?_⟩
    rw [head, if_neg (by omega), if_neg (by omega), if_neg (by omega), if_neg (by omega)]
    simp only [List.cons_append, List.nil_append, List.cons.injEq, and_true]
    exact ⟨byte_ext (by omega), byte_ext (by omega), byte_ext (by omega), byte_ext (by omega),
      byte_ext (by omega), byte_ext (by omega), byte_ext (by omega), byte_ext (by omega),
      byte_ext (by omega)⟩

theorem head_ne_nil (t n : Nat) : head t n ≠ [] := by
  unfold head; repeat' split
  all_goals simp

end Verif.Cbor
