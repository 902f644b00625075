import Verif.Store.Word

/-!
# Arithmetic of positions
-/
namespace Verif.Store

/-- What is used about the sizes of a supported format. -/
structure Sizes (F : Format) : Prop where
  q6 : 6 ≤ F.Q
  q1022 : F.Q ≤ 1022
  n3 : 3 ≤ F.N
  n64 : F.N ≤ 64
  e16 : F.E ≤ 65535
  m1 : 1 ≤ F.M
  mq : F.M + 1 ≤ F.Q
  m256 : F.M ≤ 256
  w : F.W + F.M = (F.N - 1) * F.Q
  wn : F.W + F.M + F.Q = F.N * F.Q
  v : F.V + (F.N - 1) = F.W
  c : F.C + F.N = F.V
  nq : F.N * F.Q ≤ 65408
  wq : F.Q + 1 ≤ F.W
  pw : F.pageWords = F.Q + 2
  ml : F.maxValueLen ≤ 1023

theorem maxLen_words {F : Format} {n : Nat} (h : n ≤ F.maxValueLen) : bytesToWords n ≤ F.M := by
  simp only [Format.M, bytesToWords]
  omega

theorem sizes {F : Format} (h : F.supported) : Sizes F := by
  obtain ⟨h1, h2, h3, h4, h5⟩ := h
  have q6 : 6 ≤ F.Q := by simp only [Format.Q]; omega
  have q1022 : F.Q ≤ 1022 := by simp only [Format.Q]; omega
  have hM : F.M = min (F.Q - 1) 256 := by
    simp only [Format.M, Format.maxValueLen, bytesToWords]; omega
  obtain ⟨n, hn⟩ : ∃ n, F.numPages = n + 3 := ⟨F.numPages - 3, by omega⟩
  obtain ⟨q, hq⟩ : ∃ q, F.Q = q + 6 := ⟨F.Q - 6, by omega⟩
  have e1 : (n + 3 - 1) * (q + 6) = n * q + 6 * n + 2 * q + 12 := by
    rw [show n + 3 - 1 = n + 2 by omega, Nat.add_mul, Nat.mul_add]; omega
  have e2 : (n + 3 - 1) * (q + 6 - 1) = n * q + 5 * n + 2 * q + 10 := by
    rw [show n + 3 - 1 = n + 2 by omega, show q + 6 - 1 = q + 5 by omega, Nat.add_mul, Nat.mul_add]; omega
  have e3 : (n + 3) * (q + 6) = n * q + 6 * n + 3 * q + 18 := by
    rw [Nat.add_mul, Nat.mul_add]; omega
  have hb : n * q ≤ 61 * q := Nat.mul_le_mul_right q (by omega)
  constructor
  · exact q6
  · exact q1022
  · exact h3
  · exact h4
  · exact h5
  · omega
  · omega
  · omega
  · simp only [Format.W, Format.N, hn, hq] at *; omega
  · simp only [Format.W, Format.N, hn, hq] at *; omega
  · simp only [Format.W, Format.V, Format.N, hn, hq] at *; omega
  · simp only [Format.C, Format.V, Format.N, hn, hq] at *; omega
  · simp only [Format.N, hn, hq] at *; omega
  · simp only [Format.W, Format.N, hn, hq] at *; omega
  · simp only [Format.Q]; omega
  · simp only [Format.maxValueLen]; omega

section
variable {Q N : Nat}

theorem div_of {a x : Nat} (h1 : a * Q ≤ x) (h2 : x < a * Q + Q) : x / Q = a := by
  have h3 : 0 < Q := by omega
  have e := Nat.mul_comm a Q
  have : x = (x - a * Q) + Q * a := by omega
  rw [this, Nat.add_mul_div_left _ _ h3, Nat.div_eq_of_lt (by omega)]; omega

theorem mod_of {a x : Nat} (h1 : a * Q ≤ x) (h2 : x < a * Q + Q) : x % Q = x - a * Q := by
  have := Nat.div_add_mod x Q
  rw [div_of h1 h2, Nat.mul_comm] at this
  omega

theorem div_bounds {x : Nat} (h : 0 < Q) : x / Q * Q ≤ x ∧ x < x / Q * Q + Q := by
  have h1 := Nat.div_add_mod x Q
  have h2 := Nat.mod_lt x h
  rw [Nat.mul_comm] at h1
  omega

theorem succ_mul' (a : Nat) : (a + 1) * Q = a * Q + Q := Nat.succ_mul a Q

theorem mul_mono {a b : Nat} (h : a ≤ b) : a * Q ≤ b * Q := Nat.mul_le_mul_right Q h

theorem mul_step {a b : Nat} (h : a < b) : a * Q + Q ≤ b * Q := by
  rw [← succ_mul']; exact mul_mono h

theorem lt_of_mul {a b : Nat} (h : a * Q < b * Q) : a < b := Nat.lt_of_mul_lt_mul_right h

theorem mod_inj {a a' b : Nat} (h1 : b ≤ a) (h2 : a < b + N) (h3 : b ≤ a') (h4 : a' < b + N) (h : a % N = a' % N) : a = a' := by
  have hN : 0 < N := by omega
  have d1 := Nat.div_add_mod a N
  have d2 := Nat.div_add_mod a' N
  rcases Nat.lt_trichotomy (a / N) (a' / N) with h5 | h5 | h5
  · have := Nat.mul_le_mul_left N (show a / N + 1 ≤ a' / N from h5)
    rw [Nat.mul_add] at this; omega
  · rw [h5] at d1; omega
  · have := Nat.mul_le_mul_left N (show a' / N + 1 ≤ a / N from h5)
    rw [Nat.mul_add] at this; omega

/-- Each physical page is one page of the window. -/
theorem exists_page {b p : Nat} (hp : p < N) : ∃ a, b ≤ a ∧ a < b + N ∧ a % N = p := by
  have hN : 0 < N := by omega
  have d := Nat.div_add_mod b N
  have hm := Nat.mod_lt b hN
  by_cases h : b % N ≤ p
  · refine ⟨N * (b / N) + p, by omega, by omega, ?_⟩
    rw [Nat.mul_add_mod, Nat.mod_eq_of_lt hp]
  · refine ⟨N * (b / N + 1) + p, by rw [Nat.mul_add]; omega, by rw [Nat.mul_add]; omega, ?_⟩
    rw [Nat.mul_add_mod, Nat.mod_eq_of_lt hp]

end

end Verif.Store
