import Mathlib.NumberTheory.LucasPrimality
import Mathlib.Data.Nat.Prime.Basic
import Mathlib.Tactic.NormNum.Prime

/-! The field order and the group order of the curve P-256 are prime. Each prime comes with the
    factors of its predecessor and a generator (Pratt's certificates); the modular powers are
    evaluated by the kernel. -/

namespace Verif.P256

/-- The order of the field, `Int256::P`, libraries/crypto/src/ec/int256.rs 74-79. -/
def P : Nat := 0xffffffff00000001000000000000000000000000ffffffffffffffffffffffff

/-- The order of the group, `Int256::N`, libraries/crypto/src/ec/int256.rs 60-65. -/
def N : Nat := 0xffffffff00000000ffffffffffffffffbce6faada7179e84f3b9cac2fc632551

/-- `a ^ e mod m` over the binary digits of `e`; `fuel` bounds their number. Used by the proofs
    only. -/
def powModAux (m : Nat) : Nat → Nat → Nat → Nat → Nat
  | 0, _, _, acc => acc
  | fuel + 1, a, e, acc =>
    if e = 0 then acc
    else powModAux m fuel (a * a % m) (e / 2) (if e % 2 = 1 then acc * a % m else acc)

def powMod (m a e : Nat) : Nat := powModAux m (e.log2 + 1) (a % m) e (1 % m)

theorem powModAux_spec (m : Nat) : ∀ (fuel a e acc : Nat), e < 2 ^ fuel →
    ((powModAux m fuel a e acc : Nat) : ZMod m) = (acc : ZMod m) * (a : ZMod m) ^ e := by
  intro fuel
  induction fuel with
  | zero =>
    intro a e acc h
    have : e = 0 := by simpa using h
    simp [powModAux, this]
  | succ fuel ih =>
    intro a e acc h
    unfold powModAux
    split
    · rename_i h0; simp [h0]
    · have he : e / 2 < 2 ^ fuel := by rw [pow_succ] at h; omega
      rw [ih _ _ _ he]
      have e2 : e = 2 * (e / 2) + e % 2 := by omega
      have h2 : ((a * a % m : Nat) : ZMod m) = (a : ZMod m) ^ 2 := by
        rw [ZMod.natCast_mod]; push_cast; ring
      rw [h2, ← pow_mul]
      split
      · rename_i h1
        conv_rhs => rw [e2, h1, pow_succ]
        rw [ZMod.natCast_mod]; push_cast; ring
      · have h1 : e % 2 = 0 := by omega
        conv_rhs => rw [e2, h1, add_zero]

theorem powMod_spec (m a e : Nat) : ((powMod m a e : Nat) : ZMod m) = (a : ZMod m) ^ e := by
  unfold powMod
  rw [powModAux_spec _ _ _ _ _ (Nat.lt_log2_self)]
  simp [ZMod.natCast_mod]

/-- Lucas' criterion with everything left to compute. -/
theorem prime_of_factors (q g : Nat) (fs : List Nat) (hq : 1 < q)
    (hfs : ∀ f ∈ fs, Nat.Prime f) (hprod : fs.prod = q - 1)
    (h1 : powMod q g (q - 1) = 1)
    (hne : (fs.all fun f => powMod q g ((q - 1) / f) % q != 1) = true) : Nat.Prime q := by
  refine lucas_primality q (g : ZMod q) ?_ ?_
  · rw [← powMod_spec, h1]; simp
  · intro r hr hdvd
    rw [← hprod] at hdvd
    obtain ⟨f, hf, hrf⟩ := (Prime.dvd_prod_iff hr.prime).1 hdvd
    have : r = f := (Nat.prime_dvd_prime_iff_eq hr (hfs f hf)).1 hrf
    subst this
    rw [← powMod_spec]
    intro hc
    have := List.all_eq_true.1 hne r hf
    have h1' : ((powMod q g ((q - 1) / r) : Nat) : ZMod q) = ((1 : Nat) : ZMod q) := by
      simpa using hc
    rw [ZMod.natCast_eq_natCast_iff'] at h1'
    rw [h1', Nat.mod_eq_of_lt hq] at this
    simp at this

private theorem prime_3969899 : Nat.Prime 3969899 :=
  prime_of_factors 3969899 2 [2, 19, 104471] (by decide) (by
    simp only [List.forall_mem_cons]
    exact ⟨(by norm_num), (by norm_num), (by norm_num), by simp⟩)
    (by decide +kernel) (by decide +kernel) (by decide +kernel)

private theorem prime_6700417 : Nat.Prime 6700417 :=
  prime_of_factors 6700417 5 [2, 2, 2, 2, 2, 2, 2, 3, 17449] (by decide) (by
    simp only [List.forall_mem_cons]
    exact ⟨(by norm_num), (by norm_num), (by norm_num), (by norm_num), (by norm_num), (by norm_num), (by norm_num), (by norm_num), (by norm_num), by simp⟩)
    (by decide +kernel) (by decide +kernel) (by decide +kernel)

private theorem prime_9350987 : Nat.Prime 9350987 :=
  prime_of_factors 9350987 2 [2, 17, 229, 1201] (by decide) (by
    simp only [List.forall_mem_cons]
    exact ⟨(by norm_num), (by norm_num), (by norm_num), (by norm_num), by simp⟩)
    (by decide +kernel) (by decide +kernel) (by decide +kernel)

private theorem prime_187019741 : Nat.Prime 187019741 :=
  prime_of_factors 187019741 2 [2, 2, 5, 9350987] (by decide) (by
    simp only [List.forall_mem_cons]
    exact ⟨(by norm_num), (by norm_num), (by norm_num), prime_9350987, by simp⟩)
    (by decide +kernel) (by decide +kernel) (by decide +kernel)

private theorem prime_191039911 : Nat.Prime 191039911 :=
  prime_of_factors 191039911 3 [2, 3, 5, 41, 155317] (by decide) (by
    simp only [List.forall_mem_cons]
    exact ⟨(by norm_num), (by norm_num), (by norm_num), (by norm_num), (by norm_num), by simp⟩)
    (by decide +kernel) (by decide +kernel) (by decide +kernel)

private theorem prime_204061199 : Nat.Prime 204061199 :=
  prime_of_factors 204061199 11 [2, 11, 23, 107, 3769] (by decide) (by
    simp only [List.forall_mem_cons]
    exact ⟨(by norm_num), (by norm_num), (by norm_num), (by norm_num), (by norm_num), by simp⟩)
    (by decide +kernel) (by decide +kernel) (by decide +kernel)

private theorem prime_311245691 : Nat.Prime 311245691 :=
  prime_of_factors 311245691 2 [2, 5, 7, 17, 29, 29, 311] (by decide) (by
    simp only [List.forall_mem_cons]
    exact ⟨(by norm_num), (by norm_num), (by norm_num), (by norm_num), (by norm_num), (by norm_num), (by norm_num), by simp⟩)
    (by decide +kernel) (by decide +kernel) (by decide +kernel)

private theorem prime_622491383 : Nat.Prime 622491383 :=
  prime_of_factors 622491383 5 [2, 311245691] (by decide) (by
    simp only [List.forall_mem_cons]
    exact ⟨(by norm_num), prime_311245691, by simp⟩)
    (by decide +kernel) (by decide +kernel) (by decide +kernel)

private theorem prime_34282281433 : Nat.Prime 34282281433 :=
  prime_of_factors 34282281433 17 [2, 2, 2, 3, 7, 204061199] (by decide) (by
    simp only [List.forall_mem_cons]
    exact ⟨(by norm_num), (by norm_num), (by norm_num), (by norm_num), (by norm_num), prime_204061199, by simp⟩)
    (by decide +kernel) (by decide +kernel) (by decide +kernel)

private theorem prime_66417393611 : Nat.Prime 66417393611 :=
  prime_of_factors 66417393611 6 [2, 5, 53, 173, 197, 3677] (by decide) (by
    simp only [List.forall_mem_cons]
    exact ⟨(by norm_num), (by norm_num), (by norm_num), (by norm_num), (by norm_num), (by norm_num), by simp⟩)
    (by decide +kernel) (by decide +kernel) (by decide +kernel)

private theorem prime_1002328039319 : Nat.Prime 1002328039319 :=
  prime_of_factors 1002328039319 19 [2, 126241, 3969899] (by decide) (by
    simp only [List.forall_mem_cons]
    exact ⟨(by norm_num), (by norm_num), prime_3969899, by simp⟩)
    (by decide +kernel) (by decide +kernel) (by decide +kernel)

private theorem prime_11290956913871 : Nat.Prime 11290956913871 :=
  prime_of_factors 11290956913871 13 [2, 5, 17, 66417393611] (by decide) (by
    simp only [List.forall_mem_cons]
    exact ⟨(by norm_num), (by norm_num), (by norm_num), prime_66417393611, by simp⟩)
    (by decide +kernel) (by decide +kernel) (by decide +kernel)

private theorem prime_46076956964474543 : Nat.Prime 46076956964474543 :=
  prime_of_factors 46076956964474543 5 [2, 23, 18169, 78283, 704251] (by decide) (by
    simp only [List.forall_mem_cons]
    exact ⟨(by norm_num), (by norm_num), (by norm_num), (by norm_num), (by norm_num), by simp⟩)
    (by decide +kernel) (by decide +kernel) (by decide +kernel)

private theorem prime_208150935158385979 : Nat.Prime 208150935158385979 :=
  prime_of_factors 208150935158385979 2 [2, 3, 11, 43, 127, 3023, 191039911] (by decide) (by
    simp only [List.forall_mem_cons]
    exact ⟨(by norm_num), (by norm_num), (by norm_num), (by norm_num), (by norm_num), (by norm_num), prime_191039911, by simp⟩)
    (by decide +kernel) (by decide +kernel) (by decide +kernel)

private theorem prime_2624747550333869278416773953 : Nat.Prime 2624747550333869278416773953 :=
  prime_of_factors 2624747550333869278416773953 7 [2, 2, 2, 2, 2, 2, 3, 3, 1297, 16879, 208150935158385979] (by decide) (by
    simp only [List.forall_mem_cons]
    exact ⟨(by norm_num), (by norm_num), (by norm_num), (by norm_num), (by norm_num), (by norm_num), (by norm_num), (by norm_num), (by norm_num), (by norm_num), prime_208150935158385979, by simp⟩)
    (by decide +kernel) (by decide +kernel) (by decide +kernel)

private theorem prime_774023187263532362759620327192479577272145303 : Nat.Prime 774023187263532362759620327192479577272145303 :=
  prime_of_factors 774023187263532362759620327192479577272145303 3 [2, 3, 3, 2411, 34282281433, 11290956913871, 46076956964474543] (by decide) (by
    simp only [List.forall_mem_cons]
    exact ⟨(by norm_num), (by norm_num), (by norm_num), (by norm_num), prime_34282281433, prime_11290956913871, prime_46076956964474543, by simp⟩)
    (by decide +kernel) (by decide +kernel) (by decide +kernel)

private theorem prime_835945042244614951780389953367877943453916927241 : Nat.Prime 835945042244614951780389953367877943453916927241 :=
  prime_of_factors 835945042244614951780389953367877943453916927241 11 [2, 2, 2, 3, 3, 3, 5, 774023187263532362759620327192479577272145303] (by decide) (by
    simp only [List.forall_mem_cons]
    exact ⟨(by norm_num), (by norm_num), (by norm_num), (by norm_num), (by norm_num), (by norm_num), (by norm_num), prime_774023187263532362759620327192479577272145303, by simp⟩)
    (by decide +kernel) (by decide +kernel) (by decide +kernel)

private theorem prime_n : Nat.Prime 115792089210356248762697446949407573529996955224135760342422259061068512044369 :=
  prime_of_factors 115792089210356248762697446949407573529996955224135760342422259061068512044369 7 [2, 2, 2, 2, 3, 71, 131, 373, 3407, 17449, 38189, 187019741, 622491383, 1002328039319, 2624747550333869278416773953] (by decide) (by
    simp only [List.forall_mem_cons]
    exact ⟨(by norm_num), (by norm_num), (by norm_num), (by norm_num), (by norm_num), (by norm_num), (by norm_num), (by norm_num), (by norm_num), (by norm_num), (by norm_num), prime_187019741, prime_622491383, prime_1002328039319, prime_2624747550333869278416773953, by simp⟩)
    (by decide +kernel) (by decide +kernel) (by decide +kernel)

private theorem prime_p : Nat.Prime 115792089210356248762697446949407573530086143415290314195533631308867097853951 :=
  prime_of_factors 115792089210356248762697446949407573530086143415290314195533631308867097853951 6 [2, 3, 5, 5, 17, 257, 641, 1531, 65537, 490463, 6700417, 835945042244614951780389953367877943453916927241] (by decide) (by
    simp only [List.forall_mem_cons]
    exact ⟨(by norm_num), (by norm_num), (by norm_num), (by norm_num), (by norm_num), (by norm_num), (by norm_num), (by norm_num), (by norm_num), (by norm_num), prime_6700417, prime_835945042244614951780389953367877943453916927241, by simp⟩)
    (by decide +kernel) (by decide +kernel) (by decide +kernel)

theorem P_prime : Nat.Prime P := prime_p

theorem N_prime : Nat.Prime N := prime_n

instance : Fact (Nat.Prime P) := ⟨P_prime⟩
instance : Fact (Nat.Prime N) := ⟨N_prime⟩

end Verif.P256
