import Verif.P256.PropsKeys

/-! The edges of C62 and C64: a hash which is a multiple of the group order, and the points with
    `x` = 0. -/

set_option exponentiation.threshold 600

namespace Verif.P256

open Int256 Spec Ecdsa

/-! ### C62: hashes which are a multiple of the group order -/

theorem val_zero : val Int256.ZERO = 0 := by decide

theorem base_mul_zero :
    Proj.scalar_base_mul Int256.ZERO = ⟨Mont.ZERO, Mont.ZERO, Mont.ONE⟩ := by decide +kernel

theorem holds_zero : Mont.Holds Mont.ZERO 0 := by
  have hw : Wf Int256.ZERO := rfl
  have h := Mont.field_to_montgomery_spec hw
  have e : Mont.field_to_montgomery Int256.ZERO = Mont.ZERO := by decide +kernel
  rw [e] at h
  refine ⟨h.1, ?_⟩
  rw [h.2]
  show ((val Int256.ZERO : Nat) : ZMod P) = 0
  rw [val_zero, Nat.cast_zero]

theorem three_ne : (3 : ZMod P) ≠ 0 := by
  have h : (3 : ZMod P) = ((3 : Nat) : ZMod P) := by norm_num
  rw [h, Ne, ZMod.natCast_eq_zero_iff]
  decide +kernel

/-- What the sum of a zero multiple of the base point and another multiple comes to. -/
theorem points_mul_zero {p : Point} {A : E.Point} (hp : p.Is A) {n : Exponent} (hn : ExpOk n)
    {x y : ZMod P} {h} (hA : val n • A = .some x y h) :
    Wf (Point.points_mul p Int256.ZERO n).x ∧ val (Point.points_mul p Int256.ZERO n).x < P ∧
      Gfp.toF (Point.points_mul p Int256.ZERO n).x = (bF * x - 3) * (x - bF)⁻¹ := by
  have h2 := Aff.scalar_mul_is (Point.to_affine_is hp) hn.wf hn.ne
  rw [hA] at h2
  have e : Point.points_mul p Int256.ZERO n = Point.from_projective
      (Proj.add (Proj.scalar_base_mul Int256.ZERO) (Aff.scalar_mul (Point.to_affine p) n)) := rfl
  rw [e, base_mul_zero]
  obtain ⟨hz, hX, hY⟩ := h2.rep
  have hy0 : y ≠ 0 := Law.y_ne_zero odd_E (Law.equation_iff.1 h.1)
  obtain ⟨rx, ry, rz⟩ := Proj.add_holds (p := ⟨Mont.ZERO, Mont.ZERO, Mont.ONE⟩) holds_zero holds_zero
    Mont.holds_ONE ⟨h2.gx, hX⟩ ⟨h2.gy, hY⟩ ⟨h2.gz, rfl⟩
  obtain ⟨⟨w, l, v⟩, _⟩ := Point.from_projective_holds rx ry rz
  refine ⟨w, l, ?_⟩
  rw [v]
  generalize Mont.toF (Aff.scalar_mul (Point.to_affine p) n).z = z at *
  have e1 : Law.addX bF 0 0 1 (x * z) (y * z) z = (-3 * y * z ^ 2) * (bF * x - 3) := by
    unfold Law.addX; ring
  have e2 : Law.addZ bF 0 0 1 (x * z) (y * z) z = (-3 * y * z ^ 2) * (x - bF) := by
    unfold Law.addZ; ring
  have hc : (-3 * y * z ^ 2) ≠ 0 :=
    mul_ne_zero (mul_ne_zero (neg_ne_zero.2 three_ne) hy0) (pow_ne_zero _ hz)
  rw [e1, e2, mul_inv, mul_mul_mul_comm, mul_inv_cancel₀ hc, one_mul]

/-- C62. For a hash which is a multiple of the group order the code compares `r` with the wrong
    number: not with the `x` coordinate of `(r/s) Q` but with `(b x - 3) / (x - b)`. -/
theorem C62_zero_exact {pk : PubKey} {Q : E.Point} (hQ : PointOf pk.p Q) {hash : List UInt8}
    (hl : hash.length = 32) (h0 : number hash % N = 0) {sig : Signature} (hr : Secret sig.r)
    (hs : Secret sig.s) {x y : ZMod P} {h}
    (hR : ((val sig.r : ZMod N) * (val sig.s : ZMod N)⁻¹).val • Q = .some x y h) :
    pk.verify_hash_vartime hash sig = true ↔
      ((bF * x - 3) * (x - bF)⁻¹).val % N = val sig.r := by
  obtain ⟨wh, vh⟩ := from_bin_spec hl
  obtain ⟨wm, vm⟩ := Exponent.modn_spec wh
  rw [vh, ← number_eq, h0] at vm
  simp only [PubKey.verify_hash_vartime]
  generalize Exponent.modn (from_bin hash) = m at *
  have hi := Exponent.inv_ok hs.ok
  have ci := (Exponent.inv_cast hs.1).2.2
  generalize Exponent.inv sig.s = v at *
  have h2 := Exponent.mul_ok hr.ok hi
  obtain ⟨w1, l1, c1⟩ := Exponent.mul_cast wm hi.wf
  have c2 := (Exponent.mul_cast hr.1 hi.wf).2.2
  have e1 : Exponent.mul m v = Int256.ZERO := by
    refine val_inj (w1.trans rfl) ?_
    rw [val_zero, ← val_cast l1, c1, vm, Nat.cast_zero, zero_mul, ZMod.val_zero]
  rw [e1]
  generalize Exponent.mul sig.r v = u2 at *
  have e2 : ((val sig.r : ZMod N) * (val sig.s : ZMod N)⁻¹).val = val u2 := by
    rw [← ci, ← c2, val_cast h2.lt]
  rw [e2] at hR
  obtain ⟨w, l, e⟩ := points_mul_zero (pointOf_iff.1 hQ) h2 hR
  generalize Point.points_mul pk.p Int256.ZERO u2 = R at *
  obtain ⟨wx, vx⟩ := Exponent.modn_spec w
  have hv : val R.x = ((bF * x - 3) * (x - bF)⁻¹).val := by
    rw [← e, Gfp.toF, ZMod.val_natCast_of_lt l]
  rw [beq_iff_eq, ← hv, ← vx]
  constructor
  · intro h; rw [h]
  · intro h; exact val_inj (wx.trans hr.1.symm) h

/-- A hash function that gives zero for every message. -/
def zeroHash : Hash256 := ⟨fun _ => List.replicate 32 0, fun _ _ => List.replicate 32 0⟩

theorem number_zero : number (List.replicate 32 0) = 0 := by decide

/-- C62 is false without the restriction: a signature made by the code, valid for the standard, of a
    message whose hash is zero is rejected. -/
theorem C62_zero_hash : ∃ (H : Hash256) (sk : SecKey) (msg : List UInt8) (sig : Signature),
    Hash32 H ∧ Secret sk.k ∧ Signs H sk msg sig ∧
    Valid (val sk.k • G) (number (H.hash msg)) (val sig.r) (val sig.s) ∧
    sk.genpk.verify_vartime H msg sig = false := by
  have hH : Hash32 zeroHash := fun _ => rfl
  obtain ⟨sk, hsk⟩ : ∃ sk : SecKey, sk = ⟨Int256.ONE⟩ := ⟨_, rfl⟩
  have hkk : sk.k = Int256.ONE := by rw [hsk]
  have hd : Secret sk.k := by rw [hkk]; exact one_secret
  have hvk : val sk.k = 1 := by rw [hkk]; exact val_one
  have hG : xCoord G = some gx := by
    show some (ZMod.val ((gx : Nat) : ZMod P)) = _
    rw [ZMod.val_natCast_of_lt (by decide +kernel)]
  have hs : sign 1 1 0 = some (gx, gx) := by
    unfold sign
    rw [one_smul, hG]
    have e1 : gx % N = gx := by decide +kernel
    have e2 : (((1 : Nat) : ZMod N)⁻¹ * ((0 : Nat) + (gx : Nat) * (1 : Nat))).val = gx := by
      rw [Nat.cast_one, inv_one, one_mul, Nat.cast_zero, zero_add, mul_one,
        ZMod.val_natCast_of_lt (by decide +kernel)]
    simp only [e1, e2]
    rw [if_neg (by decide +kernel)]
  have ha := C61_attempt hd one_secret (hash := List.replicate 32 0) rfl
  rw [hvk, val_one, number_zero, hs] at ha
  obtain ⟨sig, ht, hn⟩ := Option.map_eq_some_iff.1 ha
  have hr : val sig.r = gx := congrArg Prod.fst hn
  have hss : val sig.s = gx := congrArg Prod.snd hn
  have hgen : Exponent.genTry Int256.ZERO = some Int256.ONE := by decide +kernel
  have hsig : Signs zeroHash sk [] sig := by
    refine .random [Int256.ZERO] (by intro w hw; rw [List.mem_singleton.1 hw]; rfl) ?_
    rw [SecKey.sign_rng, List.findSome?_cons, hgen, Option.bind_some]
    have : sk.try_sign Int256.ONE (Exponent.modn (from_bin (zeroHash.hash []))) = some sig := ht
    rw [this]
  obtain ⟨sr, ss, hv⟩ := C61_signature hH hd hsig
  refine ⟨zeroHash, sk, [], sig, hH, hd, hsig, hv, ?_⟩
  rw [Bool.eq_false_iff]
  intro hc
  have hP := C61_public hd
  have hone : ((val sig.r : ZMod N) * (val sig.s : ZMod N)⁻¹).val = 1 := by
    rw [hr, hss, mul_inv_cancel₀, ZMod.val_one]
    exact cast_ne (by decide +kernel) (by decide +kernel)
  have := (C62_zero_exact (x := gx) (y := gy) (h := g_on) hP (hash := List.replicate 32 0) rfl
    (by rw [number_zero, Nat.zero_mod]) sr ss
    (by rw [hone, hvk, one_smul, one_smul]; rfl)).1 hc
  rw [hr] at this
  -- the number the code compares with
  have hw : ((bF * (gx : ZMod P) - 3) * ((gx : ZMod P) - bF)⁻¹).val ≠ gx := by
    intro he
    have hne : (gx : ZMod P) - bF ≠ 0 := by
      rw [bF, sub_ne_zero, Ne, ZMod.natCast_eq_natCast_iff]
      decide +kernel
    have h1 := ZMod.natCast_zmod_val ((bF * (gx : ZMod P) - 3) * ((gx : ZMod P) - bF)⁻¹)
    rw [he] at h1
    have h2 : bF * (gx : ZMod P) - 3 = gx * ((gx : ZMod P) - bF) := by
      have := congrArg (· * ((gx : ZMod P) - bF)) h1
      simp only [mul_assoc, inv_mul_cancel₀ hne, mul_one] at this
      exact this.symm
    have h3 : ((2 * (bNat * gx) : Nat) : ZMod P) = ((gx * gx + 3 : Nat) : ZMod P) := by
      push_cast
      rw [bF] at h2
      linear_combination h2
    rw [ZMod.natCast_eq_natCast_iff] at h3
    revert h3
    decide +kernel
  have hlt := ZMod.val_lt ((bF * (gx : ZMod P) - 3) * ((gx : ZMod P) - bF)⁻¹)
  generalize ((bF * (gx : ZMod P) - 3) * ((gx : ZMod P) - bF)⁻¹).val = t at *
  have c1 : P ≤ gx + N := by decide +kernel
  have c2 : P < 2 * N := by decide +kernel
  by_cases h : t < N
  · rw [Nat.mod_eq_of_lt h] at this
    exact hw this
  · rw [Nat.mod_eq_sub_mod (by omega), Nat.mod_eq_of_lt (by omega)] at this
    omega

/-! ### C64: the points with `x` = 0 -/

/-- The square root of `b`. -/
def y0 : Nat := 0x66485c780e2f83d72433bd5d84a06bb6541c2af31dae871728bf856a174f93f4

theorem zero_on : E.Nonsingular ((0 : Nat) : ZMod P) ((y0 : Nat) : ZMod P) :=
  Law.nonsingular odd_E (equation_of_nat (by decide +kernel))

/-- C64. There is a secret whose public key the code does not accept, neither by its coordinates nor
    by its encoding: its point has `x` = 0. -/
theorem C64_rejected : ∃ sk : SecKey, Secret sk.k ∧ xCoord (val sk.k • G) = some 0 ∧
    PubKey.from_coordinates sk.genpk.to_coordinates.1 sk.genpk.to_coordinates.2 = none ∧
    PubKey.from_bytes_uncompressed sk.genpk.to_bytes_uncompressed = none := by
  obtain ⟨n, hn, hA⟩ := generated (.some _ _ zero_on)
  have h0 : 0 < n := by
    rcases Nat.eq_zero_or_pos n with rfl | h
    · have h : (0 : Nat) • G = 0 := zero_nsmul G
      rw [h] at hA
      cases hA
    · exact h
  have hlt : n < 256 ^ 32 := by
    have := N_lt
    have e1 : (256 : Nat) ^ 32 = 2 ^ 256 := by decide +kernel
    omega
  obtain ⟨w, v⟩ := from_bin_spec (be_length 32 n)
  have v : val _ = number _ := v
  rw [number_be, Nat.mod_eq_of_lt hlt] at v
  obtain ⟨k, hk⟩ : ∃ k, k = from_bin (Crypto.Sha.Spec.be 32 n) := ⟨_, rfl⟩
  rw [← hk] at w v
  have hs : Secret k := ⟨w, by omega, by omega⟩
  have hx : xCoord (val k • G) = some 0 := by
    rw [v, hA]
    show some (ZMod.val ((0 : Nat) : ZMod P)) = _
    rw [Nat.cast_zero, ZMod.val_zero]
  have hP := C61_public (sk := ⟨k⟩) hs
  refine ⟨⟨k⟩, hs, hx, ?_, ?_⟩
  · have hxx := xCoord_is (pointOf_iff.1 hP)
    generalize SecKey.genpk ⟨k⟩ = pk at *
    obtain ⟨p⟩ := pk
    simp only at hxx hP
    rw [hx] at hxx
    have h := (C64_coordinates (to_bin_len hP.wx) (to_bin_len hP.wy)).2.2.2
    show PubKey.from_coordinates (to_bin p.x) (to_bin p.y) = none
    rw [← Option.not_isSome_iff_eq_none, h]
    rintro ⟨_, h0⟩
    rw [number_to_bin] at h0
    exact h0 (Option.some.inj hxx).symm
  · have hU := (C64_uncompressed []).2.2 _ _ hP
    rw [← Option.not_isSome_iff_eq_none, (C64_uncompressed _).1]
    rintro ⟨A, hA', x, y, hc, hne⟩
    have h1 : coords A = coords (val k • G) := by rw [hA'.2.2, hU.2.2]
    rw [hc, v, hA] at h1
    have h2 : x = ZMod.val ((0 : Nat) : ZMod P) := congrArg Prod.fst (Option.some.inj h1)
    rw [Nat.cast_zero, ZMod.val_zero] at h2
    exact hne h2

end Verif.P256
