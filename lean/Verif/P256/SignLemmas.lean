import Verif.P256.EcLemmas

/-! Signing and verifying against `EcSpec`. -/

set_option exponentiation.threshold 600

namespace Verif.P256

open Int256 Spec

namespace Ecdsa

/-- The two numbers of a signature. -/
def Signature.nats (s : Signature) : Nat × Nat := (val s.r, val s.s)

/-- The invariant of the types: both exponents are between 1 and the order. -/
structure Signature.Ok (s : Signature) : Prop where
  r : ExpOk s.r
  s : ExpOk s.s

theorem xCoord_lt {A : E.Point} {x : Nat} (h : xCoord A = some x) : x < P := by
  cases A with
  | zero => cases h
  | some x' y hn => cases h; exact ZMod.val_lt x'

theorem signWith_def : SecKey.signWith = fun sk k msg x =>
    match Exponent.non_zero (Exponent.modn x) with
    | none => none
    | some r =>
      let (s, top) := add (Exponent.mul r sk.k) msg
      match Exponent.non_zero (Exponent.mul_top (Exponent.inv k) s top) with
      | none => none
      | some s => some ⟨r, s⟩ := by
  delta SecKey.signWith
  rfl

theorem try_sign_spec {sk : SecKey} {k m : Exponent} {e : Nat} (hd : ExpOk sk.k) (hk : ExpOk k)
    (hm : Wf m) (he : (val m : ZMod N) = e) :
    (sk.try_sign k m).map Signature.nats = sign (val sk.k) (val k) e ∧
      ∀ sig, sk.try_sign k m = some sig → sig.Ok := by
  have hp := Point.base_point_mul_is hk.wf hk.ne hk.lt
  have hx := xCoord_is hp
  have hwx := hp.wx
  unfold SecKey.try_sign Spec.sign
  rw [hx]
  generalize (Point.base_point_mul k).x = x at *
  rw [signWith_def]
  beta_reduce
  obtain ⟨wr, vr⟩ := Exponent.modn_spec hwx
  simp only [Exponent.non_zero_spec]
  rw [← vr]
  have hrlt : val (Exponent.modn x) < N := by rw [vr]; exact Nat.mod_lt _ N_pos
  generalize Exponent.modn x = r at *
  by_cases hr : val r = 0
  · simp [hr]
  · simp only [hr, if_false, false_or]
    obtain ⟨w1, l1, c1⟩ := Exponent.mul_cast wr hd.wf
    generalize Exponent.mul r sk.k = rd at *
    obtain ⟨l2, _, c2⟩ := add_spec (a := rd) (b := m) (w1.trans hm.symm)
    generalize add rd m = st at *
    obtain ⟨s, top⟩ := st
    simp only at l2 c2 ⊢
    obtain ⟨w3, l3, c3⟩ := Exponent.inv_cast hk.wf
    obtain ⟨w4, v4⟩ := modmul_top_spec top w3 (show Wf s from l2.trans w1) wf_N N_big
    have w5 : Wf (Exponent.mul_top (Exponent.inv k) s top) := w4
    have v5 : val (Exponent.mul_top (Exponent.inv k) s top)
        = val (Exponent.inv k) * (val s + 2 ^ 256 * top.toNat) % val Int256.N := v4
    generalize Exponent.mul_top (Exponent.inv k) s top = t at *
    have hs : val s + 2 ^ 256 * top.toNat = val rd + val m := by
      have e1 : (4294967296 : Nat) ^ rd.length = 2 ^ 256 := by rw [w1]; norm_num
      rw [e1] at c2; exact c2
    rw [hs, val_N] at v5
    have hlt : val t < N := by rw [v5]; exact Nat.mod_lt _ N_pos
    have hc : (val t : ZMod N) = (val k : ZMod N)⁻¹ * (e + val r * val sk.k) := by
      rw [v5, ZMod.natCast_mod]; push_cast; rw [c3, c1, he]; ring
    have hv : ((val k : ZMod N)⁻¹ * (e + val r * val sk.k)).val = val t := by
      rw [← hc, val_cast hlt]
    rw [hv]
    by_cases h0 : val t = 0
    · simp [h0]
    · simp only [h0, if_false]
      refine ⟨rfl, ?_⟩
      intro sig hsig
      cases hsig
      exact ⟨⟨wr, Nat.pos_iff_ne_zero.2 hr, hrlt⟩, ⟨w5, Nat.pos_iff_ne_zero.2 h0, hlt⟩⟩

/-- The equation of the standard holds for what the standard signs. -/
theorem sign_valid {d k e r s : Nat} (hk : 0 < k ∧ k < N)
    (h : sign d k e = some (r, s)) : Valid (d • G) e r s := by
  unfold Spec.sign at h
  cases hx : xCoord (k • G) with
  | none => rw [hx] at h; cases h
  | some x =>
    rw [hx] at h
    simp only at h
    split at h
    · cases h
    · rename_i hne
      simp only [not_or] at hne
      have h := Option.some.inj h
      have hr : x % N = r := (Prod.ext_iff.1 h).1
      have hs : ((k : ZMod N)⁻¹ * (e + (x % N : Nat) * d)).val = s := (Prod.ext_iff.1 h).2
      rw [hr] at hs hne
      rw [hs] at hne
      have hrl : r < N := by rw [← hr]; exact Nat.mod_lt _ N_pos
      have hsl : s < N := by rw [← hs]; exact ZMod.val_lt _
      have hsc : (s : ZMod N) = (k : ZMod N)⁻¹ * (e + r * d) := by
        rw [← hs, ZMod.natCast_zmod_val]
      have hs0 := cast_ne (Nat.pos_iff_ne_zero.2 hne.2) hsl
      have hk0 := cast_ne hk.1 hk.2
      refine ⟨⟨Nat.pos_iff_ne_zero.2 hne.1, hrl⟩, ⟨Nat.pos_iff_ne_zero.2 hne.2, hsl⟩, x, ?_, hr⟩
      rw [← hx, smul_smul, ← add_smul]
      congr 1
      refine smul_congr G ?_
      push_cast
      rw [ZMod.natCast_zmod_val, ZMod.natCast_zmod_val]
      have : (e : ZMod N) + r * d = k * s := by
        rw [hsc, ← mul_assoc, mul_inv_cancel₀ hk0, one_mul]
      calc (e : ZMod N) * (s : ZMod N)⁻¹ + r * (s : ZMod N)⁻¹ * d
          = (e + r * d) * (s : ZMod N)⁻¹ := by ring
        _ = k := by rw [this, mul_assoc, mul_inv_cancel₀ hs0, mul_one]

/-- Verification is the equation of the standard, if the hash is not a multiple of the order. -/
theorem verify_spec {pk : PubKey} {Q : E.Point} (hQ : pk.p.Is Q) {hash : List UInt8}
    (hl : hash.length = 32) (h0 : number hash % N ≠ 0) {sig : Signature} (hs : sig.Ok) :
    pk.verify_hash_vartime hash sig = true ↔ Valid Q (number hash) (val sig.r) (val sig.s) := by
  obtain ⟨wh, vh⟩ := from_bin_spec hl
  obtain ⟨wm, vm⟩ := Exponent.modn_spec wh
  rw [vh, ← number_eq] at vm
  simp only [PubKey.verify_hash_vartime]
  generalize Exponent.modn (from_bin hash) = m at *
  have hm : ExpOk m := ⟨wm, by omega, by rw [vm]; exact Nat.mod_lt _ N_pos⟩
  have hi := Exponent.inv_ok hs.s
  have ci := (Exponent.inv_cast hs.s.wf).2.2
  generalize Exponent.inv sig.s = v at *
  have h1 := Exponent.mul_ok hm hi
  have h2 := Exponent.mul_ok hs.r hi
  have c1 := (Exponent.mul_cast hm.wf hi.wf).2.2
  have c2 := (Exponent.mul_cast hs.r.wf hi.wf).2.2
  generalize Exponent.mul m v = u1 at *
  generalize Exponent.mul sig.r v = u2 at *
  have e1 : (((number hash : Nat) : ZMod N) * (val sig.s : ZMod N)⁻¹).val = val u1 := by
    rw [← ci, ← ZMod.natCast_mod, ← vm, ← c1, val_cast h1.lt]
  have e2 : ((val sig.r : ZMod N) * (val sig.s : ZMod N)⁻¹).val = val u2 := by
    rw [← ci, ← c2, val_cast h2.lt]
  unfold Valid
  rw [e1, e2]
  obtain ⟨hne, hz⟩ := Point.points_mul_is hQ h1.wf h1.ne h2.wf h2.ne
  generalize Point.points_mul pk.p u1 u2 = R at *
  rw [beq_iff_eq]
  by_cases hA : val u1 • G + val u2 • Q = 0
  · obtain ⟨wz, vz, _⟩ := hz hA
    obtain ⟨wx, vx⟩ := Exponent.modn_spec wz
    constructor
    · intro h
      have := hs.r.pos
      rw [← h, vx, vz, Nat.zero_mod] at this
      exact absurd this (Nat.lt_irrefl 0)
    · rintro ⟨_, _, x, hx, _⟩
      rw [hA] at hx
      cases hx
  · have hR := hne hA
    obtain ⟨wx, vx⟩ := Exponent.modn_spec hR.wx
    rw [xCoord_is hR]
    constructor
    · intro h
      refine ⟨⟨hs.r.pos, hs.r.lt⟩, ⟨hs.s.pos, hs.s.lt⟩, _, rfl, ?_⟩
      rw [← vx, h]
    · rintro ⟨_, _, x, hx, hxr⟩
      cases hx
      exact val_inj (wx.trans hs.r.wf.symm) (by rw [vx, hxr])

end Ecdsa

end Verif.P256
