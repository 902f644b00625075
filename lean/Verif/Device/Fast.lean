import Verif.Device.PropsSign

/-!
# Running the firmware's cryptography in the kernel

The functions of P-256 over numbers instead of words, which the kernel computes fast, and the proof that they are the same
functions. Only used to run sessions in examples.
-/
namespace Verif.Device.Fast
open Verif.P256 (G E N P NP NRep nmul nmul_spec g_rep gx gy val Wf Secret powMod powMod_spec)
open Verif.P256.Spec (coords xCoord number sign)
open Verif.P256.Int256 (to_bin from_bin)
open Verif.P256.Ecdsa
open Verif.Ctap (Bytes Dev)

abbrev be32 (n : Nat) : Bytes := Crypto.Sha.Spec.be 32 n

def inv (m a : Nat) : Nat := powMod m a (m - 2)

theorem inv_spec {m : Nat} [Fact m.Prime] (hm : 2 < m) (a : Nat) : ((inv m a : Nat) : ZMod m) = (a : ZMod m)⁻¹ := by
  rw [inv, powMod_spec]
  by_cases h : (a : ZMod m) = 0
  · rw [h, inv_zero, zero_pow (by omega)]
  · have h1 := ZMod.pow_card_sub_one_eq_one h
    have h2 : m - 1 = (m - 2) + 1 := by omega
    rw [h2, pow_succ] at h1
    exact eq_inv_of_mul_eq_one_left h1

/-- The affine coordinates. -/
def affine (p : NP) : Nat × Nat := (p.1 * inv P p.2.2 % P, p.2.1 * inv P p.2.2 % P)

theorem affine_spec {p : NP} {A : E.Point} (h : NRep p A) (h0 : A ≠ 0) : coords A = some (affine p) := by
  cases A with
  | zero => exact absurd rfl h0
  | some x y hn =>
    obtain ⟨hz, hx, hy⟩ := h
    have hi := inv_spec (m := P) (by decide +kernel) p.2.2
    have key : ∀ (n : Nat) (v : ZMod P), (n : ZMod P) = v * (p.2.2 : ZMod P) → v.val = n * inv P p.2.2 % P := by
      intro n v hv
      have : v = ((n * inv P p.2.2 : Nat) : ZMod P) := by
        rw [Nat.cast_mul, hi, hv, mul_assoc, mul_inv_cancel₀ hz, mul_one]
      rw [this, ZMod.val_natCast]
    show some (ZMod.val x, ZMod.val y) = _
    rw [affine, key _ _ hx, key _ _ hy]

/-- The multiple of the base point. -/
def base (k : Nat) : Nat × Nat := affine (nmul k (gx, gy, 1))

theorem base_spec {k : Nat} (h0 : 0 < k) (hN : k < N) : coords (k • G) = some (base k) := by
  refine affine_spec (nmul_spec (hN.trans P256.N_lt) g_rep) ?_
  intro h
  have := P256.order_point P256.G_ne_zero
  have := addOrderOf_dvd_of_nsmul_eq_zero h
  simp_all
  exact absurd (Nat.le_of_dvd h0 this) (by omega)

theorem xCoord_coords {A : E.Point} {x y : Nat} (h : coords A = some (x, y)) : xCoord A = some x := by
  cases A with
  | zero => cases h
  | some a b hn => cases h; rfl

/-- One attempt to sign. -/
def attempt (d k e : Nat) : Option (Nat × Nat) :=
  if (base k).1 % N = 0 ∨ inv N k * (e + (base k).1 % N * d) % N = 0 then none
  else some ((base k).1 % N, inv N k * (e + (base k).1 % N * d) % N)

theorem attempt_spec {d k e : Nat} (h0 : 0 < k) (hN : k < N) : sign d k e = attempt d k e := by
  have hx := xCoord_coords (x := (base k).1) (y := (base k).2) (base_spec h0 hN)
  unfold sign attempt
  rw [hx]
  generalize (base k).1 = x
  have hi := inv_spec (m := N) (by decide +kernel) k
  have : ((k : ZMod N)⁻¹ * ((e : ZMod N) + ((x % N : Nat) : ZMod N) * (d : ZMod N))).val =
      inv N k * (e + x % N * d) % N := by
    rw [← hi, ← Nat.cast_mul, ← Nat.cast_add, ← Nat.cast_mul, ZMod.val_natCast]
  simp only [this]

def loop (H : P256.Hash256) (d e : Nat) : Nat → Rfc6979 → Option (Nat × Nat)
  | 0, _ => none
  | n + 1, s =>
    (if 0 < number (H.hmac s.k s.v) ∧ number (H.hmac s.k s.v) < N then attempt d (number (H.hmac s.k s.v)) e else none).or
      (loop H d e n (Rfc6979.next H s).2)

def ofNats (p : Nat × Nat) : Signature := ⟨from_bin (be32 p.1), from_bin (be32 p.2)⟩

theorem be32_val {a : P256.Int256} (h : Wf a) : be32 (val a) = to_bin a := by
  have hl := P256.to_bin_len h
  refine P256.number_inj (by rw [P256.be_length, hl]) ?_
  rw [P256.number_be, P256.number_to_bin, Nat.mod_eq_of_lt]
  have := P256.number_lt (to_bin a)
  rwa [hl, P256.number_to_bin] at this

theorem ofNats_nats {sig : Signature} (hr : Secret sig.r) (hs : Secret sig.s) : ofNats sig.nats = sig := by
  unfold ofNats Signature.nats
  rw [be32_val hr.1, be32_val hs.1, P256.Int256.from_bin_to_bin hr.1, P256.Int256.from_bin_to_bin hs.1]

theorem try_spec {sk : SecKey} {k : P256.Exponent} (hd : Secret sk.k) (hk : Secret k) {hash : Bytes} (hl : hash.length = 32) :
    sk.try_sign k (P256.Exponent.modn (from_bin hash)) = (attempt (val sk.k) (val k) (number hash)).map ofNats := by
  rw [← attempt_spec hk.2.1 hk.2.2, ← P256.C61_attempt hd hk hl]
  cases h : sk.try_sign k (P256.Exponent.modn (from_bin hash)) with
  | none => rfl
  | some sig =>
    obtain ⟨ho, _⟩ := P256.attempt_ok hd.ok hk.ok hl h
    simp only [Option.map_some, ofNats_nats ho.r.secret ho.s.secret]

theorem loop_spec {H : P256.Hash256} (hmac : ∀ k m, (H.hmac k m).length = 32) {sk : SecKey} (hd : Secret sk.k) {hash : Bytes}
    (hl : hash.length = 32) : ∀ n s, sk.signLoop H (P256.Exponent.modn (from_bin hash)) n s =
      (loop H (val sk.k) (number hash) n s).map ofNats
  | 0, _ => rfl
  | n + 1, s => by
    have ih := loop_spec hmac hd hl n (Rfc6979.next H s).2
    rw [SecKey.signLoop, loop, ih]
    have e : (Rfc6979.next H s).1 = from_bin (H.hmac s.k s.v) := rfl
    obtain ⟨w, v⟩ := P256.Int256.from_bin_spec (hmac s.k s.v)
    have v : val (from_bin (H.hmac s.k s.v)) = number (H.hmac s.k s.v) := v
    rw [e, P256.Exponent.nonZeroFromInt_spec w, v]
    split
    · rename_i hc
      rw [Option.bind_some, try_spec hd ⟨w, by rw [v]; exact hc.1, by rw [v]; exact hc.2⟩ hl, v]
      cases attempt (val sk.k) (number (H.hmac s.k s.v)) (number hash) <;> simp
    · simp

/-! ## The functions of the device -/

def isSecret (sk : Bytes) : Bool := sk.length == 32 && decide (0 < number sk) && decide (number sk < N)

def secKey (sk : Bytes) : SecKey := ⟨from_bin sk⟩

theorem secret_bytes (sk : Bytes) : array32 SecKey.from_bytes sk = if isSecret sk then some (secKey sk) else none := by
  unfold array32 isSecret
  by_cases hl : sk.length = 32
  · obtain ⟨w, v⟩ := P256.Int256.from_bin_spec hl
    have v : val (from_bin sk) = number sk := v
    simp only [hl, if_true, SecKey.from_bytes, P256.Exponent.nonZeroFromInt_spec w, v, beq_self_eq_true, Bool.true_and,
      Bool.and_eq_true, decide_eq_true_eq]
    split <;> rfl
  · simp [hl]

theorem secret_of {sk : Bytes} (h : isSecret sk = true) : Secret (from_bin sk) ∧ val (from_bin sk) = number sk ∧ sk.length = 32 := by
  simp only [isSecret, Bool.and_eq_true, beq_iff_eq, decide_eq_true_eq] at h
  obtain ⟨w, v⟩ := P256.Int256.from_bin_spec h.1.1
  have v : val (from_bin sk) = number sk := v
  exact ⟨⟨w, by rw [v]; exact h.1.2, by rw [v]; exact h.2⟩, v, h.1.1⟩

/-- The public key. -/
def pub (sk : Bytes) : Option (Bytes × Bytes) :=
  if isSecret sk then some (be32 (base (number sk)).1, be32 (base (number sk)).2) else none

theorem point_bytes {p : P256.Point} {A : E.Point} (h : P256.PointOf p A) {x y : Nat} (hc : coords A = some (x, y)) :
    (to_bin p.x, to_bin p.y) = (be32 x, be32 y) := by
  have := h.coords
  rw [hc] at this
  cases this
  rw [be32_val h.wx, be32_val h.wy]

theorem pub_spec (sk : Bytes) : ecdsaPub sk = pub sk := by
  unfold ecdsaPub pub
  rw [secret_bytes]
  split
  · rename_i h
    obtain ⟨h1, h2, _⟩ := secret_of h
    have hp := P256.C61_public (sk := secKey sk) h1
    have hb := base_spec (k := number sk) (by rw [← h2]; exact h1.2.1) (by rw [← h2]; exact h1.2.2)
    have e : (secKey sk).k = from_bin sk := rfl
    rw [e, h2] at hp
    rw [Option.map_some]
    exact congrArg some (point_bytes hp (x := (base (number sk)).1) (y := (base (number sk)).2) hb)
  · rfl

/-- The signature. -/
def signature (w turns : Nat) (sk msg : Bytes) : Option Bytes :=
  if isSecret sk then
    (loop (P256.sha256 w) (number sk) (number (Crypto.Sha.hash w msg)) turns (Rfc6979.new (P256.sha256 w) (secKey sk) msg)).map
      fun p => (ofNats p).to_asn1_der
  else none

theorem signature_spec (w turns : Nat) (sk msg : Bytes) : ecdsaSign w turns sk msg = signature w turns sk msg := by
  unfold ecdsaSign signature
  rw [secret_bytes]
  split
  · rename_i h
    obtain ⟨h1, h2, _⟩ := secret_of h
    rw [Option.bind_some, SecKey.sign_rfc6979, loop_spec (P256.sha256_hmac_len w) (sk := secKey sk) h1 (P256.sha256_ok w msg)]
    have e : (secKey sk).k = from_bin sk := rfl
    rw [e, h2, Option.map_map]
    rfl
  · rfl

theorem ecdh_secret (sk : Bytes) :
    array32 P256.Ecdh.SecKey.from_bytes sk = if isSecret sk then some ⟨from_bin sk⟩ else none := by
  have h := secret_bytes sk
  unfold array32 at *
  by_cases hl : sk.length = 32
  · simp only [hl, if_true, SecKey.from_bytes, P256.Ecdh.SecKey.from_bytes] at *
    cases hn : P256.Exponent.nonZeroFromInt (from_bin sk) with
    | none => 
      rw [hn] at h
      split at h
      · cases h
      · simp_all
    | some e =>
      rw [hn] at h
      split at h
      · cases h; simp_all
      · cases h
  · simp only [hl, if_false] at *
    split at h
    · cases h
    · simp_all

theorem ecdhPub_spec (sk : Bytes) : ecdhPub sk = (pub sk).getD ([], []) := by
  unfold ecdhPub pub
  rw [ecdh_secret]
  split
  · rename_i h
    obtain ⟨h1, h2, _⟩ := secret_of h
    have hp := P256.C60_base h1
    have hb := base_spec (k := number sk) (by rw [← h2]; exact h1.2.1) (by rw [← h2]; exact h1.2.2)
    rw [h2] at hp
    rw [Option.map_some, Option.getD_some, Option.getD_some]
    exact point_bytes hp (x := (base (number sk)).1) (y := (base (number sk)).2) hb
  · rfl

/-- The coordinates are those of a point. -/
def onCurve (x y : Nat) : Bool :=
  decide (x < P) && decide (y < P) && y * y % P == (x * x * x + (P - 3) * x + P256.bNat) % P

theorem onCurve_spec {x y : Nat} : onCurve x y = true ↔ ∃ A : E.Point, coords A = some (x, y) := by
  simp only [onCurve, Bool.and_eq_true, decide_eq_true_eq, beq_iff_eq]
  constructor
  · rintro ⟨⟨hx, hy⟩, h⟩
    refine ⟨.some (x : ZMod P) (y : ZMod P) (P256.Law.nonsingular P256.odd_E (P256.equation_of_nat h)), ?_⟩
    show some (ZMod.val (x : ZMod P), ZMod.val (y : ZMod P)) = _
    rw [ZMod.val_natCast_of_lt hx, ZMod.val_natCast_of_lt hy]
  · rintro ⟨A, hA⟩
    cases A with
    | zero => cases hA
    | some a b hn =>
      cases hA
      refine ⟨⟨ZMod.val_lt a, ZMod.val_lt b⟩, ?_⟩
      have he := P256.Law.equation_iff.1 hn.1
      have h3 : ((P - 3 : Nat) : ZMod P) = -3 := by
        rw [P256.cast_sub_lt (by decide +kernel)]; norm_num
      refine (ZMod.natCast_eq_natCast_iff _ _ P).1 ?_
      push_cast [h3]
      rw [ZMod.natCast_zmod_val, ZMod.natCast_zmod_val]
      rw [P256.bF] at he
      linear_combination he

/-- Key agreement. -/
def agree (sk x y : Bytes) : Option Bytes :=
  if x.length = 32 ∧ y.length = 32 then
    if isSecret sk && onCurve (number x) (number y) && number x != 0 then
      some (be32 (affine (nmul (number sk) (number x, number y, 1))).1)
    else none
  else none

theorem agree_spec (sk x y : Bytes) : ecdh sk x y = agree sk x y := by
  unfold ecdh agree
  split
  · rename_i hl
    rw [ecdh_secret]
    cases hs : isSecret sk with
    | false => simp
    | true =>
      obtain ⟨h1, _, h3, _⟩ := P256.C64_coordinates hl.1 hl.2
      obtain ⟨k1, k2, _⟩ := secret_of hs
      have hb : (true && onCurve (number x) (number y) && number x != 0) = true ↔
          (∃ A : E.Point, coords A = some (number x, number y)) ∧ number x ≠ 0 := by
        simp only [Bool.true_and, Bool.and_eq_true, bne_iff_ne, onCurve_spec]
      simp only [if_true, Option.bind_some]
      split
      · rename_i hc
        rw [hb] at hc
        obtain ⟨pk, hpk⟩ := Option.isSome_iff_exists.1 (h3.2 hc)
        obtain ⟨A, hA, h0, hxy⟩ := h1 pk hpk
        rw [hpk, Option.map_some]
        have hm := P256.Point.mul_is (P256.pointOf_iff.1 hA) k1.1 k1.ok.ne k1.2.2
        have hrep : NRep (number x, number y, 1) A := by
          have hc := hA.coords
          simp only [P256.Ecdh.PubKey.to_coordinates, Prod.mk.injEq] at hxy
          rw [← P256.number_to_bin, ← P256.number_to_bin, hxy.1, hxy.2] at hc
          cases A with
          | zero => cases hc
          | some a b hn =>
            have hc := Option.some.inj hc
            have e1 : a.val = number x := (Prod.ext_iff.1 hc).1
            have e2 : b.val = number y := (Prod.ext_iff.1 hc).2
            refine ⟨by simp, ?_, ?_⟩
            · simp only [← e1, ZMod.natCast_zmod_val, Nat.cast_one, mul_one]
            · simp only [← e2, ZMod.natCast_zmod_val, Nat.cast_one, mul_one]
        have hr := nmul_spec (n := number sk) (by rw [← k2]; exact k1.2.2.trans P256.N_lt) hrep
        have hco := affine_spec hr (by rw [← k2]; exact hm.ne_zero)
        rw [← k2] at hco
        have := point_bytes (P256.pointOf_iff.2 hm) (x := (affine (nmul (val (from_bin sk)) (number x, number y, 1))).1)
          (y := (affine (nmul (val (from_bin sk)) (number x, number y, 1))).2) hco
        rw [← k2]
        exact congrArg some (Prod.mk.inj this).1
      · rename_i hc
        rw [hb] at hc
        have : P256.Ecdh.PubKey.from_coordinates x y = none := by
          cases h : P256.Ecdh.PubKey.from_coordinates x y with
          | none => rfl
          | some pk => exact absurd (h3.1 (by rw [h]; rfl)) hc
        rw [this]
        rfl
  · rfl

/-- The device with these functions, which is the same device. -/
@[reducible] def dev (B : Board) : Dev :=
  { software with
    ecdh := agree
    ecdhPub := fun sk => (pub sk).getD ([], [])
    ecdsaPub := pub
    ecdsaSign := signature B.wordBits B.turns }

theorem dev_eq (B : Board) : @software B = dev B := by
  unfold software dev
  congr 1
  · funext sk x y; exact agree_spec sk x y
  · funext sk; exact ecdhPub_spec sk
  · funext sk; exact pub_spec sk
  · funext sk msg; exact signature_spec _ _ sk msg

end Verif.Device.Fast
