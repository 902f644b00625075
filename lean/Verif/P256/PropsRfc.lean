import Verif.P256.RfcWitness
import Verif.Crypto.ShaProps

/-! C66: deterministic signatures and RFC 6979. -/

set_option exponentiation.threshold 600

namespace Verif.P256

open Int256 Spec Ecdsa
open Verif.Crypto.Sha (SHA256)

/-- The HMAC of RFC 2104 with the SHA-256 of FIPS 180-4. -/
abbrev HMAC : List UInt8 → List UInt8 → List UInt8 := Crypto.Sha.Spec.hmac SHA256

/-! ### Lengths -/

theorem finalize_len (s : Crypto.Sha.Hasher) : (Crypto.Sha.finalize s).length = 32 := by
  unfold Crypto.Sha.finalize
  simp only [List.flatMap_cons, List.flatMap_nil, List.append_nil, List.length_append,
    Crypto.Sha.writeU32, List.length_cons, List.length_nil]

theorem sha256_ok (w : Nat) : Hash32 (sha256 w) := fun _ => finalize_len _

theorem sha256_hmac_len (w : Nat) (k m : List UInt8) : ((sha256 w).hmac k m).length = 32 :=
  finalize_len _

/-! ### The first candidate -/

theorem octets_of {a : Int256} (h : Wf a) : to_bin a = int2octets (val a) := by
  have hlt : val a < 256 ^ 32 := by
    have := val_lt8 h
    have e1 : (256 : Nat) ^ 32 = 2 ^ 256 := by decide +kernel
    omega
  refine number_inj ((to_bin_len h).trans (be_length 32 _).symm) ?_
  rw [number_to_bin, int2octets, number_be, Nat.mod_eq_of_lt hlt]

theorem init_eq {H : Hash256} (hH : Hash32 H) {sk : SecKey} (hd : ExpOk sk.k) (msg : List UInt8) :
    ((Rfc6979.new H sk msg).k, (Rfc6979.new H sk msg).v) =
      rfcInit H.hmac (val sk.k) (H.hash msg) := by
  have w := from_bin_spec (hH msg)
  obtain ⟨wm, vm⟩ := Exponent.modn_spec w.1
  rw [w.2, ← number_eq] at vm
  have e1 := octets_of hd.wf
  have e2 : to_bin (modd (from_bin (H.hash msg)) Int256.N) = bits2octets (H.hash msg) := by
    have := octets_of wm
    rw [vm] at this
    exact this
  simp only [Rfc6979.new, rfcInit]
  rw [e1, e2]
  simp only [List.append_assoc]

/-- C66, for the first candidate (the others have a probability of 2^-32, but `C66_deviation` shows
    that the restriction is needed): with a hash function and a MAC of 32 bytes, if the first
    candidate is suitable, the code gives the signature of RFC 6979. -/
theorem C66_first_partial {H : Hash256} (hH : Hash32 H) (hmac : ∀ k m, (H.hmac k m).length = 32)
    {sk : SecKey} (hd : Secret sk.k) (msg : List UInt8) (n : Nat) {k : Nat}
    (hk : k = (rfcNext H.hmac (rfcInit H.hmac (val sk.k) (H.hash msg))).1)
    (h0 : 0 < k) (hN : k < N) (hs : sign (val sk.k) k (number (H.hash msg)) ≠ none) :
    (sk.sign_rfc6979 H (n + 1) msg).map Signature.nats =
      rfcSign H.hash H.hmac (n + 1) (val sk.k) msg ∧
    rfcSign H.hash H.hmac (n + 1) (val sk.k) msg = sign (val sk.k) k (number (H.hash msg)) := by
  have hi := init_eq hH hd.ok msg
  rw [SecKey.sign_rfc6979, SecKey.signLoop, rfcSign, rfcLoop, ← hk, if_pos ⟨h0, hN⟩]
  rw [← hi] at hk
  have hc := hmac (Rfc6979.new H sk msg).k (Rfc6979.new H sk msg).v
  have hkk : k = number (H.hmac (Rfc6979.new H sk msg).k (Rfc6979.new H sk msg).v) := hk
  obtain ⟨w, v⟩ := from_bin_spec hc
  have v : val (Rfc6979.next H (Rfc6979.new H sk msg)).1 =
    number (H.hmac (Rfc6979.new H sk msg).k (Rfc6979.new H sk msg).v) := v
  rw [← hkk] at v
  have hnz : Exponent.nonZeroFromInt (Rfc6979.next H (Rfc6979.new H sk msg)).1 =
      some (Rfc6979.next H (Rfc6979.new H sk msg)).1 :=
    Exponent.nonZeroFromInt_of ⟨w, by rw [v]; exact h0, by rw [v]; exact hN⟩
  have ha := C61_attempt hd (k := (Rfc6979.next H (Rfc6979.new H sk msg)).1)
    ⟨w, by rw [v]; exact h0, by rw [v]; exact hN⟩ (hH msg)
  rw [v] at ha
  rw [hnz, Option.bind_some]
  obtain ⟨rs, hrs⟩ := Option.ne_none_iff_exists'.1 hs
  rw [hrs] at ha
  rw [hrs, Option.some_or]
  obtain ⟨sig, ht, hn⟩ := Option.map_eq_some_iff.1 ha
  rw [ht, Option.some_or, Option.map_some, hn]
  exact ⟨rfl, rfl⟩

/-! ### With SHA-256 -/

theorem rfcInit_congr {f g : List UInt8 → List UInt8 → List UInt8}
    (hf : ∀ k m, (f k m).length = 32)
    (h : ∀ k m : List UInt8, k.length = 32 → m.length ≤ 97 → f k m = g k m) (x : Nat) (h1 : List UInt8) :
    rfcInit f x h1 = rfcInit g x h1 := by
  have l1 : (int2octets x).length = 32 := be_length 32 _
  have l2 : (bits2octets h1).length = 32 := be_length 32 _
  unfold rfcInit
  simp only
  have a1 := h (List.replicate 32 0)
    (List.replicate 32 1 ++ [0] ++ int2octets x ++ bits2octets h1) (by simp) (by simp [l1, l2])
  rw [← a1]
  have b1 := hf (List.replicate 32 0) (List.replicate 32 1 ++ [0] ++ int2octets x ++ bits2octets h1)
  generalize f (List.replicate 32 0) (List.replicate 32 1 ++ [0] ++ int2octets x ++ bits2octets h1)
    = K at *
  rw [← h K (List.replicate 32 1) b1 (by simp)]
  have b2 := hf K (List.replicate 32 1)
  generalize f K (List.replicate 32 1) = V at *
  rw [← h K (V ++ [1] ++ int2octets x ++ bits2octets h1) b1 (by simp [l1, l2, b2])]
  have b3 := hf K (V ++ [1] ++ int2octets x ++ bits2octets h1)
  generalize f K (V ++ [1] ++ int2octets x ++ bits2octets h1) = K' at *
  rw [← h K' V b3 (by omega)]

theorem rfcInit_len {f : List UInt8 → List UInt8 → List UInt8} (hf : ∀ k m, (f k m).length = 32)
    (x : Nat) (h1 : List UInt8) :
    (rfcInit f x h1).1.length = 32 ∧ (rfcInit f x h1).2.length = 32 := by
  unfold rfcInit
  exact ⟨hf _ _, hf _ _⟩

theorem rfcNext_congr {f g : List UInt8 → List UInt8 → List UInt8}
    (hf : ∀ k m, (f k m).length = 32)
    (h : ∀ k m : List UInt8, k.length = 32 → m.length ≤ 97 → f k m = g k m)
    {st : List UInt8 × List UInt8} (h1 : st.1.length = 32) (h2 : st.2.length = 32) :
    rfcNext f st = rfcNext g st ∧ (rfcNext f st).2.1.length = 32 ∧
      (rfcNext f st).2.2.length = 32 := by
  unfold rfcNext
  simp only
  have e1 := h st.1 st.2 h1 (by omega)
  have b1 := hf st.1 st.2
  rw [← e1]
  generalize f st.1 st.2 = V at *
  have e2 := h st.1 (V ++ [0]) h1 (by simp [b1])
  have b2 := hf st.1 (V ++ [0])
  rw [← e2]
  generalize f st.1 (V ++ [0]) = K at *
  rw [← h K V b2 (by omega)]
  exact ⟨rfl, b2, hf _ _⟩

theorem rfcLoop_congr {f g : List UInt8 → List UInt8 → List UInt8}
    (hf : ∀ k m, (f k m).length = 32)
    (h : ∀ k m : List UInt8, k.length = 32 → m.length ≤ 97 → f k m = g k m) (d e : Nat) :
    ∀ n (st : List UInt8 × List UInt8), st.1.length = 32 → st.2.length = 32 →
      rfcLoop f d e n st = rfcLoop g d e n st := by
  intro n
  induction n with
  | zero => intro st _ _; rfl
  | succ n ih =>
    intro st h1 h2
    obtain ⟨e1, l1, l2⟩ := rfcNext_congr hf h h1 h2
    rw [rfcLoop, rfcLoop, ← e1, ih _ l1 l2]

/-- The code's hash and MAC are those of the standards for what a deterministic signature feeds to
    them. -/
theorem rfcSign_sha256 {w : Nat} (hw : 8 ≤ w) {msg : List UInt8} (h1 : msg.length < 2 ^ w)
    (h2 : msg.length < 2 ^ 61) (n d : Nat) :
    (sha256 w).hash msg = SHA256 msg ∧
    rfcInit (sha256 w).hmac d (SHA256 msg) = rfcInit HMAC d (SHA256 msg) ∧
    rfcNext (sha256 w).hmac (rfcInit (sha256 w).hmac d (SHA256 msg)) =
      rfcNext HMAC (rfcInit HMAC d (SHA256 msg)) ∧
    rfcSign (sha256 w).hash (sha256 w).hmac n d msg = rfcSign SHA256 HMAC n d msg := by
  have hh : (sha256 w).hash msg = SHA256 msg := Crypto.Sha.sha256_hash w msg h1 h2
  have hm : ∀ k m : List UInt8, k.length = 32 → m.length ≤ 97 → (sha256 w).hmac k m = HMAC k m := by
    intro k m hk hl
    have h256 : 2 ^ 8 ≤ 2 ^ w := Nat.pow_le_pow_right (by omega) hw
    exact Crypto.Sha.hmac_is_rfc2104 w k m hk (by omega) (by omega) (by omega)
  have hi := rfcInit_congr (sha256_hmac_len w) hm d (SHA256 msg)
  obtain ⟨l1, l2⟩ := rfcInit_len (sha256_hmac_len w) d (SHA256 msg)
  refine ⟨hh, hi, ?_, ?_⟩
  · rw [← hi]
    exact (rfcNext_congr (sha256_hmac_len w) hm l1 l2).1
  · unfold rfcSign
    rw [hh, ← hi]
    exact rfcLoop_congr (sha256_hmac_len w) hm _ _ n _ l1 l2

/-- C66, for the first candidate, with the hash function of the device: `w` is the width of `usize`,
    the message is shorter than `2^w` bytes and than the limit of the standard. -/
theorem C66_sha256_partial {w : Nat} (hw : 8 ≤ w) {sk : SecKey} (hd : Secret sk.k)
    {msg : List UInt8} (h1 : msg.length < 2 ^ w) (h2 : msg.length < 2 ^ 61) (n : Nat) {k : Nat}
    (hk : k = (rfcNext HMAC (rfcInit HMAC (val sk.k) (SHA256 msg))).1)
    (h0 : 0 < k) (hN : k < N) (hs : sign (val sk.k) k (number (SHA256 msg)) ≠ none) :
    (sk.sign_rfc6979 (sha256 w) (n + 1) msg).map Signature.nats =
      rfcSign SHA256 HMAC (n + 1) (val sk.k) msg := by
  obtain ⟨a, b, c, d⟩ := rfcSign_sha256 hw h1 h2 (n + 1) (val sk.k)
  rw [← d]
  refine (C66_first_partial (sha256_ok w) (sha256_hmac_len w) hd msg n ?_ h0 hN ?_).1
  · rw [a, c]; exact hk
  · rw [a]; exact hs

/-! ### The second candidate -/

theorem xCoord_of_nat {n x : Nat} (hn : n < 2 ^ 256) (hx : x < P)
    (h : (nmul n (gx, gy, 1)).1 % P = x * (nmul n (gx, gy, 1)).2.2 % P)
    (hz : (nmul n (gx, gy, 1)).2.2 % P ≠ 0) : xCoord (n • G) = some x := by
  have hr := nmul_spec hn g_rep
  generalize nmul n (gx, gy, 1) = p at *
  have hz' : ((p.2.2 : Nat) : ZMod P) ≠ 0 := by
    rw [Ne, ZMod.natCast_eq_zero_iff, Nat.dvd_iff_mod_eq_zero]; exact hz
  have hX : ((p.1 : Nat) : ZMod P) = (x : ZMod P) * (p.2.2 : Nat) := by
    have := (ZMod.natCast_eq_natCast_iff p.1 (x * p.2.2) P).2 h
    rw [this, Nat.cast_mul]
  generalize n • G = A at *
  cases A with
  | zero => exact absurd hr.2.1 hz'
  | some x' y' hn =>
    have : x' = (x : ZMod P) := by
      have h := hr.2.1
      rw [hX] at h
      exact (mul_right_cancel₀ hz' h).symm
    show some (ZMod.val x') = _
    rw [this, ZMod.val_natCast_of_lt hx]

theorem sign_one {k e x : Nat} (hx : xCoord (k • G) = some x) (hk : 0 < k ∧ k < N)
    (hr : x % N ≠ 0) (hs : (e + x % N) % N ≠ 0) : ∃ s, sign 1 k e = some (x % N, s) := by
  unfold sign
  rw [hx]
  have hne : ((k : ZMod N)⁻¹ * ((e : ZMod N) + ((x % N : Nat) : ZMod N) * ((1 : Nat) : ZMod N))).val
      ≠ 0 := by
    rw [Ne, ZMod.val_eq_zero]
    refine mul_ne_zero (inv_ne_zero (cast_ne hk.1 hk.2)) ?_
    rw [Nat.cast_one, mul_one, ← Nat.cast_add, Ne, ZMod.natCast_eq_zero_iff,
      Nat.dvd_iff_mod_eq_zero]
    exact hs
  simp only
  rw [if_neg (by rintro (h | h); exacts [hr h, hne h])]
  exact ⟨_, rfl⟩

theorem rfcInit_of {f : List UInt8 → List UInt8 → List UInt8} {x : Nat} {h tl K1 V1 K2 V2 : List UInt8}
    (ht : int2octets x ++ bits2octets h = tl)
    (k1 : f (List.replicate 32 0) (List.replicate 32 1 ++ [0] ++ tl) = K1)
    (v1 : f K1 (List.replicate 32 1) = V1) (k2 : f K1 (V1 ++ [1] ++ tl) = K2) (v2 : f K2 V1 = V2) :
    rfcInit f x h = (K2, V2) := by
  subst ht
  subst k1
  subst v1
  subst k2
  subst v2
  simp only [rfcInit, List.append_assoc]

open Rfc in
/-- C66 is false without the restriction, with SHA-256 on the device: for this secret and this message
    the first candidate is not below the group order, and the second candidate of the code is not the
    one of the RFC. Both signatures are valid, but they are not the same. -/
theorem C66_deviation : ∃ (sk : SecKey) (msg : List UInt8) (sig : Signature) (r s : Nat),
    Secret sk.k ∧ msg.length = 8 ∧ sk.sign_rfc6979 (sha256 32) 2 msg = some sig ∧
    rfcSign SHA256 HMAC 2 (val sk.k) msg = some (r, s) ∧ val sig.r ≠ r := by
  obtain ⟨sk, hsk⟩ : ∃ sk : SecKey, sk = ⟨Int256.ONE⟩ := ⟨_, rfl⟩
  have hkk : sk.k = Int256.ONE := by rw [hsk]
  have hd : Secret sk.k := by rw [hkk]; exact one_secret
  have hvk : val sk.k = 1 := by rw [hkk]; exact val_one
  have hh : (sha256 32).hash Rfc.msg = hm := hash_msg
  have hlen : Rfc.msg.length = 8 := by decide
  have hhl : hm.length = 32 := by decide
  have etail : to_bin Int256.ONE ++ to_bin (modd (from_bin hm) Int256.N) = tail := by decide +kernel
  have enew : Rfc6979.new (sha256 32) sk Rfc.msg = ⟨K2, V2⟩ := by
    simp only [Rfc6979.new, hh, hkk, etail]
    show (⟨_, _⟩ : Rfc6979) = _
    have k1 : (sha256 32).hmac (List.replicate 32 0) (List.replicate 32 1 ++ [0] ++ tail) = K1 := mac_K1
    have v1 : (sha256 32).hmac K1 (List.replicate 32 1) = V1 := mac_V1
    have k2 : (sha256 32).hmac K1 (V1 ++ [1] ++ tail) = K2 := mac_K2
    have v2 : (sha256 32).hmac K2 V1 = V2 := mac_V2
    rw [k1, v1, k2, v2]
  have einit : rfcInit (sha256 32).hmac 1 hm = (K2, V2) := by
    have := init_eq (sha256_ok 32) hd.ok Rfc.msg
    rw [enew, hvk, hh] at this
    exact this.symm
  have t1 : (sha256 32).hmac K2 V2 = T1 := mac_T1
  have kc : (sha256 32).hmac K2 (V2 ++ [0]) = Kc := mac_Kc
  have vc : (sha256 32).hmac Kc V2 = Vc := mac_Vc
  have tc : (sha256 32).hmac Kc Vc = Tc := mac_Tc
  have kr : (sha256 32).hmac K2 (T1 ++ [0]) = Kr := mac_Kr
  have vr : (sha256 32).hmac Kr T1 = Vr := mac_Vr
  have tr : (sha256 32).hmac Kr Vr = Tr := mac_Tr
  have cnext : Rfc6979.next (sha256 32) ⟨K2, V2⟩ = (from_bin T1, ⟨Kc, Vc⟩) := by
    simp only [Rfc6979.next, t1, kc, vc]
  have rnext : rfcNext (sha256 32).hmac (K2, V2) = (number T1, (Kr, Vr)) := by
    simp only [rfcNext, t1, kr, vr]
  have ht1 : Exponent.nonZeroFromInt (from_bin T1) = none := by decide +kernel
  have htc : Exponent.nonZeroFromInt (from_bin Tc) = some (from_bin Tc) := by decide +kernel
  have hcs : Secret (from_bin Tc) := by
    refine ⟨from_bin_wf (by decide +kernel), ?_, ?_⟩ <;> decide +kernel
  have hcn : val (from_bin Tc) = number Tc := by decide +kernel
  -- the code's signature
  obtain ⟨s1, hs1⟩ := sign_one (k := number Tc) (e := number hm) (x := xc)
    (xCoord_of_nat (by decide +kernel) (by decide +kernel) (by decide +kernel) (by decide +kernel))
    (by decide +kernel) (by decide +kernel) (by decide +kernel)
  have ha := C61_attempt hd hcs hhl
  rw [hvk, hcn, hs1] at ha
  obtain ⟨sig, ht, hn⟩ := Option.map_eq_some_iff.1 ha
  have csign : sk.sign_rfc6979 (sha256 32) 2 Rfc.msg = some sig := by
    rw [SecKey.sign_rfc6979, SecKey.signLoop, hh, enew, cnext]
    simp only
    rw [ht1, Option.bind_none, Option.none_or, SecKey.signLoop]
    have e : (Rfc6979.next (sha256 32) ⟨Kc, Vc⟩).1 = from_bin Tc := by
      simp only [Rfc6979.next, tc]
    rw [e, htc, Option.bind_some, ht, Option.some_or]
  -- the RFC's signature
  obtain ⟨s2, hs2⟩ := sign_one (k := number Tr) (e := number hm) (x := xr)
    (xCoord_of_nat (by decide +kernel) (by decide +kernel) (by decide +kernel) (by decide +kernel))
    (by decide +kernel) (by decide +kernel) (by decide +kernel)
  have rsign : rfcSign (sha256 32).hash (sha256 32).hmac 2 1 Rfc.msg = some (xr % N, s2) := by
    rw [rfcSign, hh, einit, rfcLoop, rnext]
    simp only
    have e : (rfcNext (sha256 32).hmac (Kr, Vr)).1 = number Tr := by
      simp only [rfcNext, tr]
    rw [if_neg (by decide +kernel), Option.none_or, rfcLoop, e, if_pos (by decide +kernel), hs2,
      Option.some_or]
  rw [(rfcSign_sha256 (w := 32) (by decide) (msg := Rfc.msg) (by rw [hlen]; decide)
    (by rw [hlen]; decide) 2 1).2.2.2] at rsign
  refine ⟨sk, Rfc.msg, sig, _, _, hd, hlen, csign, by rw [hvk]; exact rsign, ?_⟩
  have : val sig.r = xc % N := congrArg Prod.fst hn
  rw [this]
  decide +kernel

/-- The hypotheses of `C66_sha256_partial` hold for the published vector of RFC 6979, A.2.5, and the
    specification gives its signature. -/
example : ∃ sk : SecKey, Secret sk.k ∧ val sk.k = Rfc.Sample.d ∧
    Rfc.Sample.k = (rfcNext HMAC (rfcInit HMAC (val sk.k) (SHA256 Rfc.Sample.msg))).1 ∧
    0 < Rfc.Sample.k ∧ Rfc.Sample.k < N ∧
    sign (val sk.k) Rfc.Sample.k (number (SHA256 Rfc.Sample.msg)) =
      some (Rfc.Sample.r, Rfc.Sample.s) := by
  open Rfc.Sample in
  have hv : val (from_bin (int2octets d)) = d := by decide +kernel
  obtain ⟨hh, hi, hn, _⟩ := rfcSign_sha256 (w := 32) (by decide) (msg := msg) (by decide) (by decide)
    1 d
  have hh' : (sha256 32).hash msg = hm := hash_msg
  rw [hh'] at hh
  rw [← hh] at hi hn
  have k1 : (sha256 32).hmac (List.replicate 32 0) (List.replicate 32 1 ++ [0] ++ tail) = K1 := mac_K1
  have v1 : (sha256 32).hmac K1 (List.replicate 32 1) = V1 := mac_V1
  have k2 : (sha256 32).hmac K1 (V1 ++ [1] ++ tail) = K2 := mac_K2
  have v2 : (sha256 32).hmac K2 V1 = V2 := mac_V2
  have t : (sha256 32).hmac K2 V2 = T := mac_T
  have eb : bits2octets hm = hm := by decide +kernel
  have einit : rfcInit (sha256 32).hmac d hm = (K2, V2) :=
    rfcInit_of (by rw [eb]; rfl) k1 v1 k2 v2
  have ek : k = (rfcNext HMAC (rfcInit HMAC d (SHA256 msg))).1 := by
    rw [← hh, ← hn, einit]
    simp only [rfcNext, t]
    decide +kernel
  refine ⟨⟨from_bin (int2octets d)⟩, ⟨from_bin_wf (be_length 32 _), ?_, ?_⟩, hv, ?_, ?_, ?_, ?_⟩
  · simp only [hv]; decide +kernel
  · simp only [hv]; decide +kernel
  · simp only [hv]; exact ek
  · decide +kernel
  · decide +kernel
  · simp only [hv]
    rw [← hh]
    unfold sign
    rw [xCoord_of_nat (n := k) (x := r) (by decide +kernel) (by decide +kernel) (by decide +kernel)
      (by decide +kernel)]
    have e1 : r % N = r := by decide +kernel
    have hk0 : ((k : Nat) : ZMod N) ≠ 0 := cast_ne (by decide +kernel) (by decide +kernel)
    have e2 : ((k : ZMod N)⁻¹ * (((number hm : Nat) : ZMod N) + (r : Nat) * (d : Nat))).val = s := by
      have : ((number hm + r * d : Nat) : ZMod N) = ((k * s : Nat) : ZMod N) := by
        rw [ZMod.natCast_eq_natCast_iff]
        decide +kernel
      push_cast at this
      rw [this, ← mul_assoc, inv_mul_cancel₀ hk0, one_mul, ZMod.val_natCast_of_lt (by decide +kernel)]
    simp only [e1, e2]
    rw [if_neg (by decide +kernel)]

end Verif.P256
