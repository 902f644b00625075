import Verif.P256.DerLemmas

/-! C60 to C65 and C67: points, ECDSA and ECDH over P-256 are those of the standards. -/

set_option exponentiation.threshold 600

namespace Verif.P256

open Int256 Spec

/-- The point `p` of the code has the coordinates of the point `A` of the curve. -/
structure PointOf (p : Point) (A : E.Point) : Prop where
  wx : Wf p.x
  wy : Wf p.y
  coords : coords A = some (val p.x, val p.y)

theorem pointOf_iff {p : Point} {A : E.Point} : PointOf p A ↔ p.Is A := by
  constructor
  · rintro ⟨wx, wy, h⟩
    cases A with
    | zero => cases h
    | some x y hn =>
      have h := Option.some.inj h
      have h1 : x.val = val p.x := (Prod.ext_iff.1 h).1
      have h2 : y.val = val p.y := (Prod.ext_iff.1 h).2
      have e1 : Gfp.toF p.x = x := by rw [Gfp.toF, ← h1, ZMod.natCast_zmod_val]
      have e2 : Gfp.toF p.y = y := by rw [Gfp.toF, ← h2, ZMod.natCast_zmod_val]
      subst e1
      subst e2
      exact ⟨wx, wy, by rw [← h1]; exact ZMod.val_lt _, by rw [← h2]; exact ZMod.val_lt _, hn, rfl⟩
  · exact fun h => ⟨h.wx, h.wy, coords_is h⟩

/-- A secret, or a number of a signature: the invariant of the code's `NonZeroExponentP256`, which
    every constructor establishes (C65_secret, C67_range). -/
def Secret (e : Exponent) : Prop := Wf e ∧ 0 < val e ∧ val e < N

theorem Secret.ok {e : Exponent} (h : Secret e) : ExpOk e := ⟨h.1, h.2.1, h.2.2⟩

theorem ExpOk.secret {e : Exponent} (h : ExpOk e) : Secret e := ⟨h.wf, h.pos, h.lt⟩

/-! ### C60: points -/

/-- C60. The curve has exactly `N` points; all of them are multiples of the base point, and all but
    infinity have the order `N`. -/
theorem C60_group : Nat.card E.Point = N ∧ Nat.Prime N ∧
    (∀ A : E.Point, ∃ n, n < N ∧ n • G = A) ∧ ∀ A : E.Point, A ≠ 0 → addOrderOf A = N :=
  ⟨card_E, N_prime, generated, fun _ h => order_point h⟩

/-- C60. The multiple of the base point by the comb with precomputed tables. -/
theorem C60_base {n : Exponent} (hn : Secret n) : PointOf (Point.base_point_mul n) (val n • G) :=
  pointOf_iff.2 (Point.base_point_mul_is hn.1 hn.ok.ne hn.2.2)

/-- C60. The multiple of any point. -/
theorem C60_mul {p : Point} {A : E.Point} (hp : PointOf p A) {n : Exponent} (hn : Secret n) :
    PointOf (Point.mul p n) (val n • A) :=
  pointOf_iff.2 (Point.mul_is (pointOf_iff.1 hp) hn.1 hn.ok.ne hn.2.2)

/-- C60. The sum of two multiples: also when the two are equal or opposite. -/
theorem C60_sum {p : Point} {A : E.Point} (hp : PointOf p A) {n m : Exponent} (hn : Secret n)
    (hm : Secret m) :
    (val n • G + val m • A ≠ 0 → PointOf (Point.points_mul p n m) (val n • G + val m • A)) ∧
    (val n • G + val m • A = 0 →
      val (Point.points_mul p n m).x = 0 ∧ val (Point.points_mul p n m).y = 0) := by
  obtain ⟨h1, h2⟩ := Point.points_mul_is (pointOf_iff.1 hp) hn.1 hn.ok.ne hm.1 hm.ok.ne
  exact ⟨fun h => pointOf_iff.2 (h1 h), fun h => (h2 h).2⟩

/-- C60. The addition formulas are complete: they give the sum of every two points of the curve in
    projective coordinates, also of equal ones, of opposite ones and with infinity. -/
theorem C60_complete {p q : Proj} {A B : E.Point} (hp : p.Is A) (hq : q.Is B) :
    (Proj.add p q).Is (A + B) ∧ (Proj.double p).Is (A + A) ∧
      ∀ {a : Aff} {C : E.Point}, a.Is C → (Proj.add_mixed p a).Is (A + C) :=
  ⟨Proj.add_is hp hq, Proj.double_is hp, fun ha => Proj.add_mixed_is hp ha⟩

/-- Two, as a secret. -/
def two : Exponent := [2, 0, 0, 0, 0, 0, 0, 0]

theorem two_secret : Secret two := ⟨rfl, by decide, by decide +kernel⟩

theorem one_secret : Secret Int256.ONE := ⟨rfl, by decide, by decide +kernel⟩

theorem val_one : val Int256.ONE = 1 := by decide

/-- The hypotheses hold for the double of the base point. -/
example : ∃ p, PointOf p (2 • G) ∧ Secret two := ⟨_, C60_base two_secret, two_secret⟩

/-! ### C61 and C62: signatures -/

open Ecdsa

/-- What the trait requires of a hash function: 32 bytes. -/
def Hash32 (H : Hash256) : Prop := ∀ m, (H.hash m).length = 32

/-- The public key of the secret `d` is `d` times the base point. -/
theorem C61_public {sk : SecKey} (h : Secret sk.k) : PointOf sk.genpk.p (val sk.k • G) := C60_base h

/-- C61. One attempt to sign is the signing of FIPS 186-4, including when it asks for another `k`. -/
theorem C61_attempt {sk : SecKey} {k : Exponent} (hd : Secret sk.k) (hk : Secret k)
    {hash : List UInt8} (hl : hash.length = 32) :
    (sk.try_sign k (Exponent.modn (from_bin hash))).map Signature.nats =
      sign (val sk.k) (val k) (number hash) := by
  obtain ⟨w, v⟩ := from_bin_spec hl
  obtain ⟨wm, vm⟩ := Exponent.modn_spec w
  refine (try_sign_spec hd.ok hk.ok wm ?_).1
  rw [vm, v, ← number_eq, ZMod.natCast_mod]

theorem attempt_ok {sk : SecKey} {k : Exponent} (hd : ExpOk sk.k) (hk : ExpOk k)
    {hash : List UInt8} (hl : hash.length = 32) {sig : Signature}
    (h : sk.try_sign k (Exponent.modn (from_bin hash)) = some sig) :
    sig.Ok ∧ sign (val sk.k) (val k) (number hash) = some sig.nats := by
  obtain ⟨w, v⟩ := from_bin_spec hl
  obtain ⟨wm, vm⟩ := Exponent.modn_spec w
  have he : (val (Exponent.modn (from_bin hash)) : ZMod N) = (number hash : Nat) := by
    rw [vm, v, ← number_eq, ZMod.natCast_mod]
  obtain ⟨h1, h2⟩ := try_sign_spec hd hk wm he
  refine ⟨h2 sig h, ?_⟩
  rw [← h1, h, Option.map_some]

theorem from_bin_wf {b : List UInt8} (h : b.length = 32) : Wf (from_bin b) := (from_bin_spec h).1

theorem sign_rng_ok {H : Hash256} (hH : Hash32 H) {sk : SecKey} (hd : ExpOk sk.k) {msg : List UInt8}
    {draws : List (List UInt32)} (hw : ∀ w ∈ draws, w.length = 8) {sig : Signature}
    (h : sk.sign_rng H msg draws = some sig) :
    sig.Ok ∧ ∃ k, 0 < k ∧ k < N ∧ sign (val sk.k) k (number (H.hash msg)) = some sig.nats := by
  rw [SecKey.sign_rng] at h
  obtain ⟨w, hm, h⟩ := List.exists_of_findSome?_eq_some h
  obtain ⟨k, hg, ht⟩ := Option.bind_eq_some_iff.1 h
  obtain ⟨hk, _⟩ := Exponent.genTry_ok (hw w hm) hg
  obtain ⟨h1, h2⟩ := attempt_ok hd hk (hH msg) ht
  exact ⟨h1, val k, hk.pos, hk.lt, h2⟩

theorem signLoop_ok {H : Hash256} {sk : SecKey} (hd : ExpOk sk.k) {hash : List UInt8}
    (hl : hash.length = 32) (hmac : ∀ k m, (H.hmac k m).length = 32) {sig : Signature} :
    ∀ (fuel : Nat) (st : Rfc6979),
    sk.signLoop H (Exponent.modn (from_bin hash)) fuel st = some sig →
    sig.Ok ∧ ∃ k, 0 < k ∧ k < N ∧ sign (val sk.k) k (number hash) = some sig.nats := by
  intro fuel
  induction fuel with
  | zero => intro _ h; rw [SecKey.signLoop] at h; cases h
  | succ fuel ih =>
    intro st h
    rw [SecKey.signLoop] at h
    rcases Option.or_eq_some_iff.1 h with h | ⟨_, h⟩
    · obtain ⟨k, hg, ht⟩ := Option.bind_eq_some_iff.1 h
      have hk := Exponent.nonZeroFromInt_ok (from_bin_wf (hmac st.k st.v)) hg
      obtain ⟨h1, h2⟩ := attempt_ok hd hk hl ht
      exact ⟨h1, val k, hk.pos, hk.lt, h2⟩
    · exact ih _ h

/-- How a signature may come about. -/
inductive Signs (H : Hash256) (sk : SecKey) (msg : List UInt8) (sig : Signature) : Prop
  | random (draws : List (List UInt32)) (hw : ∀ w ∈ draws, w.length = 8)
      (h : sk.sign_rng H msg draws = some sig)
  | deterministic (fuel : Nat) (hmac : ∀ k m, (H.hmac k m).length = 32)
      (h : sk.sign_rfc6979 H fuel msg = some sig)

theorem Signs.ok {H : Hash256} (hH : Hash32 H) {sk : SecKey} (hd : Secret sk.k) {msg : List UInt8}
    {sig : Signature} (h : Signs H sk msg sig) :
    sig.Ok ∧ ∃ k, 0 < k ∧ k < N ∧ sign (val sk.k) k (number (H.hash msg)) = some sig.nats := by
  cases h with
  | random draws hw h => exact sign_rng_ok hH hd.ok hw h
  | deterministic fuel hmac h => exact signLoop_ok hd.ok (hH msg) hmac fuel _ h

/-- C61. Whatever the two signing functions return, for any generator and any hash function, is a
    signature of FIPS 186-4 of the message for the public key. -/
theorem C61_signature {H : Hash256} (hH : Hash32 H) {sk : SecKey} (hd : Secret sk.k)
    {msg : List UInt8} {sig : Signature} (h : Signs H sk msg sig) :
    Secret sig.r ∧ Secret sig.s ∧
      Valid (val sk.k • G) (number (H.hash msg)) (val sig.r) (val sig.s) := by
  obtain ⟨hs, k, h0, hN, he⟩ := h.ok hH hd
  exact ⟨hs.r.secret, hs.s.secret, sign_valid ⟨h0, hN⟩ he⟩

/-- C62, for hashes that are not a multiple of the group order (the other hashes have a probability of
    2^-255, but `C62_zero_hash` shows that the restriction is needed): the verification accepts
    exactly the signatures of FIPS 186-4, for every public key. -/
theorem C62_verify_partial {pk : PubKey} {Q : E.Point} (hQ : PointOf pk.p Q) {hash : List UInt8}
    (hl : hash.length = 32) (h0 : number hash % N ≠ 0) {sig : Signature} (hr : Secret sig.r)
    (hs : Secret sig.s) :
    pk.verify_hash_vartime hash sig = true ↔ Valid Q (number hash) (val sig.r) (val sig.s) :=
  verify_spec (pointOf_iff.1 hQ) hl h0 ⟨hr.ok, hs.ok⟩

/-- C62, with the same restriction: every signature the device makes is accepted with its public key. -/
theorem C62_round_trip_partial {H : Hash256} (hH : Hash32 H) {sk : SecKey} (hd : Secret sk.k)
    {msg : List UInt8} (h0 : number (H.hash msg) % N ≠ 0) {sig : Signature}
    (h : Signs H sk msg sig) : sk.genpk.verify_vartime H msg sig = true := by
  obtain ⟨hr, hs, hv⟩ := C61_signature hH hd h
  exact (C62_verify_partial (C61_public hd) (hH msg) h0 hr hs).2 hv

/-! ### C63: key agreement -/

/-- C63. The shared secret is the `x` coordinate of the multiple of the other key, which is never
    infinity. -/
theorem C63_shared {sk : Ecdh.SecKey} (hd : Secret sk.a) {pk : Ecdh.PubKey} {Q : E.Point}
    (hQ : PointOf pk.p Q) : val sk.a • Q ≠ 0 ∧ (sk.exchange_x pk).length = 32 ∧
      xCoord (val sk.a • Q) = some (number (sk.exchange_x pk)) := by
  have h := Point.mul_is (pointOf_iff.1 hQ) hd.1 hd.ok.ne hd.2.2
  obtain ⟨hl, hv⟩ := to_bin_spec (sk.exchange_raw pk).x
  refine ⟨h.ne_zero, ?_, ?_⟩
  · show (to_bin (sk.exchange_raw pk).x).length = 32
    have : (sk.exchange_raw pk).x.length = 8 := h.wx
    rw [hl, this]
  · show xCoord (val sk.a • Q) = some (number (to_bin (sk.exchange_raw pk).x))
    rw [xCoord_is h, number_eq, hv]
    rfl

/-- C63. Both sides agree: the same shared point and the same bytes. -/
theorem C63_agreement {a b : Ecdh.SecKey} (ha : Secret a.a) (hb : Secret b.a) :
    a.exchange_raw b.genpk = b.exchange_raw a.genpk ∧ a.exchange_x b.genpk = b.exchange_x a.genpk := by
  have h1 : (a.exchange_raw b.genpk).Is (val a.a • val b.a • G) :=
    Point.mul_is (Point.base_point_mul_is hb.1 hb.ok.ne hb.2.2) ha.1 ha.ok.ne ha.2.2
  have h2 : (b.exchange_raw a.genpk).Is (val b.a • val a.a • G) :=
    Point.mul_is (Point.base_point_mul_is ha.1 ha.ok.ne ha.2.2) hb.1 hb.ok.ne hb.2.2
  rw [smul_smul, Nat.mul_comm, ← smul_smul] at h2
  have h := h1.inj h2
  refine ⟨h, ?_⟩
  unfold Ecdh.SecKey.exchange_x
  rw [h]

example : ∃ a b : Ecdh.SecKey, Secret a.a ∧ Secret b.a ∧ a.a ≠ b.a :=
  ⟨⟨two⟩, ⟨Int256.ONE⟩, two_secret, one_secret, by decide⟩

/-! ### C64: public keys -/

theorem number_to_bin {a : Int256} : number (to_bin a) = val a := (to_bin_spec a).2

theorem to_bin_len {a : Int256} (h : Wf a) : (to_bin a).length = 32 := by
  rw [(to_bin_spec a).1, show a.length = 8 from h]

theorem new_checked_bytes {x y : List UInt8} (hx : x.length = 32) (hy : y.length = 32) (p : Point) :
    Point.new_checked_vartime (from_bin x) (from_bin y) = some p ↔
      number x ≠ 0 ∧ (∃ A : E.Point, coords A = some (number x, number y)) ∧
        to_bin p.x = x ∧ to_bin p.y = y ∧ Wf p.x ∧ Wf p.y := by
  obtain ⟨wx, vx⟩ := from_bin_spec hx
  obtain ⟨wy, vy⟩ := from_bin_spec hy
  rw [Point.new_checked_spec wx wy]
  constructor
  · rintro ⟨rfl, h0, A, hA⟩
    have := coords_is hA
    simp only at this
    rw [vx, vy] at this
    rw [vx] at h0
    exact ⟨h0, ⟨A, this⟩, to_bin_from_bin hx, to_bin_from_bin hy, wx, wy⟩
  · rintro ⟨h0, ⟨A, hA⟩, ex, ey, wpx, wpy⟩
    have hp : p = ⟨from_bin x, from_bin y⟩ := by
      cases p
      simp only at ex ey wpx wpy
      rw [← ex, ← ey, from_bin_to_bin wpx, from_bin_to_bin wpy]
    refine ⟨hp, by rw [vx]; exact h0, A, pointOf_iff.1 ⟨?_, ?_, ?_⟩⟩
    · rw [hp]; exact wx
    · rw [hp]; exact wy
    · rw [hp]; simp only; rw [vx, vy]; exact hA

/-- C64. The coordinates of a peer are accepted exactly if they are those of a point of the curve, are
    reduced, and are not zero; the key is then that point and its coordinates are those given. -/
theorem C64_coordinates {x y : List UInt8} (hx : x.length = 32) (hy : y.length = 32) :
    (∀ pk, Ecdh.PubKey.from_coordinates x y = some pk →
      ∃ A : E.Point, PointOf pk.p A ∧ A ≠ 0 ∧ pk.to_coordinates = (x, y)) ∧
    (∀ pk, PubKey.from_coordinates x y = some pk →
      ∃ A : E.Point, PointOf pk.p A ∧ A ≠ 0 ∧ pk.to_coordinates = (x, y)) ∧
    ((Ecdh.PubKey.from_coordinates x y).isSome ↔
      (∃ A : E.Point, coords A = some (number x, number y)) ∧ number x ≠ 0) ∧
    ((PubKey.from_coordinates x y).isSome ↔
      (∃ A : E.Point, coords A = some (number x, number y)) ∧ number x ≠ 0) := by
  have key : ∀ p, Point.new_checked_vartime (from_bin x) (from_bin y) = some p →
      ∃ A : E.Point, PointOf p A ∧ A ≠ 0 ∧ (to_bin p.x, to_bin p.y) = (x, y) := by
    intro p hp
    obtain ⟨_, ⟨A, hA⟩, ex, ey, wx, wy⟩ := (new_checked_bytes hx hy p).1 hp
    have h : PointOf p A := ⟨wx, wy, by rw [hA, ← number_to_bin, ← number_to_bin, ex, ey]⟩
    exact ⟨A, h, (pointOf_iff.1 h).ne_zero, by rw [ex, ey]⟩
  have iff : (Point.new_checked_vartime (from_bin x) (from_bin y)).isSome ↔
      (∃ A : E.Point, coords A = some (number x, number y)) ∧ number x ≠ 0 := by
    rw [Option.isSome_iff_exists]
    constructor
    · rintro ⟨p, hp⟩
      obtain ⟨h0, hA, _⟩ := (new_checked_bytes hx hy p).1 hp
      exact ⟨hA, h0⟩
    · rintro ⟨hA, h0⟩
      exact ⟨⟨from_bin x, from_bin y⟩, (new_checked_bytes hx hy _).2
        ⟨h0, hA, to_bin_from_bin hx, to_bin_from_bin hy, from_bin_wf hx, from_bin_wf hy⟩⟩
  refine ⟨?_, ?_, ?_, ?_⟩
  · intro pk h
    simp only [Ecdh.PubKey.from_coordinates, Option.map_eq_some_iff] at h
    obtain ⟨p, hp, rfl⟩ := h
    exact key p hp
  · intro pk h
    simp only [PubKey.from_coordinates, Option.map_eq_some_iff] at h
    obtain ⟨p, hp, rfl⟩ := h
    exact key p hp
  · rw [← iff]
    simp only [Ecdh.PubKey.from_coordinates, Option.isSome_map]
  · rw [← iff]
    simp only [PubKey.from_coordinates, Option.isSome_map]

/-- C64. The uncompressed encoding: 65 bytes are accepted exactly if they are the encoding of SEC 1
    of a point whose coordinates are not zero, and encoding a key gives the encoding of its point. -/
theorem C64_uncompressed (bytes : List UInt8) :
    ((PubKey.from_bytes_uncompressed bytes).isSome ↔
      ∃ A : E.Point, Uncompressed A bytes ∧ ∃ x y, coords A = some (x, y) ∧ x ≠ 0) ∧
    (∀ pk, PubKey.from_bytes_uncompressed bytes = some pk →
      pk.to_bytes_uncompressed = bytes ∧ ∃ A : E.Point, PointOf pk.p A ∧ Uncompressed A bytes) ∧
    ∀ (pk : PubKey) (A : E.Point), PointOf pk.p A → Uncompressed A pk.to_bytes_uncompressed := by
  have enc : ∀ (pk : PubKey) (A : E.Point), PointOf pk.p A →
      Uncompressed A pk.to_bytes_uncompressed := by
    rintro ⟨p⟩ A h
    have lx : (to_bin p.x).length = 32 := to_bin_len h.wx
    have ly : (to_bin p.y).length = 32 := to_bin_len h.wy
    refine ⟨?_, rfl, ?_⟩
    · show (0x04 :: (to_bin p.x ++ to_bin p.y)).length = 65
      simp [lx, ly]
    · show coords A = some (number (List.take 32 (List.drop 1 (0x04 :: (to_bin p.x ++ to_bin p.y)))),
        number (List.drop 33 (0x04 :: (to_bin p.x ++ to_bin p.y))))
      rw [h.coords]
      have e1 : List.take 32 (List.drop 1 (0x04 :: (to_bin p.x ++ to_bin p.y))) = to_bin p.x := by
        rw [List.drop_succ_cons, List.drop_zero, List.take_append_of_le_length (by omega),
          List.take_of_length_le (by omega)]
      have e2 : List.drop 33 (0x04 :: (to_bin p.x ++ to_bin p.y)) = to_bin p.y := by
        rw [List.drop_succ_cons, List.drop_append_of_le_length (by omega),
          List.drop_of_length_le (by omega), List.nil_append]
      rw [e1, e2, number_to_bin, number_to_bin]
  have dec : ∀ pk, PubKey.from_bytes_uncompressed bytes = some pk →
      pk.to_bytes_uncompressed = bytes ∧ (∃ A : E.Point, PointOf pk.p A ∧ Uncompressed A bytes) ∧
        val pk.p.x ≠ 0 := by
    intro pk h
    simp only [PubKey.from_bytes_uncompressed, Option.map_eq_some_iff] at h
    obtain ⟨p, hp, rfl⟩ := h
    unfold Point.from_bytes_uncompressed_vartime at hp
    split at hp
    · cases hp
    · rename_i hc
      simp only [not_or, ne_eq, not_not] at hc
      obtain ⟨hl, hh⟩ := hc
      have l1 : ((bytes.drop 1).take 32).length = 32 := by simp [hl]
      have l2 : ((bytes.drop 33).take 32).length = 32 := by simp [hl]
      obtain ⟨h0, ⟨A, hA⟩, ex, ey, wx, wy⟩ := (new_checked_bytes l1 l2 p).1 hp
      have hP : PointOf p A := ⟨wx, wy, by rw [hA, ← number_to_bin, ← number_to_bin, ex, ey]⟩
      have ee : PubKey.to_bytes_uncompressed ⟨p⟩ = bytes := by
        show (0x04 :: (to_bin p.x ++ to_bin p.y)) = bytes
        rw [ex, ey]
        cases bytes with
        | nil => simp at hl
        | cons b bs =>
          simp only [List.head?_cons, Option.some.injEq] at hh
          simp only [List.length_cons] at hl
          rw [hh, List.drop_succ_cons, List.drop_zero, List.drop_succ_cons,
            List.take_of_length_le (l := bs.drop 32) (by simp; omega), List.take_append_drop]
      refine ⟨ee, ⟨A, hP, ?_⟩, ?_⟩
      · have := enc ⟨p⟩ A hP
        rwa [ee] at this
      · show val p.x ≠ 0
        rw [← number_to_bin, ex]; exact h0
  refine ⟨?_, fun pk h => ⟨(dec pk h).1, (dec pk h).2.1⟩, enc⟩
  rw [Option.isSome_iff_exists]
  constructor
  · rintro ⟨pk, h⟩
    obtain ⟨_, ⟨A, hP, hU⟩, h0⟩ := dec pk h
    exact ⟨A, hU, _, _, hP.coords, h0⟩
  · rintro ⟨A, ⟨hl, hh, hc⟩, x, y, hxy, h0⟩
    rw [hc] at hxy
    have hxy := Prod.ext_iff.1 (Option.some.inj hxy)
    have l1 : ((bytes.drop 1).take 32).length = 32 := by simp [hl]
    have l2 : ((bytes.drop 33).take 32).length = 32 := by simp [hl]
    have e2 : (bytes.drop 33).take 32 = bytes.drop 33 := List.take_of_length_le (by simp; omega)
    rw [← e2] at hc
    have := (new_checked_bytes l1 l2 ⟨from_bin ((bytes.drop 1).take 32),
      from_bin ((bytes.drop 33).take 32)⟩).2 ⟨by rw [show number _ = x from hxy.1]; exact h0,
        ⟨A, hc⟩, to_bin_from_bin l1, to_bin_from_bin l2, from_bin_wf l1, from_bin_wf l2⟩
    refine ⟨⟨⟨from_bin ((bytes.drop 1).take 32), from_bin ((bytes.drop 33).take 32)⟩⟩, ?_⟩
    simp only [PubKey.from_bytes_uncompressed, Point.from_bytes_uncompressed_vartime]
    rw [if_neg (by simp [hl, hh]), this]
    rfl

/-- C64. The device accepts its own public keys and those of other devices back, but for the one
    pair of secrets whose public key has `x` = 0. -/
theorem C64_own {sk : SecKey} (h : Secret sk.k) (h0 : xCoord (val sk.k • G) ≠ some 0) :
    PubKey.from_coordinates sk.genpk.to_coordinates.1 sk.genpk.to_coordinates.2 = some sk.genpk ∧
    PubKey.from_bytes_uncompressed sk.genpk.to_bytes_uncompressed = some sk.genpk := by
  have hP := C61_public h
  have hx : xCoord (val sk.k • G) = some (val sk.genpk.p.x) := xCoord_is (pointOf_iff.1 hP)
  generalize sk.genpk = pk at *
  obtain ⟨p⟩ := pk
  simp only at hP hx
  have hne : val p.x ≠ 0 := fun h => h0 (by rw [hx, h])
  have lx := to_bin_len hP.wx
  have ly := to_bin_len hP.wy
  have key : Point.new_checked_vartime (from_bin (to_bin p.x)) (from_bin (to_bin p.y)) = some p :=
    (new_checked_bytes lx ly p).2 ⟨by rw [number_to_bin]; exact hne,
      ⟨_, by rw [number_to_bin, number_to_bin]; exact hP.coords⟩, rfl, rfl, hP.wx, hP.wy⟩
  constructor
  · show (Point.new_checked_vartime (from_bin (to_bin p.x)) (from_bin (to_bin p.y))).map _ = _
    rw [key]; rfl
  · obtain ⟨_, hd, henc⟩ := C64_uncompressed (PubKey.to_bytes_uncompressed ⟨p⟩)
    have hs : (PubKey.from_bytes_uncompressed (PubKey.to_bytes_uncompressed ⟨p⟩)).isSome :=
      (C64_uncompressed _).1.2 ⟨_, henc ⟨p⟩ _ hP, _, _, hP.coords, hne⟩
    obtain ⟨q, hq⟩ := Option.isSome_iff_exists.1 hs
    obtain ⟨e, A, hA, hU⟩ := hd q hq
    rw [hq]
    obtain ⟨q⟩ := q
    have hc : coords A = coords (val sk.k • G) := by
      rw [hU.2.2, (henc ⟨p⟩ _ hP).2.2]
    have : PointOf q (val sk.k • G) := ⟨hA.wx, hA.wy, by rw [← hc]; exact hA.coords⟩
    rw [(pointOf_iff.1 this).inj (pointOf_iff.1 hP)]

end Verif.P256
