import Verif.P256.Int256Lemmas
import Mathlib.Data.List.Induction

/-! Bits, shifts, bytes and powers of the 256-bit integers. -/

namespace Verif.P256

theorem val_take_drop (x : List UInt32) (k : Nat) (hk : k ≤ x.length) :
    val x = val (x.take k) + 4294967296 ^ k * val (x.drop k) := by
  conv_lhs => rw [← List.take_append_drop k x]
  rw [val_append, List.length_take, Nat.min_eq_left hk]

theorem val_div (x : List UInt32) (k : Nat) (hk : k ≤ x.length) :
    val x / 4294967296 ^ k = val (x.drop k) := by
  rw [val_take_drop x k hk]
  have h : val (x.take k) < 4294967296 ^ k := by
    have := val_lt (x.take k)
    rwa [List.length_take, Nat.min_eq_left hk] at this
  rw [Nat.add_mul_div_left _ _ (Nat.pow_pos (by norm_num)), Nat.div_eq_of_lt h, Nat.zero_add]

theorem getD_toNat (x : List UInt32) (k : Nat) (hk : k < x.length) :
    (x.getD k 0).toNat = val x / 4294967296 ^ k % 4294967296 := by
  rw [val_div x k hk.le, List.drop_eq_getElem_cons hk, val_cons]
  have := u32_lt x[k]
  simp [List.getElem?_eq_getElem hk]

namespace Int256

theorem bit_spec {x : Int256} (i : Nat) (hi : i < 32 * x.length) :
    (bit x i).toNat = val x / 2 ^ i % 2 := by
  unfold bit
  have h31 : i &&& 31 = i % 32 := by
    have := Nat.and_two_pow_sub_one_eq_mod i 5
    simpa using this
  have hk : i / 32 < x.length := by omega
  have hd := getD_toNat x (i / 32) hk
  generalize x.getD (i / 32) 0 = d at *
  rw [h31]
  have e1 : (UInt32.ofNat (i % 32)).toNat = i % 32 := by
    simp
    omega
  have e2 : ((d >>> UInt32.ofNat (i % 32)) &&& 1).toNat = d.toNat / 2 ^ (i % 32) % 2 := by
    rw [UInt32.toNat_and, UInt32.toNat_shiftRight, e1]
    have : i % 32 % 32 = i % 32 := by omega
    rw [this, Nat.shiftRight_eq_div_pow]
    exact Nat.and_one_is_mod _
  rw [e2, hd]
  have e3 : (2 : Nat) ^ i = 4294967296 ^ (i / 32) * 2 ^ (i % 32) := by
    rw [show (4294967296 : Nat) = 2 ^ 32 by norm_num, ← pow_mul, ← pow_add]
    congr 1; omega
  rw [e3, ← Nat.div_div_eq_div_mul]
  generalize val x / 4294967296 ^ (i / 32) = y
  have hr : i % 32 < 32 := Nat.mod_lt _ (by norm_num)
  generalize i % 32 = r at *
  have e4 : (4294967296 : Nat) = 2 ^ r * 2 ^ (32 - r) := by
    rw [← pow_add, show r + (32 - r) = 32 by omega]; norm_num
  rw [e4, Nat.mod_mul_right_div_self, Nat.mod_mod_of_dvd]
  exact dvd_pow_self 2 (by omega)

/-- Four bits in a row, as `modpow` and `scalar_mul` put them together. -/
theorem window_spec {x : Int256} (i : Nat) (hi : i + 4 ≤ 32 * x.length) :
    ((bit x (i + 3) <<< 3) ||| (bit x (i + 2) <<< 2) ||| (bit x (i + 1) <<< 1) ||| bit x i).toNat
      = val x / 2 ^ i % 16 := by
  have h0 := bit_spec (x := x) i (by omega)
  have h1 := bit_spec (x := x) (i + 1) (by omega)
  have h2 := bit_spec (x := x) (i + 2) (by omega)
  have h3 := bit_spec (x := x) (i + 3) (by omega)
  rw [pow_add, ← Nat.div_div_eq_div_mul] at h1 h2 h3
  generalize val x / 2 ^ i = y at *
  have key : ∀ b0 b1 b2 b3 : UInt32, b0.toNat < 2 → b1.toNat < 2 → b2.toNat < 2 → b3.toNat < 2 →
      ((b3 <<< 3) ||| (b2 <<< 2) ||| (b1 <<< 1) ||| b0).toNat
        = 8 * b3.toNat + 4 * b2.toNat + 2 * b1.toNat + b0.toNat := by
    intro b0 b1 b2 b3 h0 h1 h2 h3
    have c : ∀ b : UInt32, b.toNat < 2 → b = 0 ∨ b = 1 := by
      intro b hb
      have : b.toNat = 0 ∨ b.toNat = 1 := by omega
      rcases this with h | h
      · exact Or.inl (UInt32.toNat_inj.1 (by simpa using h))
      · exact Or.inr (UInt32.toNat_inj.1 (by simpa using h))
    rcases c b0 h0 with h | h <;> rcases c b1 h1 with h' | h' <;> rcases c b2 h2 with h'' | h'' <;>
      rcases c b3 h3 with h''' | h''' <;> subst h <;> subst h' <;> subst h'' <;> subst h''' <;> rfl
  rw [key _ _ _ _ (by omega) (by omega) (by omega) (by omega), h0, h1, h2, h3]
  omega

theorem or_add (a b k : Nat) (hb : b < 2 ^ k) : (2 ^ k * a ||| b) = 2 ^ k * a + b :=
  (Nat.two_pow_add_eq_or_of_lt hb a).symm

/-- One digit of `shl`. -/
theorem shl_digit (d p n : UInt32) (h0 : 0 < n.toNat) (h : n.toNat < 32) :
    ((d <<< n) ||| (p >>> (32 - n))).toNat
      = 2 ^ n.toNat * (d.toNat % 2 ^ (32 - n.toNat)) + p.toNat / 2 ^ (32 - n.toNat) := by
  have hp := u32_lt p
  have e0 : (32 - n : UInt32).toNat = 32 - n.toNat := by
    rw [UInt32.toNat_sub_of_le]
    · rfl
    · rw [UInt32.le_iff_toNat_le]; simpa using h.le
  rw [UInt32.toNat_or, UInt32.toNat_shiftLeft, UInt32.toNat_shiftRight, e0]
  have e1 : n.toNat % 32 = n.toNat := by omega
  have e2 : (32 - n.toNat) % 32 = 32 - n.toNat := by omega
  rw [e1, e2, Nat.shiftLeft_eq, Nat.shiftRight_eq_div_pow]
  generalize n.toNat = k at *
  have e4 : (2 : Nat) ^ 32 = 2 ^ k * 2 ^ (32 - k) := by
    rw [← pow_add, show k + (32 - k) = 32 by omega]
  rw [e4, Nat.mul_comm d.toNat, Nat.mul_mod_mul_left, or_add]
  rw [Nat.div_lt_iff_lt_mul (Nat.pow_pos (by norm_num)), ← e4]
  exact hp

theorem shlLoop_spec (n : UInt32) (h0 : 0 < n.toNat) (h : n.toNat < 32) :
    ∀ (ds : List UInt32) (p : UInt32), (shlLoop n p ds).length = ds.length ∧
      val (shlLoop n p ds) + 4294967296 ^ ds.length *
          (((p :: ds).getLastD 0).toNat / 2 ^ (32 - n.toNat))
        = 2 ^ n.toNat * val ds + p.toNat / 2 ^ (32 - n.toNat)
  | [], p => by simp [shlLoop]
  | d :: ds, p => by
    obtain ⟨l, h1⟩ := shlLoop_spec n h0 h ds d
    refine ⟨by simp [shlLoop, l], ?_⟩
    rw [shlLoop, val_cons, shl_digit _ _ _ h0 h, val_cons, List.length_cons, pow_succ]
    have e : ((p :: d :: ds).getLastD 0) = ((d :: ds).getLastD 0) := by
      simp [List.getLastD_eq_getLast?, List.getLast?_cons_cons]
    rw [e]
    generalize ((d :: ds).getLastD 0).toNat / 2 ^ (32 - n.toNat) = t at *
    generalize 4294967296 ^ ds.length = q at *
    have e4 : (4294967296 : Nat) = 2 ^ n.toNat * 2 ^ (32 - n.toNat) := by
      rw [← pow_add, show n.toNat + (32 - n.toNat) = 32 by omega]; norm_num
    have e5 := Nat.mod_add_div d.toNat (2 ^ (32 - n.toNat))
    generalize d.toNat % 2 ^ (32 - n.toNat) = dm at *
    generalize d.toNat / 2 ^ (32 - n.toNat) = dd at *
    rw [← e5]
    have h1' : 4294967296 * (val (shlLoop n d ds) + q * t)
        = 4294967296 * (2 ^ n.toNat * val ds + dd) := by rw [h1]
    generalize 2 ^ n.toNat = A at *
    generalize 2 ^ (32 - n.toNat) = B at *
    generalize val (shlLoop n d ds) = V at *
    linear_combination h1' + dd * e4

theorem shl_spec {x : Int256} (hx : Wf x) (n : UInt32) (h0 : 0 < n.toNat) (h : n.toNat < 32) :
    Wf (shl x n).1 ∧ (shl x n).2.toNat < 2 ^ n.toNat ∧
      val (shl x n).1 + 2 ^ 256 * (shl x n).2.toNat = 2 ^ n.toNat * val x := by
  cases x with
  | nil => simp [Wf] at hx
  | cons d ds =>
    have hds : ds.length = 7 := by simpa [Wf] using hx
    obtain ⟨l, h1⟩ := shlLoop_spec n h0 h ds d
    have e0 : (32 - n : UInt32).toNat = 32 - n.toNat := by
      rw [UInt32.toNat_sub_of_le]
      · rfl
      · rw [UInt32.le_iff_toNat_le]; simpa using h.le
    have e2 : (32 - n.toNat) % 32 = 32 - n.toNat := by omega
    have elast : (d :: ds).getD 7 0 = (d :: ds).getLastD 0 := by
      rw [List.getLastD_eq_getLast?, List.getLast?_eq_getElem?]
      simp [hds]
    have e3 : (shl (d :: ds) n).2.toNat = ((d :: ds).getLastD 0).toNat / 2 ^ (32 - n.toNat) := by
      simp only [shl]
      rw [UInt32.toNat_shiftRight, e0, e2, Nat.shiftRight_eq_div_pow, elast]
    have e4 : (4294967296 : Nat) = 2 ^ n.toNat * 2 ^ (32 - n.toNat) := by
      rw [← pow_add, show n.toNat + (32 - n.toNat) = 32 by omega]; norm_num
    refine ⟨by simp [shl, Wf, l, hds], ?_, ?_⟩
    · rw [e3, Nat.div_lt_iff_lt_mul (Nat.pow_pos (by norm_num)), ← e4]
      exact u32_lt _
    · rw [e3]
      have e6 : (shl (d :: ds) n).1 = ((d <<< n) ||| ((0 : UInt32) >>> (32 - n))) :: shlLoop n d ds := by
        simp [shl]
      rw [e6, val_cons, shl_digit _ _ _ h0 h, val_cons]
      rw [hds] at h1
      generalize ((d :: ds).getLastD 0).toNat / 2 ^ (32 - n.toNat) = t at *
      have e5 := Nat.mod_add_div d.toNat (2 ^ (32 - n.toNat))
      generalize d.toNat % 2 ^ (32 - n.toNat) = dm at *
      generalize d.toNat / 2 ^ (32 - n.toNat) = dd at *
      rw [← e5]
      simp only [UInt32.toNat_zero, Nat.zero_div, Nat.add_zero]
      generalize 2 ^ n.toNat = A at *
      generalize 2 ^ (32 - n.toNat) = B at *
      generalize val (shlLoop n d ds) = V at *
      linear_combination 4294967296 * h1 + dd * e4

theorem shr_spec (n : UInt32) (h0 : 0 < n.toNat) (h : n.toNat < 32) :
    ∀ x : List UInt32, (shr n x).length = x.length ∧ val (shr n x) = val x / 2 ^ n.toNat
  | [] => by simp [shr]
  | [d] => by
    have e1 : n.toNat % 32 = n.toNat := by omega
    simp [shr, Nat.shiftRight_eq_div_pow, e1]
  | d :: e :: ds => by
    obtain ⟨l, h1⟩ := shr_spec n h0 h (e :: ds)
    refine ⟨by simp [shr, l], ?_⟩
    have hn : (32 - n : UInt32).toNat = 32 - n.toNat := by
      rw [UInt32.toNat_sub_of_le]
      · rfl
      · rw [UInt32.le_iff_toNat_le]; simpa using h.le
    have hn' : (32 - (32 - n) : UInt32) = n := by
      apply UInt32.toNat_inj.1
      rw [UInt32.toNat_sub_of_le]
      · rw [hn]; simp; omega
      · rw [UInt32.le_iff_toNat_le, hn]; simp
    have hd := shl_digit e d (32 - n) (by omega) (by omega)
    rw [hn', hn, show 32 - (32 - n.toNat) = n.toNat by omega] at hd
    rw [shr, val_cons, h1, val_cons d, UInt32.or_comm, hd]
    have e4 : (4294967296 : Nat) = 2 ^ n.toNat * 2 ^ (32 - n.toNat) := by
      rw [← pow_add, show n.toNat + (32 - n.toNat) = 32 by omega]; norm_num
    have hv : val (e :: ds) % 2 ^ n.toNat = e.toNat % 2 ^ n.toNat := by
      rw [val_cons, e4, Nat.mul_assoc, Nat.add_mul_mod_self_left]
    have e5 := Nat.mod_add_div (val (e :: ds)) (2 ^ n.toNat)
    rw [hv] at e5
    have hA : 0 < 2 ^ n.toNat := Nat.pow_pos (by norm_num)
    generalize val (e :: ds) / 2 ^ n.toNat = vq at *
    generalize e.toNat % 2 ^ n.toNat = em at *
    generalize val (e :: ds) = v at *
    conv_rhs => rw [e4, Nat.mul_assoc, Nat.add_mul_div_left _ _ hA, ← e5]
    generalize 2 ^ n.toNat = A at *
    generalize 2 ^ (32 - n.toNat) = B at *
    linear_combination vq * e4

/-! ### Bytes -/

/-- The number a sequence of bytes stands for, most significant byte first. -/
def beNat (bs : List UInt8) : Nat := bs.foldl (fun acc b => 256 * acc + b.toNat) 0

theorem beNat_append (a b : List UInt8) : beNat (a ++ b) = beNat a * 256 ^ b.length + beNat b := by
  have key : ∀ (b : List UInt8) (acc : Nat), b.foldl (fun acc b => 256 * acc + b.toNat) acc
      = acc * 256 ^ b.length + beNat b := by
    intro b
    induction b with
    | nil => intro acc; simp [beNat]
    | cons x b ih =>
      intro acc
      simp only [List.foldl_cons, List.length_cons, beNat]
      rw [ih, ih (256 * 0 + x.toNat), pow_succ]
      ring
  unfold beNat
  rw [List.foldl_append, key]
  rfl

theorem beNat_lt (a : List UInt8) : beNat a < 256 ^ a.length := by
  induction a using List.reverseRecOn with
  | nil => simp [beNat]
  | append_singleton a x ih =>
    rw [beNat_append]
    have : x.toNat < 256 := x.toNat_lt
    simp [beNat, pow_succ] at *
    omega

theorem beNat_inj {a b : List UInt8} (hl : a.length = b.length) (h : beNat a = beNat b) : a = b := by
  induction a using List.reverseRecOn generalizing b with
  | nil => cases b with
    | nil => rfl
    | cons _ _ => simp at hl
  | append_singleton a x ih =>
    rcases List.eq_nil_or_concat b with rfl | ⟨b, y, rfl⟩
    · simp at hl
    · rw [List.concat_eq_append] at *
      rw [beNat_append, beNat_append] at h
      have hx : x.toNat < 256 := x.toNat_lt
      have hy : y.toNat < 256 := y.toNat_lt
      simp [beNat] at h
      have h1 : beNat a = beNat b := by unfold beNat; omega
      have h2 : x.toNat = y.toNat := by omega
      rw [ih (by simpa using hl) h1, UInt8.toNat_inj.1 h2]

theorem or_bytes (a b c d : Nat) (hb : b < 256) (hc : c < 256) (hd : d < 256) :
    a * 2 ^ 24 ||| b * 2 ^ 16 ||| c * 2 ^ 8 ||| d = a * 2 ^ 24 + b * 2 ^ 16 + c * 2 ^ 8 + d := by
  rw [Nat.mul_comm a, or_add _ _ 24 (by omega)]
  rw [show 2 ^ 24 * a + b * 2 ^ 16 = 2 ^ 16 * (2 ^ 8 * a + b) by ring, or_add _ _ 16 (by omega)]
  rw [show 2 ^ 16 * (2 ^ 8 * a + b) + c * 2 ^ 8 = 2 ^ 8 * (2 ^ 8 * (2 ^ 8 * a + b) + c) by ring,
    or_add _ _ 8 (by omega)]

theorem readU32_spec (a b c d : UInt8) : (readU32 [a, b, c, d]).toNat = beNat [a, b, c, d] := by
  have ha : a.toNat < 256 := a.toNat_lt
  have hb : b.toNat < 256 := b.toNat_lt
  have hc : c.toNat < 256 := c.toNat_lt
  have hd : d.toNat < 256 := d.toNat_lt
  unfold readU32
  rw [UInt32.toNat_or, UInt32.toNat_or, UInt32.toNat_or, UInt32.toNat_shiftLeft,
    UInt32.toNat_shiftLeft, UInt32.toNat_shiftLeft]
  simp only [UInt8.toNat_toUInt32, Nat.shiftLeft_eq]
  have e1 : a.toNat * 2 ^ ((24 : UInt32).toNat % 32) % 2 ^ 32 = a.toNat * 2 ^ 24 := by
    rw [show (24 : UInt32).toNat % 32 = 24 from rfl]; omega
  have e2 : b.toNat * 2 ^ ((16 : UInt32).toNat % 32) % 2 ^ 32 = b.toNat * 2 ^ 16 := by
    rw [show (16 : UInt32).toNat % 32 = 16 from rfl]; omega
  have e3 : c.toNat * 2 ^ ((8 : UInt32).toNat % 32) % 2 ^ 32 = c.toNat * 2 ^ 8 := by
    rw [show (8 : UInt32).toNat % 32 = 8 from rfl]; omega
  rw [e1, e2, e3, or_bytes _ _ _ _ hb hc hd]
  simp [beNat]
  omega

theorem writeU32_spec (x : UInt32) : beNat (writeU32 x) = x.toNat := by
  have hx := u32_lt x
  simp only [beNat, writeU32, List.foldl_cons, List.foldl_nil, UInt32.toNat_toUInt8,
    UInt32.toNat_shiftRight, Nat.shiftRight_eq_div_pow]
  rw [show (24 : UInt32).toNat % 32 = 24 from rfl, show (16 : UInt32).toNat % 32 = 16 from rfl,
    show (8 : UInt32).toNat % 32 = 8 from rfl]
  omega

theorem fromBinLoop_spec : ∀ (n : Nat) (src : List UInt8) (acc : Int256), src.length = 4 * n →
    (fromBinLoop n src acc).length = n + acc.length ∧
    val (fromBinLoop n src acc) = beNat src + 256 ^ src.length * val acc
  | 0, src, acc, h => by
    have : src = [] := List.length_eq_zero_iff.1 (by simpa using h)
    simp [fromBinLoop, this, beNat]
  | n + 1, src, acc, h => by
    match src, h with
    | a :: b :: c :: d :: src, h =>
      obtain ⟨l, h1⟩ := fromBinLoop_spec n src (readU32 [a, b, c, d] :: acc)
        (by simp at h; omega)
      have e : fromBinLoop (n + 1) (a :: b :: c :: d :: src) acc
          = fromBinLoop n src (readU32 [a, b, c, d] :: acc) := rfl
      rw [e]
      refine ⟨by rw [l]; simp; omega, ?_⟩
      rw [h1, val_cons, readU32_spec]
      have e2 : a :: b :: c :: d :: src = [a, b, c, d] ++ src := rfl
      rw [e2, beNat_append, List.length_append, pow_add]
      simp only [List.length_cons, List.length_nil]
      ring
    | [], h => simp at h
    | [_], h => simp at h; omega
    | [_, _], h => simp at h; omega
    | [_, _, _], h => simp at h; omega

theorem from_bin_spec {src : List UInt8} (h : src.length = 32) :
    Wf (from_bin src) ∧ val (from_bin src) = beNat src := by
  obtain ⟨l, h1⟩ := fromBinLoop_spec 8 src [] h
  refine ⟨l, ?_⟩
  rw [val_nil, Nat.mul_zero, Nat.add_zero] at h1
  exact h1

theorem to_bin_spec : ∀ x : Int256, (to_bin x).length = 4 * x.length ∧ beNat (to_bin x) = val x
  | [] => by simp [to_bin, beNat]
  | d :: ds => by
    obtain ⟨l, h1⟩ := to_bin_spec ds
    have e : to_bin (d :: ds) = to_bin ds ++ writeU32 d := by simp [to_bin]
    rw [e, List.length_append, l, beNat_append, h1, writeU32_spec]
    simp [writeU32]
    omega

theorem to_bin_from_bin {src : List UInt8} (h : src.length = 32) : to_bin (from_bin src) = src := by
  obtain ⟨l, h1⟩ := from_bin_spec h
  obtain ⟨l2, h2⟩ := to_bin_spec (from_bin src)
  exact beNat_inj (by rw [l2, l, h]) (by rw [h2, h1])

theorem from_bin_to_bin {x : Int256} (h : Wf x) : from_bin (to_bin x) = x := by
  obtain ⟨l2, h2⟩ := to_bin_spec x
  rw [h] at l2
  obtain ⟨l, h1⟩ := from_bin_spec l2
  exact val_inj (l.trans h.symm) (by rw [h1, h2])

/-! ### Powers -/

theorem powTable_spec {x m : Int256} (hx : Wf x) (hm : Wf m) (hmv : 2 ^ 256 - 2 ^ 224 ≤ val m) :
    ∀ (n : Nat) (cur : Int256) (i : Nat), Wf cur → i < n →
      Wf ((powTable x m n cur).getD i []) ∧
      val ((powTable x m n cur).getD i []) ≡ val cur * val x ^ i [MOD val m]
  | 0, _, _, _, h => by omega
  | n + 1, cur, 0, hc, _ => by simp [powTable, hc, Nat.ModEq]
  | n + 1, cur, i + 1, hc, h => by
    obtain ⟨w, hv⟩ := modmul_spec hc hx hm hmv
    obtain ⟨h1, h2⟩ := powTable_spec hx hm hmv n (modmul cur x m) i w (by omega)
    rw [powTable]
    simp only [List.getD_cons_succ]
    refine ⟨h1, h2.trans ?_⟩
    rw [hv, pow_succ]
    have e : val cur * (val x ^ i * val x) = val cur * val x * val x ^ i := by ring
    rw [e]
    exact (Nat.mod_modEq _ _).mul_right _

theorem select_foldl {α : Type} (tbl : List α) (dflt z : α) (idx : UInt32) :
    ∀ n, n ≤ 15 → (List.range n).foldl
      (fun acc i => if UInt32.ofNat (i + 1) == idx then tbl.getD i dflt else acc) z
      = if 1 ≤ idx.toNat ∧ idx.toNat ≤ n then tbl.getD (idx.toNat - 1) dflt else z
  | 0, _ => by
    simp only [List.range_zero, List.foldl_nil]
    rw [if_neg (by omega)]
  | n + 1, h => by
    rw [List.range_succ, List.foldl_append, select_foldl tbl dflt z idx n (by omega)]
    simp only [List.foldl_cons, List.foldl_nil]
    have e : (UInt32.ofNat (n + 1)).toNat = n + 1 := by simp; omega
    by_cases hi : idx.toNat = n + 1
    · have : (UInt32.ofNat (n + 1) == idx) = true := by
        simp only [beq_iff_eq]
        exact UInt32.toNat_inj.1 (by rw [e, hi])
      rw [if_pos this, if_pos (by omega), hi]
      rfl
    · have : ¬ (UInt32.ofNat (n + 1) == idx) = true := by
        simp only [beq_iff_eq]
        intro h; rw [← h, e] at hi; exact hi rfl
      rw [if_neg this]
      by_cases h2 : 1 ≤ idx.toNat ∧ idx.toNat ≤ n
      · rw [if_pos h2, if_pos (by omega)]
      · rw [if_neg h2, if_neg (by omega)]

theorem modpowStep_spec {x m power r : Int256} (hx : Wf x) (hm : Wf m) (hp : Wf power)
    (hmv : 2 ^ 256 - 2 ^ 224 ≤ val m) (i : Nat) (hi : i + 4 ≤ 256) (hr : Wf r)
    (hrv : val r = val x ^ (val power / 2 ^ (i + 4)) % val m) :
    Wf (modpowStep (powTable x m 15 x) power m r (i + 4)) ∧
      val (modpowStep (powTable x m 15 x) power m r (i + 4))
        = val x ^ (val power / 2 ^ i) % val m := by
  unfold modpowStep
  simp only
  obtain ⟨w1, v1⟩ := modmul_spec hr hr hm hmv
  obtain ⟨w2, v2⟩ := modmul_spec w1 w1 hm hmv
  obtain ⟨w3, v3⟩ := modmul_spec w2 w2 hm hmv
  obtain ⟨w4, v4⟩ := modmul_spec w3 w3 hm hmv
  have e1 : i + 4 - 1 = i + 3 := by omega
  have e2 : i + 4 - 2 = i + 2 := by omega
  have e3 : i + 4 - 3 = i + 1 := by omega
  have e4 : i + 4 - 4 = i := by omega
  rw [e1, e2, e3, e4]
  have hidx := window_spec (x := power) i (by rw [hp]; omega)
  generalize (bit power (i + 3) <<< 3) ||| (bit power (i + 2) <<< 2) |||
    (bit power (i + 1) <<< 1) ||| bit power i = idx at *
  generalize modmul r r m = r1 at *
  generalize modmul r1 r1 m = r2 at *
  generalize modmul r2 r2 m = r3 at *
  generalize modmul r3 r3 m = r4 at *
  have hsq : val r4 = val x ^ (16 * (val power / 2 ^ (i + 4))) % val m := by
    have h16 : val x ^ (16 * (val power / 2 ^ (i + 4)))
        = (val x ^ (val power / 2 ^ (i + 4))) ^ 16 := by rw [← pow_mul, Nat.mul_comm]
    rw [h16]
    generalize val x ^ (val power / 2 ^ (i + 4)) = y at *
    rw [v4, v3, v2, v1, hrv]
    simp only [Nat.mul_mod_mod, Nat.mod_mul_mod]
    congr 1
    ring
  have hdiv : val power / 2 ^ i = 16 * (val power / 2 ^ (i + 4)) + idx.toNat := by
    rw [hidx, pow_add, ← Nat.div_div_eq_div_mul]
    omega
  rw [hdiv]
  unfold tblSelect
  rw [select_foldl _ _ _ _ 15 (by omega)]
  by_cases h0 : idx = 0
  · subst h0
    simp only [bne_self_eq_false, Bool.false_eq_true, if_false]
    exact ⟨w4, hsq⟩
  · have hne : idx.toNat ≠ 0 := fun h => h0 (UInt32.toNat_inj.1 (by simpa using h))
    have hb : (idx != 0) = true := by simpa using h0
    rw [if_pos hb, if_pos (by omega)]
    obtain ⟨wt, vt⟩ := powTable_spec hx hm hmv 15 x (idx.toNat - 1) hx (by omega)
    obtain ⟨w5, v5⟩ := modmul_spec wt w4 hm hmv
    refine ⟨w5, ?_⟩
    rw [v5, hsq]
    have h6 := vt.mul (Nat.mod_modEq (val x ^ (16 * (val power / 2 ^ (i + 4)))) (val m))
    unfold Nat.ModEq at h6
    rw [h6]
    congr 1
    obtain ⟨k, hk⟩ : ∃ k, idx.toNat = k + 1 := ⟨idx.toNat - 1, by omega⟩
    rw [pow_add, hk, Nat.add_sub_cancel, pow_succ]
    ring

/-- `modpow` is exponentiation modulo a modulus with the most significant digit 0xffffffff. -/
theorem modpow_spec {x power m : Int256} (hx : Wf x) (hp : Wf power) (hm : Wf m)
    (hmv : 2 ^ 256 - 2 ^ 224 ≤ val m) :
    Wf (modpow x power m) ∧ val (modpow x power m) = val x ^ val power % val m := by
  have key : ∀ k, k ≤ 64 →
      Wf ((List.range k).foldl
        (fun r j => modpowStep (powTable x m 15 x) power m r (256 - 4 * j)) ONE) ∧
      val ((List.range k).foldl
        (fun r j => modpowStep (powTable x m 15 x) power m r (256 - 4 * j)) ONE)
        = val x ^ (val power / 2 ^ (256 - 4 * k)) % val m := by
    intro k
    induction k with
    | zero =>
      intro _
      have h1 : val ONE = 1 := rfl
      have h2 : val power / 2 ^ (256 - 4 * 0) = 0 := Nat.div_eq_of_lt (val_lt8 hp)
      refine ⟨rfl, ?_⟩
      rw [h2, List.range_zero, List.foldl_nil, h1, pow_zero, Nat.mod_eq_of_lt]
      omega
    | succ k ih =>
      intro hk
      obtain ⟨w, v⟩ := ih (by omega)
      rw [List.range_succ, List.foldl_append]
      simp only [List.foldl_cons, List.foldl_nil]
      have e : 256 - 4 * k = (256 - 4 * (k + 1)) + 4 := by omega
      rw [e] at v ⊢
      exact modpowStep_spec hx hm hp hmv _ (by omega) w v
  have := key 64 (Nat.le_refl _)
  simpa [modpow] using this

end Int256

end Verif.P256
