import Verif.Crypto.ShaModel
import Verif.Crypto.ShaSpec
namespace Verif.Crypto.Sha
open Verif.Crypto

/-! ## Word operations -/

def Vars.toV (v : Vars) : Spec.V := fun i => match i with
  | 0 => v.a.toBitVec | 1 => v.b.toBitVec | 2 => v.c.toBitVec | 3 => v.d.toBitVec
  | 4 => v.e.toBitVec | 5 => v.f.toBitVec | 6 => v.g.toBitVec | 7 => v.h.toBitVec

def KSpec (t : Nat) : Spec.W := (K.getD t 0).toBitVec
def HSpec : Spec.V := (Vars.ofList H0).toV

theorem choice_eq (e f g : UInt32) : (choice e f g).toBitVec = Spec.Ch e.toBitVec f.toBitVec g.toBitVec := rfl
theorem majority_eq (e f g : UInt32) : (majority e f g).toBitVec = Spec.Maj e.toBitVec f.toBitVec g.toBitVec := rfl

theorem bsig0_eq (x : UInt32) : (bsig0 x).toBitVec = Spec.Sigma0 x.toBitVec := by
  simp [bsig0, Spec.Sigma0, rotr, BitVec.rotateRight_def]
theorem bsig1_eq (x : UInt32) : (bsig1 x).toBitVec = Spec.Sigma1 x.toBitVec := by
  simp [bsig1, Spec.Sigma1, rotr, BitVec.rotateRight_def]
theorem ssig0_eq (x : UInt32) : (ssig0 x).toBitVec = Spec.sigma0 x.toBitVec := by
  simp [ssig0, Spec.sigma0, rotr, BitVec.rotateRight_def]
theorem ssig1_eq (x : UInt32) : (ssig1 x).toBitVec = Spec.sigma1 x.toBitVec := by
  simp [ssig1, Spec.sigma1, rotr, BitVec.rotateRight_def]

theorem or_shift (a b i : Nat) (h : b < 2 ^ i) : (a <<< i) ||| b = a * 2 ^ i + b := by
  rw [← Nat.shiftLeft_add_eq_or_of_lt h, Nat.shiftLeft_eq]

theorem readU32_eq (b0 b1 b2 b3 : UInt8) :
    (readU32 [b0, b1, b2, b3]).toBitVec = BitVec.ofNat 32 (Spec.ofBe [b0, b1, b2, b3]) := by
  have h0 := b0.toNat_lt; have h1 := b1.toNat_lt; have h2 := b2.toNat_lt; have h3 := b3.toNat_lt
  apply BitVec.eq_of_toNat_eq
  have e : ∀ (x : UInt8) (k : Nat), k ≤ 24 → (x.toNat <<< k) % 2 ^ 32 = x.toNat <<< k := by
    intro x k hk
    apply Nat.mod_eq_of_lt
    rw [Nat.shiftLeft_eq]
    have := x.toNat_lt
    calc x.toNat * 2 ^ k < 2 ^ 8 * 2 ^ k := Nat.mul_lt_mul_of_pos_right this (Nat.two_pow_pos k)
      _ = 2 ^ (8 + k) := (Nat.pow_add ..).symm
      _ ≤ 2 ^ 32 := Nat.pow_le_pow_right (by omega) (by omega)
  have e1 : (readU32 [b0, b1, b2, b3]).toNat =
      ((b0.toNat <<< 24 ||| b1.toNat <<< 16) ||| b2.toNat <<< 8) ||| b3.toNat := by
    simp [readU32, e]
  have e2 : Spec.ofBe [b0, b1, b2, b3] = ((b0.toNat * 256 + b1.toNat) * 256 + b2.toNat) * 256 + b3.toNat := by
    simp [Spec.ofBe]
  change (readU32 [b0, b1, b2, b3]).toNat = _
  rw [e1, e2, BitVec.toNat_ofNat]
  rw [Nat.or_assoc, Nat.or_assoc, or_shift b2.toNat b3.toNat 8 (by omega)]
  rw [or_shift b1.toNat _ 16 (by omega), or_shift b0.toNat _ 24 (by omega)]
  omega

theorem be4_eq (x : UInt32) : writeU32 x = Spec.be 4 x.toBitVec.toNat := by
  change writeU32 x = Spec.be 4 x.toNat
  have e : Spec.be 4 x.toNat = [UInt8.ofNat (x.toNat / 256 / 256 / 256 % 256), UInt8.ofNat (x.toNat / 256 / 256 % 256),
    UInt8.ofNat (x.toNat / 256 % 256), UInt8.ofNat (x.toNat % 256)] := rfl
  rw [e]
  unfold writeU32
  have s : ∀ (k : UInt32) (n : Nat), k.toNat = n → n < 32 → (x >>> k).toNat = x.toNat / 2 ^ n := by
    intro k n hk hn
    rw [UInt32.toNat_shiftRight, hk, Nat.mod_eq_of_lt hn, Nat.shiftRight_eq_div_pow]
  have s24 := s 24 24 rfl (by omega)
  have s16 := s 16 16 rfl (by omega)
  have s8 := s 8 8 rfl (by omega)
  have g : ∀ (y : UInt32) (n : Nat), y.toNat % 256 = n % 256 → y.toUInt8 = UInt8.ofNat (n % 256) := by
    intro y n h
    apply UInt8.toNat_inj.1
    simp [h]
  rw [g (x >>> 24) (x.toNat / 256 / 256 / 256) (by rw [s24, Nat.div_div_eq_div_mul, Nat.div_div_eq_div_mul]),
    g (x >>> 16) (x.toNat / 256 / 256) (by rw [s16, Nat.div_div_eq_div_mul]),
    g (x >>> 8) (x.toNat / 256) (by rw [s8]), g x x.toNat rfl]

/-! ## Compression -/

theorem schedule_aux (block : Bytes) : ∀ n, ∀ w : List UInt32, w.length = 16 →
    (∀ i, i < 16 → (w.getD i 0).toBitVec = Spec.Wt block i) →
    let r := (List.range' 16 n).foldl (fun w i =>
      w ++ [w.getD (i - 16) 0 + ssig0 (w.getD (i - 15) 0) + w.getD (i - 7) 0 + ssig1 (w.getD (i - 2) 0)]) w
    r.length = 16 + n ∧ ∀ i, i < 16 + n → (r.getD i 0).toBitVec = Spec.Wt block i := by
  intro n
  induction n with
  | zero => intro w hl hw; exact ⟨hl, hw⟩
  | succ n ih =>
    intro w hl hw
    obtain ⟨h1, h2⟩ := ih w hl hw
    rw [List.range'_1_concat, List.foldl_append]
    generalize (List.range' 16 n).foldl _ w = r at *
    simp only [List.foldl_cons, List.foldl_nil]
    constructor
    · simp [h1]; omega
    · intro i hi
      by_cases hi' : i < 16 + n
      · rw [List.getD_eq_getElem?_getD, List.getElem?_append_left (by omega), ← List.getD_eq_getElem?_getD]
        exact h2 i hi'
      · have : i = 16 + n := by omega
        subst this
        rw [List.getD_eq_getElem?_getD, List.getElem?_append_right (by omega)]
        simp only [h1, Nat.sub_self, List.getElem?_cons_zero, Option.getD_some, UInt32.toBitVec_add, ssig0_eq, ssig1_eq]
        rw [h2 _ (by omega), h2 _ (by omega), h2 _ (by omega), h2 _ (by omega)]
        conv => rhs; rw [Spec.Wt]
        have : ¬ 16 + n < 16 := by omega
        simp only [this, dite_false]
        ac_rfl

theorem exists4 {b : Bytes} (h : b.length = 4) : ∃ b0 b1 b2 b3, b = [b0, b1, b2, b3] := by
  match b, h with
  | [b0, b1, b2, b3], _ => exact ⟨b0, b1, b2, b3, rfl⟩

theorem schedule_eq (block : Bytes) (hb : block.length = 64) (i : Nat) (hi : i < 64) :
    ((schedule block).getD i 0).toBitVec = Spec.Wt block i := by
  unfold schedule
  generalize hw : (List.range 16).map (fun i => readU32 ((block.drop (4 * i)).take 4)) = w0
  have hl : w0.length = 16 := by rw [← hw]; simp
  refine (schedule_aux block 48 w0 hl ?_).2 i hi
  intro i hi
  rw [← hw]
  have : ((block.drop (4 * i)).take 4).length = 4 := by simp [hb]; omega
  obtain ⟨b0, b1, b2, b3, e⟩ := exists4 this
  rw [Spec.Wt]
  simp only [hi, dite_true, List.getD_eq_getElem?_getD, List.getElem?_map, List.getElem?_range hi, Option.map_some,
    Option.getD_some, e, readU32_eq]

theorem round_eq (block : Bytes) (hb : block.length = 64) (v : Vars) (t : Nat) (ht : t < 64) :
    (round v (K.getD t 0) ((schedule block).getD t 0)).toV = Spec.step KSpec block v.toV t := by
  have hw := schedule_eq block hb t ht
  generalize (schedule block).getD t 0 = w at *
  funext i
  match i with
  | 0 | 1 | 2 | 3 | 4 | 5 | 6 | 7 =>
    simp [Vars.toV, round, Spec.step, ← hw, KSpec, bsig0_eq, bsig1_eq, choice_eq, majority_eq]

theorem hashBlock_eq (block : Bytes) (hb : block.length = 64) (v : Vars) :
    (hashBlock v block).toV = Spec.compress KSpec v.toV block := by
  have key : ∀ n, n ≤ 64 → ((List.range n).foldl (fun v i => round v (K.getD i 0) ((schedule block).getD i 0)) v).toV =
      Spec.steps KSpec block v.toV n := by
    intro n
    induction n with
    | zero => intro _; rfl
    | succ n ih =>
      intro hn
      rw [List.range_succ, List.foldl_append]
      simp only [List.foldl_cons, List.foldl_nil]
      rw [round_eq block hb _ n (by omega), ih (by omega)]
      rfl
  have h := key 64 (by omega)
  funext i
  unfold Spec.compress hashBlock
  rw [← h]
  simp only []
  generalize (List.range 64).foldl _ v = u
  match i with
  | 0 | 1 | 2 | 3 | 4 | 5 | 6 | 7 => simp [Vars.toV, BitVec.add_comm]

/-! ## Streaming -/

/-- State after the full blocks of a message. -/
def absorb (m : Bytes) : Vars := (Spec.blocks m).foldl hashBlock (Vars.ofList H0)

theorem blocks_short {b : Bytes} (h : b.length < 64) : Spec.blocks b = [] := by
  rw [Spec.blocks]; simp [h]

theorem blocks_long {b : Bytes} (h : 64 ≤ b.length) : Spec.blocks b = b.take 64 :: Spec.blocks (b.drop 64) := by
  rw [Spec.blocks]; have : ¬ b.length < 64 := by omega
  simp [this]

theorem blocks_append (a b : Bytes) (h : a.length % 64 = 0) : Spec.blocks (a ++ b) = Spec.blocks a ++ Spec.blocks b := by
  induction hn : a.length using Nat.strongRecOn generalizing a with
  | _ n ih =>
    by_cases h64 : a.length < 64
    · have : a = [] := by
        apply List.eq_nil_of_length_eq_zero; omega
      subst this; rw [blocks_short (b := []) (by simp)]; rfl
    · have h64 : 64 ≤ a.length := by omega
      rw [blocks_long h64, blocks_long (b := a ++ b) (by simp; omega)]
      rw [List.take_append_of_le_length h64, List.drop_append_of_le_length h64]
      rw [ih (a.drop 64).length (by simp; omega) (a.drop 64) (by simp; omega) rfl]
      rfl

theorem blocks_drop_tail (a : Bytes) : Spec.blocks a = Spec.blocks (a.take (a.length / 64 * 64)) := by
  conv => lhs; rw [← List.take_append_drop (a.length / 64 * 64) a]
  rw [blocks_append _ _ (by simp; omega), blocks_short (b := a.drop _) (by simp; omega)]
  simp

theorem fullBlocks_eq (v : Vars) (c : Bytes) :
    fullBlocks v c = ((Spec.blocks c).foldl hashBlock v, c.drop (c.length / 64 * 64)) := by
  induction hn : c.length using Nat.strongRecOn generalizing c v with
  | _ n ih =>
    rw [fullBlocks]
    by_cases h : c.length < 64
    · have : n / 64 * 64 = 0 := by omega
      rw [blocks_short h, this]; simp [h]
    · have h64 : 64 ≤ c.length := by omega
      simp only [h, if_false]
      rw [ih (c.drop 64).length (by simp; omega) _ (c.drop 64) rfl, blocks_long h64]
      simp only [List.foldl_cons, List.drop_drop, List.length_drop]
      congr 2
      omega

/-- The invariant: the hasher has been fed exactly `m`. -/
structure Fed (s : Hasher) (m : Bytes) : Prop where
  st : s.state = absorb m
  len : s.block.length = 64
  buf : s.block.take (m.length % 64) = m.drop (m.length / 64 * 64)
  total : s.totalLen = m.length

theorem fed_new : Fed new [] := ⟨by simp [new, absorb, blocks_short], by simp [new], by simp, rfl⟩

theorem copyAt_len (b : Bytes) (i : Nat) (src : Bytes) (h : i + src.length ≤ b.length) :
    (copyAt b i src).length = b.length := by
  simp [copyAt]; omega

theorem absorb_append (m c : Bytes) (h : 64 ≤ m.length % 64 + c.length) :
    absorb (m ++ c) = (Spec.blocks (c.drop (64 - m.length % 64))).foldl hashBlock
      (hashBlock (absorb m) (m.drop (m.length / 64 * 64) ++ c.take (64 - m.length % 64))) := by
  have hs : m ++ c = m.take (m.length / 64 * 64) ++ ((m.drop (m.length / 64 * 64) ++ c.take (64 - m.length % 64)) ++
      c.drop (64 - m.length % 64)) := by
    rw [List.append_assoc, List.take_append_drop, ← List.append_assoc, List.take_append_drop]
  have hl : (m.drop (m.length / 64 * 64) ++ c.take (64 - m.length % 64)).length = 64 := by
    simp; omega
  unfold absorb
  conv => lhs; rw [hs]
  rw [blocks_append _ _ (by simp; omega), blocks_append _ _ (by rw [hl]), ← blocks_drop_tail]
  generalize m.drop (m.length / 64 * 64) ++ c.take (64 - m.length % 64) = bb at *
  rw [blocks_long (b := bb) (by omega)]
  rw [List.take_of_length_le (l := bb) (by omega), List.drop_of_length_le (l := bb) (by omega),
    blocks_short (b := []) (by simp)]
  simp

theorem fed_update {w : Nat} {s : Hasher} {m : Bytes} (h : Fed s m) (c : Bytes) (hw : (m ++ c).length < 2 ^ w) :
    Fed (update w s c) (m ++ c) := by
  have hml : (m ++ c).length = m.length + c.length := by simp
  have htot : (s.totalLen + c.length) % 2 ^ w = m.length + c.length := by
    rw [h.total, Nat.mod_eq_of_lt (by omega)]
  unfold update
  simp only [h.total]
  rw [h.total] at htot
  by_cases hc : c.length < 64 - m.length % 64
  · simp only [hc, if_true, htot]
    have e1 : (m.length + c.length) / 64 = m.length / 64 := by omega
    have e2 : (m.length + c.length) % 64 = m.length % 64 + c.length := by omega
    refine ⟨?_, ?_, ?_, by simp⟩
    · rw [h.st, absorb, absorb, blocks_drop_tail (m ++ c), hml, e1, blocks_drop_tail m]
      rw [List.take_append_of_le_length (by omega)]
    · rw [copyAt_len _ _ _ (by rw [h.len]; omega), h.len]
    · rw [hml, e1, e2, List.drop_append_of_le_length (by omega), ← h.buf]
      unfold copyAt
      rw [List.take_append_of_le_length (by simp [h.len]; omega), List.take_of_length_le (by simp [h.len]; omega)]
  · simp only [hc, if_false, htot, fullBlocks_eq]
    have hblk : copyAt s.block (m.length % 64) (c.take (64 - m.length % 64)) =
        m.drop (m.length / 64 * 64) ++ c.take (64 - m.length % 64) := by
      unfold copyAt
      rw [h.buf]
      have : s.block.drop (m.length % 64 + (c.take (64 - m.length % 64)).length) = [] := by
        apply List.drop_of_length_le; simp [h.len]; omega
      rw [this, List.append_nil]
    have hbl : (m.drop (m.length / 64 * 64) ++ c.take (64 - m.length % 64)).length = 64 := by simp; omega
    rw [hblk]
    have hrl : ((c.drop (64 - m.length % 64)).drop ((c.drop (64 - m.length % 64)).length / 64 * 64)).length =
        (m.length + c.length) % 64 := by simp; omega
    refine ⟨?_, ?_, ?_, by simp⟩
    · rw [absorb_append m c (by omega), h.st]
    · rw [copyAt_len _ _ _ (by rw [hrl, hbl]; omega), hbl]
    · rw [hml]
      unfold copyAt
      simp only [List.take_zero, List.nil_append]
      rw [List.take_append_of_le_length (by omega), List.take_of_length_le (by omega)]
      rw [List.drop_append, List.drop_of_length_le (l := m) (by omega), List.nil_append, List.drop_drop]
      congr 1
      simp; omega

theorem writeU64_eq (n : Nat) : writeU64 n = Spec.be 8 n := by
  simp only [writeU64, List.map_cons, List.map_nil, Spec.be, List.nil_append, List.cons_append]
  have e : ∀ a b : Nat, a % 256 = b % 256 → UInt8.ofNat a = UInt8.ofNat b := by
    intro a b h; apply UInt8.toNat_inj.1; simp [h]
  simp only [List.cons.injEq, and_true]
  refine ⟨?_, ?_, ?_, ?_, ?_, ?_, ?_, ?_⟩ <;> apply e <;> (try simp only [Nat.div_div_eq_div_mul]) <;> omega

theorem be_len : ∀ n x, (Spec.be n x).length = n
  | 0, _ => rfl
  | n + 1, x => by simp [Spec.be, be_len n]

/-- `finalize` hashes the padded rest. -/
theorem finalize_state {s : Hasher} {m : Bytes} (h : Fed s m) (hlen : m.length < 2 ^ 61) :
    finalize s = [(absorb (Spec.pad m)).a, (absorb (Spec.pad m)).b, (absorb (Spec.pad m)).c, (absorb (Spec.pad m)).d,
      (absorb (Spec.pad m)).e, (absorb (Spec.pad m)).f, (absorb (Spec.pad m)).g, (absorb (Spec.pad m)).h].flatMap writeU32 := by
  have hmod : m.length * 8 % 2 ^ 64 = 8 * m.length := by
    rw [Nat.mod_eq_of_lt (by omega)]; omega
  -- the first padded block
  have hblk : (s.block.set (m.length % 64) 0x80).take (m.length % 64 + 1) = m.drop (m.length / 64 * 64) ++ [0x80] := by
    rw [← h.buf]
    have : m.length % 64 < (s.block.set (m.length % 64) 0x80).length := by simp [h.len]; omega
    rw [List.take_succ_eq_append_getElem this]
    simp [List.take_set_of_le]
  have hdl : (m.drop (m.length / 64 * 64)).length = m.length % 64 := by simp; omega
  have habs : ∀ t : Bytes, absorb (m ++ t) = (Spec.blocks (m.drop (m.length / 64 * 64) ++ t)).foldl hashBlock (absorb m) := by
    intro t
    have : m ++ t = m.take (m.length / 64 * 64) ++ (m.drop (m.length / 64 * 64) ++ t) := by
      rw [← List.append_assoc, List.take_append_drop]
    conv => lhs; rw [this]
    unfold absorb
    rw [blocks_append _ _ (by simp; omega), ← blocks_drop_tail, List.foldl_append]
  have one : ∀ (v : Vars) (b : Bytes), b.length = 64 → (Spec.blocks b).foldl hashBlock v = hashBlock v b := by
    intro v b hb
    rw [blocks_long (by omega), List.take_of_length_le (by omega), List.drop_of_length_le (by omega),
      blocks_short (b := []) (by simp)]
    rfl
  unfold finalize
  simp only [h.total, hmod, hblk, writeU64_eq]
  have hpad : absorb (Spec.pad m) = (Spec.blocks (m.drop (m.length / 64 * 64) ++ ([0x80] ++
      List.replicate ((119 - m.length % 64) % 64) 0 ++ Spec.be 8 (8 * m.length)))).foldl hashBlock (absorb m) := by
    unfold Spec.pad
    rw [List.append_assoc, List.append_assoc, habs, List.append_assoc]
  generalize hd : m.drop (m.length / 64 * 64) = d at *
  by_cases hc : m.length % 64 ≥ 56
  · simp only [hc, if_true]
    have hr : (119 - m.length % 64) % 64 = (63 - m.length % 64) + 56 := by omega
    have hb1 : (d ++ [0x80] ++ List.replicate (64 - (m.length % 64 + 1)) 0).length = 64 := by
      simp [hdl]; omega
    have hb2 : copyAt (List.replicate 64 0) 56 (Spec.be 8 (8 * m.length)) =
        List.replicate 56 0 ++ Spec.be 8 (8 * m.length) := by
      unfold copyAt
      rw [be_len, List.drop_of_length_le (by simp), List.append_nil, List.take_replicate]
      simp
    have : absorb (Spec.pad m) = hashBlock (hashBlock s.state (d ++ [0x80] ++ List.replicate (64 - (m.length % 64 + 1)) 0))
        (copyAt (List.replicate 64 0) 56 (Spec.be 8 (8 * m.length))) := by
      rw [hpad, h.st, hb2, hr, ← List.replicate_append_replicate]
      have e : d ++ ([0x80] ++ (List.replicate (63 - m.length % 64) 0 ++ List.replicate 56 0) ++ Spec.be 8 (8 * m.length)) =
        (d ++ [0x80] ++ List.replicate (64 - (m.length % 64 + 1)) 0) ++ (List.replicate 56 0 ++ Spec.be 8 (8 * m.length)) := by
        have : 64 - (m.length % 64 + 1) = 63 - m.length % 64 := by omega
        rw [this]; simp only [List.append_assoc]
      rw [e, blocks_append _ _ (by rw [hb1]), List.foldl_append, one _ _ hb1, one _ _ (by simp [be_len])]
    rw [this]
  · simp only [hc, if_false]
    have hr : (119 - m.length % 64) % 64 = 55 - m.length % 64 := by omega
    have : absorb (Spec.pad m) = hashBlock s.state
        (copyAt (d ++ [0x80] ++ List.replicate (64 - (m.length % 64 + 1)) 0) 56 (Spec.be 8 (8 * m.length))) := by
      rw [hpad, h.st, hr]
      have e2 : List.replicate (64 - (m.length % 64 + 1)) (0 : UInt8) =
          List.replicate (55 - m.length % 64) 0 ++ List.replicate 8 0 := by
        rw [List.replicate_append_replicate]; congr 1; omega
      have e : copyAt (d ++ [0x80] ++ List.replicate (64 - (m.length % 64 + 1)) 0) 56 (Spec.be 8 (8 * m.length)) =
          d ++ ([0x80] ++ List.replicate (55 - m.length % 64) 0 ++ Spec.be 8 (8 * m.length)) := by
        unfold copyAt
        rw [e2, ← List.append_assoc, List.take_append_of_le_length (by simp [hdl]; omega),
          List.take_of_length_le (by simp [hdl]; omega), be_len, List.drop_of_length_le (by simp [hdl]; omega)]
        simp only [List.append_assoc, List.append_nil]
      rw [e, one _ _ (by simp [be_len, hdl]; omega)]
    rw [this]

theorem absorb_spec (m : Bytes) : (absorb m).toV = (Spec.blocks m).foldl (Spec.compress KSpec) HSpec := by
  unfold absorb
  have : ∀ (l : List Bytes) (v : Vars), (∀ b ∈ l, b.length = 64) →
      (l.foldl hashBlock v).toV = l.foldl (Spec.compress KSpec) v.toV := by
    intro l
    induction l with
    | nil => intro v _; rfl
    | cons b l ih =>
      intro v h
      simp only [List.foldl_cons]
      rw [ih _ (fun b hb => h b (by simp [hb])), hashBlock_eq b (h b (by simp))]
  refine this _ _ ?_
  intro b hb
  induction hn : m.length using Nat.strongRecOn generalizing m with
  | _ n ih =>
    by_cases h64 : m.length < 64
    · rw [blocks_short h64] at hb; simp at hb
    · have h64 : 64 ≤ m.length := by omega
      rw [blocks_long h64] at hb
      rcases List.mem_cons.1 hb with rfl | hb
      · simp; omega
      · exact ih _ (by simp; omega) (m.drop 64) hb rfl

theorem finalize_spec {s : Hasher} {m : Bytes} (h : Fed s m) (hlen : m.length < 2 ^ 61) :
    finalize s = Spec.sha256 KSpec HSpec m := by
  rw [finalize_state h hlen]
  unfold Spec.sha256
  simp only [← absorb_spec]
  simp [be4_eq, Vars.toV]

theorem sha256_len (m : Bytes) : (Spec.sha256 KSpec HSpec m).length = 32 := by
  simp [Spec.sha256, be_len]

end Verif.Crypto.Sha
