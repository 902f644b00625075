import Verif.Crypto.AesLemmas
namespace Verif.Crypto.Aes
open Verif.Crypto

/-! ## Round trip for arbitrary round keys -/

/-- State after the initial key addition and `n` full rounds. -/
def encLoop (rks : List Bytes) (b : Bytes) (n : Nat) : Bytes :=
  (List.range n).foldl (fun b i => aesEnc b (rks.getD (i + 1) [])) b

def decLoop (drks : List Bytes) (b : Bytes) (n : Nat) : Bytes :=
  (List.range n).foldl (fun b i => aesDec b (drks.getD (i + 1) [])) b

theorem encLoop_succ (rks b n) : encLoop rks b (n + 1) = aesEnc (encLoop rks b n) (rks.getD (n + 1) []) := by
  simp [encLoop, List.range_succ]

theorem decLoop_succ (rks b n) : decLoop rks b (n + 1) = aesDec (decLoop rks b n) (rks.getD (n + 1) []) := by
  simp [decLoop, List.range_succ]

theorem encLoop_len {rks : List Bytes} (hr : ∀ i < 15, (rks.getD i []).length = 16) {b : Bytes}
    (hb : b.length = 16) : ∀ n, n ≤ 14 → (encLoop rks b n).length = 16 := by
  intro n hn
  cases n with
  | zero => exact hb
  | succ n =>
    rw [encLoop_succ]
    have : n ≤ 14 := by omega
    have ih := encLoop_len hr hb n this
    exact len_xor (by rw [len_mix, len_shift, len_sub, ih]) (hr _ (by omega))

theorem decKey_getD (rks : List Bytes) (i : Nat) (h1 : 1 ≤ i) (h2 : i ≤ 13) :
    (decKey rks).getD i [] = invMixColumns (rks.getD (14 - i) []) := by
  obtain ⟨j, rfl⟩ := Nat.exists_eq_add_of_le' h1
  have hj : j < 13 := by omega
  simp only [decKey, List.cons_append, List.nil_append, List.getD_cons_succ]
  rw [List.getD_eq_getElem?_getD, List.getElem?_append_left (by simpa using hj)]
  simp [hj]

theorem xor_cancel {a b : Bytes} (ha : a.length = 16) (hb : b.length = 16) : xorBlock (xorBlock a b) b = a := by
  have : ∀ {a b : Bytes}, a.length = b.length → xorBlock (xorBlock a b) b = a := by
    intro a
    induction a with
    | nil => intro b _; simp [xorBlock]
    | cons x a ih =>
      intro b h
      cases b with
      | nil => simp at h
      | cons y b =>
        rw [xorBlock_cons, xorBlock_cons, ih (by simpa using h), UInt8.xor_assoc]; simp
  exact this (by rw [ha, hb])

theorem decLoop_encLoop {rks : List Bytes} (hr : ∀ i < 15, (rks.getD i []).length = 16) {b : Bytes}
    (hb : b.length = 16) : ∀ n, n ≤ 13 →
    decLoop (decKey rks) (shiftRows (subBytes (encLoop rks b 13))) n =
      shiftRows (subBytes (encLoop rks b (13 - n))) := by
  intro n
  induction n with
  | zero => intro _; simp only [decLoop, List.range_zero, List.foldl_nil, Nat.sub_zero]
  | succ n ih =>
    intro hn
    rw [decLoop_succ, ih (by omega), decKey_getD _ _ (by omega) (by omega)]
    have e1 : 13 - n = (13 - (n + 1)) + 1 := by omega
    have e2 : 14 - (n + 1) = (13 - (n + 1)) + 1 := by omega
    rw [e1, e2]
    have l1 := encLoop_len hr hb (13 - (n + 1) + 1) (by omega)
    have l0 := encLoop_len hr hb (13 - (n + 1)) (by omega)
    unfold aesDec
    rw [invShift_shift (by rw [len_sub, l1]), invSub_sub, encLoop_succ]
    generalize encLoop rks b (13 - (n + 1)) = s at *
    have hk := hr (13 - (n + 1) + 1) (by omega)
    generalize rks.getD (13 - (n + 1) + 1) [] = k at *
    unfold aesEnc
    have lm : (mixColumns (shiftRows (subBytes s))).length = 16 := by rw [len_mix, len_shift, len_sub, l0]
    rw [invMix_xor lm hk, invMix_mix (by rw [len_shift, len_sub, l0])]
    exact xor_cancel (by rw [len_shift, len_sub, l0]) (by rw [len_invMix, hk])

theorem decrypt_encrypt_rks {rks : List Bytes} (hr : ∀ i < 15, (rks.getD i []).length = 16) {b : Bytes}
    (hb : b.length = 16) : decryptBlock (decKey rks) (encryptBlock rks b) = b := by
  have h0 := hr 0 (by omega)
  have h14 := hr 14 (by omega)
  have hx := len_xor hb h0
  have l13 := encLoop_len hr hx 13 (by omega)
  have d0 : (decKey rks).getD 0 [] = rks.getD 14 [] := rfl
  have d14 : (decKey rks).getD 14 [] = rks.getD 0 [] := rfl
  have key := decLoop_encLoop hr hx 13 (by omega)
  unfold decryptBlock encryptBlock
  simp only [d0, d14]
  change aesDecLast (decLoop (decKey rks) (xorBlock (aesEncLast (encLoop rks _ 13) _) _) 13) _ = b
  unfold aesEncLast
  rw [xor_cancel (by rw [len_shift, len_sub, l13]) h14, key]
  unfold aesDecLast
  simp only [Nat.sub_self]
  have e : encLoop rks (xorBlock b (rks.getD 0 [])) 0 = xorBlock b (rks.getD 0 []) := rfl
  rw [e, invShift_shift (by rw [len_sub, hx]), invSub_sub, xor_cancel hb h0]

/-! ## Key schedule -/

/-- The word `w i` of the specification as bytes. -/
def wordBytes (key : Bytes) (i : Nat) : Bytes := (List.range 4).map (Spec.w sbox key i)

def blockBytes (key : Bytes) (i : Nat) : Bytes :=
  wordBytes key (4 * i) ++ wordBytes key (4 * i + 1) ++ wordBytes key (4 * i + 2) ++ wordBytes key (4 * i + 3)

theorem w_succ (key : Bytes) (i : Nat) (h : 8 ≤ i) (k : Nat) : Spec.w sbox key i k =
    Spec.w sbox key (i - 8) k ^^^
      (if i % 8 = 0 then sbox (Spec.w sbox key (i - 1) ((k + 1) % 4)) ^^^ (if k = 0 then Spec.rcon (i / 8) else 0)
       else if i % 8 = 4 then sbox (Spec.w sbox key (i - 1) k) else Spec.w sbox key (i - 1) k) := by
  rw [Spec.w]
  have : ¬ i < 8 := by omega
  simp only [this, dite_false]
  congr 1
  split
  · rfl
  · split <;> rfl

theorem rcon_eq : ∀ i, 1 ≤ i → i ≤ 7 → RCON.getD (i - 1) 0 = Spec.rcon i := by
  intro i h1 h2
  have : ∀ i : Fin 8, 1 ≤ i.val → RCON.getD (i.val - 1) 0 = Spec.rcon i.val := by decide +kernel
  exact this ⟨i, by omega⟩ h1

theorem ksHead_word (key : Bytes) (i : Nat) (h1 : 2 ≤ i) (h2 : i < 15) :
    xorword (ksHead i (wordBytes key (4 * i - 1))) (wordBytes key (4 * i - 8)) = wordBytes key (4 * i) := by
  have hw := fun k => w_succ key (4 * i) (by omega) k
  by_cases he : i % 2 = 0
  · have e8 : 4 * i % 8 = 0 := by omega
    have hr := rcon_eq (i / 2) (by omega) (by omega)
    have e9 : 4 * i / 8 = i / 2 := by omega
    simp only [e8, if_true, e9] at hw
    simp only [wordBytes, List.range, List.range.loop, List.map_cons, List.map_nil, ksHead, he, if_true, rotword,
      subword, at', List.set_cons_succ, List.set_cons_zero, List.getD_cons_succ, List.getD_cons_zero, xorword,
      List.zipWith_cons_cons, List.zipWith_nil_right, hw, hr]
    simp [UInt8.xor_comm]
  · have e8 : 4 * i % 8 = 4 := by omega
    have e9 : ¬ 4 * i % 8 = 0 := by omega
    simp only [e8] at hw
    simp only [wordBytes, List.range, List.range.loop, List.map_cons, List.map_nil, ksHead, he, if_false, 
      subword, xorword,
      List.zipWith_cons_cons, List.zipWith_nil_right, hw]
    simp [UInt8.xor_comm]

theorem xor_word (key : Bytes) (i j : Nat) (h1 : 2 ≤ i) (hj : 1 ≤ j) (hj' : j < 4) :
    xorword (wordBytes key (4 * i + j - 1)) (wordBytes key (4 * i - 8 + j)) = wordBytes key (4 * i + j) := by
  have hw := fun k => w_succ key (4 * i + j) (by omega) k
  have e8 : ¬ (4 * i + j) % 8 = 0 := by omega
  have e9 : ¬ (4 * i + j) % 8 = 4 := by omega
  have e : 4 * i + j - 8 = 4 * i - 8 + j := by omega
  simp only [e8, e9, if_false, e] at hw
  simp only [wordBytes, List.range, List.range.loop, List.map_cons, List.map_nil, 
      xorword, List.zipWith_cons_cons, List.zipWith_nil_right, hw]
  simp [UInt8.xor_comm]

theorem wordBytes_len (key : Bytes) (i : Nat) : (wordBytes key i).length = 4 := by simp [wordBytes]
theorem blockBytes_len (key : Bytes) (i : Nat) : (blockBytes key i).length = 16 := by
  simp [blockBytes, wordBytes_len]

theorem block_slice (key : Bytes) (i j : Nat) (hj : j < 4) :
    ((blockBytes key i).drop (4 * j)).take 4 = wordBytes key (4 * i + j) := by
  have h := wordBytes_len key
  have : j = 0 ∨ j = 1 ∨ j = 2 ∨ j = 3 := by omega
  rcases this with rfl | rfl | rfl | rfl <;>
    simp [blockBytes, List.drop_append, List.take_append, h, List.take_of_length_le, List.drop_of_length_le]

theorem ksStep_spec (key : Bytes) (i : Nat) (h1 : 2 ≤ i) (h2 : i < 15) :
    ksStep ((List.range i).map (blockBytes key), wordBytes key (4 * i - 1)) i =
      ((List.range (i + 1)).map (blockBytes key), wordBytes key (4 * (i + 1) - 1)) := by
  have hsrc : ((List.range i).map (blockBytes key)).getD (i - 2) [] = blockBytes key (i - 2) := by
    have : i - 2 < i := by omega
    simp [List.getD_eq_getElem?_getD, this]
  unfold ksStep
  simp only [hsrc, List.foldl_cons, List.foldl_nil, ksInner, block_slice _ _ _ (show 0 < 4 by omega),
    block_slice _ _ _ (show 1 < 4 by omega), block_slice _ _ _ (show 2 < 4 by omega),
    block_slice _ _ _ (show 3 < 4 by omega)]
  have e0 : 4 * (i - 2) + 0 = 4 * i - 8 := by omega
  have e1 : 4 * (i - 2) + 1 = 4 * i - 8 + 1 := by omega
  have e2 : 4 * (i - 2) + 2 = 4 * i - 8 + 2 := by omega
  have e3 : 4 * (i - 2) + 3 = 4 * i - 8 + 3 := by omega
  have k1 := xor_word key i 1 h1 (by omega) (by omega)
  have k2 := xor_word key i 2 h1 (by omega) (by omega)
  have k3 := xor_word key i 3 h1 (by omega) (by omega)
  simp only [show 4 * i + 1 - 1 = 4 * i by omega] at k1
  simp only [show 4 * i + 2 - 1 = 4 * i + 1 by omega] at k2
  simp only [show 4 * i + 3 - 1 = 4 * i + 2 by omega] at k3
  rw [e0, e1, e2, e3, ksHead_word key i h1 h2, k1, k2, k3]
  have e4 : 4 * (i + 1) - 1 = 4 * i + 3 := by omega
  rw [e4, List.range_succ, List.map_append]
  simp [blockBytes]

theorem ksFold_spec (key : Bytes) : ∀ n, n ≤ 13 →
    (List.range' 2 n).foldl ksStep ((List.range 2).map (blockBytes key), wordBytes key 7) =
      ((List.range (2 + n)).map (blockBytes key), wordBytes key (4 * (2 + n) - 1)) := by
  intro n
  induction n with
  | zero => intro _; rfl
  | succ n ih =>
    intro hn
    rw [List.range'_1_concat, List.foldl_append, ih (by omega)]
    simp only [List.foldl_cons, List.foldl_nil]
    rw [ksStep_spec key (2 + n) (by omega) (by omega)]
    rfl

theorem wordBytes_key (key : Bytes) (hk : key.length = 32) (i : Nat) (hi : i < 8) :
    wordBytes key i = (key.drop (4 * i)).take 4 := by
  apply List.ext_getElem
  · simp [wordBytes, hk]; omega
  · intro n h1 h2
    have hn : n < 4 := by simpa [wordBytes] using h1
    have : 4 * i + n < key.length := by omega
    simp [wordBytes, Spec.w, hi, List.getD_eq_getElem?_getD, this]

theorem take_split (l : Bytes) (a b c d : Nat) : (l.drop a).take (b + (c + d)) =
    (l.drop a).take b ++ ((l.drop (a + b)).take c ++ (l.drop (a + b + c)).take d) := by
  rw [List.take_add, List.take_add, List.drop_drop, List.drop_drop]

theorem blockBytes_key (key : Bytes) (hk : key.length = 32) (i : Nat) (hi : i < 2) :
    blockBytes key i = (key.drop (16 * i)).take 16 := by
  unfold blockBytes
  rw [wordBytes_key key hk _ (by omega), wordBytes_key key hk _ (by omega), wordBytes_key key hk _ (by omega),
    wordBytes_key key hk _ (by omega)]
  have e : (16 : Nat) = 4 + (4 + (4 + 4)) := rfl
  conv => rhs; rw [show (List.take 16 (key.drop (16 * i))) = List.take (4 + (4 + (4 + 4))) (key.drop (16 * i)) from rfl]
  rw [take_split, List.take_add (i := 4) (j := 4), List.drop_drop]
  have a1 : 4 * (4 * i) = 16 * i := by omega
  have a2 : 4 * (4 * i + 1) = 16 * i + 4 := by omega
  have a3 : 4 * (4 * i + 2) = 16 * i + 4 + 4 := by omega
  have a4 : 4 * (4 * i + 3) = 16 * i + 4 + 4 + 4 := by omega
  rw [a1, a2, a3, a4]
  simp

theorem encKey_spec (key : Bytes) (hk : key.length = 32) : encKey key = (List.range 15).map (blockBytes key) := by
  have h0 := blockBytes_key key hk 0 (by omega)
  have h1 := blockBytes_key key hk 1 (by omega)
  have h2 : ((key.drop 16).take 16).drop 12 = wordBytes key 7 := by
    rw [wordBytes_key key hk 7 (by omega), List.drop_take, List.drop_drop]
  simp only [Nat.mul_zero, List.drop_zero, Nat.mul_one] at h0 h1
  have e : (List.range 2).map (blockBytes key) = [key.take 16, (key.drop 16).take 16] := by
    simp [List.range, List.range.loop, h0, h1]
  unfold encKey
  simp only [h2]
  rw [← e, ksFold_spec key 13 (by omega)]

theorem encKey_getD (key : Bytes) (hk : key.length = 32) (i : Nat) (hi : i < 15) :
    (encKey key).getD i [] = blockBytes key i := by
  rw [encKey_spec key hk]; simp [List.getD_eq_getElem?_getD, hi]

/-! ## The cipher -/

theorem toBytes_eq (s : Spec.State) : Spec.toBytes s = [s 0 0, s 1 0, s 2 0, s 3 0, s 0 1, s 1 1, s 2 1, s 3 1,
    s 0 2, s 1 2, s 2 2, s 3 2, s 0 3, s 1 3, s 2 3, s 3 3] := rfl

theorem toBytes_ofBytes {b : Bytes} (h : b.length = 16) : Spec.toBytes (Spec.ofBytes b) = b := by
  obtain ⟨a0, a1, a2, a3, a4, a5, a6, a7, a8, a9, a10, a11, a12, a13, a14, a15, rfl⟩ := exists16 h
  rfl

theorem blockBytes_eq (key : Bytes) (i : Nat) : blockBytes key i =
    Spec.toBytes (fun r c => Spec.w sbox key (4 * i + c) r) := by
  rw [toBytes_eq]; rfl

theorem xor_spec (key : Bytes) (i : Nat) (s : Spec.State) :
    xorBlock (Spec.toBytes s) (blockBytes key i) = Spec.toBytes (Spec.addRoundKey (Spec.w sbox key) i s) := by
  rw [blockBytes_eq, toBytes_eq, toBytes_eq, toBytes_eq]
  simp only [xorBlock_cons, xorBlock_nil, Spec.addRoundKey]

theorem sub_spec (s : Spec.State) : subBytes (Spec.toBytes s) = Spec.toBytes (Spec.subBytes sbox s) := by
  rw [toBytes_eq, toBytes_eq]; rfl

theorem shift_spec (s : Spec.State) : shiftRows (Spec.toBytes s) = Spec.toBytes (Spec.shiftRows s) := by
  rw [toBytes_eq, toBytes_eq, shiftRows_eq]; rfl

theorem mix_spec (s : Spec.State) : mixColumns (Spec.toBytes s) = Spec.toBytes (Spec.mixColumns s) := by
  rw [toBytes_eq, toBytes_eq, mixColumns_eq]
  simp only [Spec.mixColumns, mul2_eq, mul3_eq, Nat.reduceAdd, Nat.reduceMod, List.cons.injEq, and_true]
  refine ⟨trivial, ?_, ?_, ?_, trivial, ?_, ?_, ?_, trivial, ?_, ?_, ?_, trivial, ?_, ?_, ?_⟩ <;> ac_rfl

theorem rounds_spec (key : Bytes) (hk : key.length = 32) (s : Spec.State) : ∀ n, n ≤ 14 →
    encLoop (encKey key) (Spec.toBytes s) n = Spec.toBytes (Spec.rounds sbox (Spec.w sbox key) s n) := by
  intro n
  induction n with
  | zero => intro _; rfl
  | succ n ih =>
    intro hn
    rw [encLoop_succ, ih (by omega), encKey_getD key hk _ (by omega), aesEnc, sub_spec, shift_spec, mix_spec, xor_spec]
    rfl

theorem cipher_spec (key : Bytes) (hk : key.length = 32) (b : Bytes) (hb : b.length = 16) :
    encryptBlock (encKey key) b = Spec.cipher sbox key b := by
  unfold encryptBlock
  simp only [encKey_getD key hk 0 (by omega), encKey_getD key hk 14 (by omega)]
  change aesEncLast (encLoop (encKey key) _ 13) _ = _
  conv => lhs; rw [← toBytes_ofBytes hb]
  rw [xor_spec, rounds_spec key hk _ 13 (by omega), aesEncLast, sub_spec, shift_spec, xor_spec]
  rfl

end Verif.Crypto.Aes
