import Verif.Tock.CryptoCell
import Verif.Tock.PropsUpgrade
import Verif.Crypto.ShaProps

/-!
# C92: the bootloader computes SHA-256 piece by piece
-/
namespace Verif.Tock
open Verif.Crypto (Bytes)
open Verif.Crypto.Sha (KSpec HSpec SHA256 blocks_append)
open Verif.Crypto.Sha.Spec (V W blocks compress be pad)

theorem initValue_eq : initValue = HSpec := by
  funext i
  match i with
  | 0 | 1 | 2 | 3 | 4 | 5 | 6 | 7 => decide

theorem pad_eq (m : Bytes) : pad m = m ++ padding m.length := by
  simp only [pad, padding, List.append_assoc]

/-- What the state of the driver means: these bytes were hashed. -/
structure Holds (c : CryptoCell) (m : Bytes) : Prop where
  ctx : c.ctx = (blocks m).foldl (compress KSpec) HSpec
  total : c.total = m.length
  whole : m.length % 64 = 0

theorem holds_new : Holds .new [] := ⟨by
  show initValue = _
  rw [initValue_eq, Verif.Crypto.Sha.blocks_short (by simp)]; rfl, rfl, rfl⟩

theorem engine_length (n : Nat) (h : n < 2 ^ 64) (v : V) (b : Bool) :
    Engine.length ⟨v, n % 2 ^ 32, n / 2 ^ 32 % 2 ^ 32, b⟩ = n := by
  unfold Engine.length
  dsimp only
  omega

theorem update_holds {c : CryptoCell} {m data : Bytes} (h : Holds c m) (hd : data ≠ []) (h64 : data.length % 64 = 0)
    (h30 : data.length < 2 ^ 30) (hm : (m ++ data).length < 2 ^ 64) :
    ∃ c', c.update data false = some c' ∧ Holds c' (m ++ data) := by
  obtain ⟨h1, h2, h3⟩ := h
  rw [List.length_append] at hm
  have e1 := engine_length c.total (by omega) c.ctx false
  unfold CryptoCell.update
  dsimp only
  rw [if_neg (by cases data <;> simp at hd ⊢), Nat.mod_eq_of_lt h30, List.take_length]
  unfold Engine.dma
  rw [if_neg (by rw [e1]; omega), if_neg (by simp), if_neg (by omega)]
  refine ⟨_, rfl, ?_, ?_, ?_⟩
  · show List.foldl _ c.ctx _ = _
    rw [h1, blocks_append _ _ h3, List.foldl_append]
  · dsimp only [Engine.absorb]
    rw [e1, engine_length _ (by omega), List.length_append, h2]
  · rw [List.length_append]; omega

theorem final_blocks {c : CryptoCell} {m data : Bytes} (h : Holds c m) :
    (blocks (data ++ padding (c.total + data.length))).foldl (compress KSpec) c.ctx
      = (blocks (pad (m ++ data))).foldl (compress KSpec) HSpec := by
  obtain ⟨h1, h2, h3⟩ := h
  rw [h1, pad_eq, List.append_assoc, blocks_append _ _ h3, List.foldl_append, List.length_append, h2]

theorem update_last {c : CryptoCell} {m data : Bytes} (h : Holds c m)
    (h30 : data.length < 2 ^ 30) (hm : (m ++ data).length < 2 ^ 64) :
    ∃ c', c.update data true = some c' ∧ c'.finalizeAndClear.1 = SHA256 (m ++ data) := by
  have hf := final_blocks (data := data) h
  obtain ⟨h1, h2, h3⟩ := h
  rw [List.length_append] at hm
  have e1 := engine_length c.total (by omega) c.ctx false
  have e2 := engine_length c.total (by omega) c.ctx true
  unfold CryptoCell.update
  dsimp only
  cases data with
  | nil =>
    rw [if_pos (show ([] : Bytes).isEmpty = true from rfl)]
    unfold Engine.doPad
    rw [if_neg (by rw [e1]; omega)]
    refine ⟨_, rfl, ?_⟩
    dsimp only [Engine.absorb, CryptoCell.finalizeAndClear]
    rw [e1]
    simp only [List.nil_append, List.length_nil, Nat.add_zero] at hf
    rw [hf]
    rfl
  | cons b bs =>
    rw [if_neg (by simp), Nat.mod_eq_of_lt h30, List.take_length]
    unfold Engine.dma
    rw [if_neg (by rw [e2]; omega), if_pos rfl]
    refine ⟨_, rfl, ?_⟩
    dsimp only [Engine.absorb, CryptoCell.finalizeAndClear]
    rw [e2, hf]
    rfl

theorem updates_append (c : CryptoCell) (l l' : List (Bytes × Bool)) :
    c.updates (l ++ l') = (c.updates l).bind fun c => c.updates l' := by
  induction l generalizing c with
  | nil => rfl
  | cons x l ih =>
    obtain ⟨d, b⟩ := x
    simp only [List.cons_append, CryptoCell.updates]
    cases c.update d b with
    | none => rfl
    | some c => exact ih c

theorem updates_holds {c : CryptoCell} {m : Bytes} (h : Holds c m) (pieces : List Bytes)
    (hp : ∀ p ∈ pieces, p ≠ [] ∧ p.length % 64 = 0 ∧ p.length < 2 ^ 30) (hm : (m ++ pieces.flatten).length < 2 ^ 64) :
    ∃ c', c.updates (pieces.map fun p => (p, false)) = some c' ∧ Holds c' (m ++ pieces.flatten) := by
  induction pieces generalizing c m with
  | nil => exact ⟨c, rfl, by simpa using h⟩
  | cons p ps ih =>
    obtain ⟨p1, p2, p3⟩ := hp p (by simp)
    have hm' : ((m ++ p) ++ ps.flatten).length < 2 ^ 64 := by simpa [Nat.add_assoc] using hm
    obtain ⟨c1, g1, g2⟩ := update_holds h p1 p2 p3 (by rw [List.length_append] at hm'; omega)
    obtain ⟨c2, g3, g4⟩ := ih g2 (fun q hq => hp q (by simp [hq])) hm'
    refine ⟨c2, ?_, by simpa using g4⟩
    simp only [List.map_cons, CryptoCell.updates]
    rw [g1]
    exact g3

/-- For any pieces of whole blocks, followed by a last piece of any length, the result is the SHA-256 of all of them. -/
theorem C92_hash (pieces : List Bytes) (last : Bytes)
    (hp : ∀ p ∈ pieces, p ≠ [] ∧ p.length % 64 = 0 ∧ p.length < 2 ^ 30) (hl : last.length < 2 ^ 30)
    (hm : (pieces.flatten ++ last).length < 2 ^ 64) :
    ∃ c, CryptoCell.new.updates (pieces.map (fun p => (p, false)) ++ [(last, true)]) = some c ∧
      c.finalizeAndClear.1 = SHA256 (pieces.flatten ++ last) := by
  obtain ⟨c1, g1, g2⟩ := updates_holds holds_new pieces hp (by
    rw [List.nil_append]; rw [List.length_append] at hm; omega)
  rw [List.nil_append] at g2
  obtain ⟨c2, g3, g4⟩ := update_last g2 hl hm
  refine ⟨c2, ?_, g4⟩
  rw [updates_append, g1]
  simp only [Option.bind_some, CryptoCell.updates, g3]

/-- What the bootloader compares with the hash in the metadata is the SHA-256 of the signed part of the metadata and of the
firmware. So the hash in the model of the bootloader (C50) is the one of the hardware. -/
theorem C92_bootloader (c : Crypto) (hc : ∀ l, l.length < 2 ^ 32 → c.hash l = SHA256 l) (s : Side) (m : Mem) :
    (bootPartition s).hardwareHash m (m.read (bootPartition s).metadataAddress metadataLen)
      = some (SHA256 (contents m (bootPartition s))) ∧
    (bootPartition s).hardwareHash m (m.read (bootPartition s).metadataAddress metadataLen)
      = some ((bootPartition s).computeUpgradeHash c m (m.read (bootPartition s).metadataAddress metadataLen)) := by
  have hlen : (contents m (bootPartition s)).length < 2 ^ 32 := by
    unfold contents
    rw [List.length_append, read_length, read_length]; decide
  have key : (bootPartition s).hardwareHash m (m.read (bootPartition s).metadataAddress metadataLen)
      = some (SHA256 (contents m (bootPartition s))) := by
    unfold BootPartition.hardwareHash
    generalize hF : (bootPartition s).firmwareAddress = F
    have hr : List.range (firmwareLength / metadataLen) = List.range 63 ++ [63] := rfl
    rw [hr, List.map_append, ← List.cons_append]
    have hmap : ((m.read (bootPartition s).metadataAddress metadataLen).drop signOffset, false) ::
        (List.range 63).map (fun i => (m.read (F + i * metadataLen) metadataLen, i * metadataLen + metadataLen == firmwareLength))
        = (((m.read (bootPartition s).metadataAddress metadataLen).drop signOffset) ::
          (List.range 63).map fun i => m.read (F + i * metadataLen) metadataLen).map fun p => (p, false) := by
      rw [List.map_cons, List.map_map]
      refine congrArg (List.cons _) (List.map_congr_left ?_)
      intro i hi
      have := List.mem_range.1 hi
      simp only [Function.comp, Prod.mk.injEq, true_and, beq_eq_false_iff_ne]
      unfold metadataLen firmwareLength
      omega
    rw [hmap]
    have hone : (List.map (fun i => (m.read (F + i * metadataLen) metadataLen, i * metadataLen + metadataLen == firmwareLength)) [63])
        = [(m.read (F + 63 * metadataLen) metadataLen, true)] := rfl
    rw [hone]
    have hflat : (((m.read (bootPartition s).metadataAddress metadataLen).drop signOffset) ::
          (List.range 63).map fun i => m.read (F + i * metadataLen) metadataLen).flatten ++
          m.read (F + 63 * metadataLen) metadataLen = contents m (bootPartition s) := by
      have := pages_read m F metadataLen 64
      rw [List.range_succ, List.flatMap_append, List.flatMap_singleton, List.flatMap_def] at this
      rw [List.flatten_cons, List.append_assoc, this, drop_read, contents, hF]
      rfl
    obtain ⟨c1, g1, g2⟩ := C92_hash
      (((m.read (bootPartition s).metadataAddress metadataLen).drop signOffset) ::
          (List.range 63).map fun i => m.read (F + i * metadataLen) metadataLen)
      (m.read (F + 63 * metadataLen) metadataLen) (by
        intro p hp
        have : p.length = 0x800 ∨ p.length = 0x1000 := by
          rcases List.mem_cons.1 hp with he | hp
          · left; rw [he]; rw [List.length_drop, read_length]; unfold metadataLen signOffset; omega
          · obtain ⟨i, -, rfl⟩ := List.mem_map.1 hp
            right; rw [read_length]; rfl
        refine ⟨fun h => ?_, ?_, ?_⟩
        · rw [h, List.length_nil] at this; omega
        · omega
        · omega)
      (by rw [read_length]; decide) (by rw [hflat]; omega)
    rw [g1, Option.map_some, g2, hflat]
  refine ⟨key, ?_⟩
  rw [key, computeUpgradeHash_eq, hc _ hlen]

/-- The first word after one block from zeros. -/
theorem reuse_word : be 4 (Crypto.Sha.hashBlock ⟨0, 0, 0, 0, 0, 0, 0, 0⟩ ([1] ++ padding 1)).a.toNat
    ≠ (Crypto.Sha.hash 32 [1]).take 4 := by decide +kernel

theorem zero_vars : (⟨0, 0, 0, 0, 0, 0, 0, 0⟩ : Crypto.Sha.Vars).toV = fun _ => 0 := by
  funext i
  match i with
  | 0 | 1 | 2 | 3 | 4 | 5 | 6 | 7 => rfl

theorem finalize_take (c : CryptoCell) : c.finalizeAndClear.1.take 4 = be 4 (c.ctx 0).toNat := by
  simp only [CryptoCell.finalizeAndClear, List.append_assoc]
  rw [List.take_left' (Crypto.Sha.be_len _ _)]

theorem toV_zero (x : Crypto.Sha.Vars) : (x.toV 0).toNat = x.a.toNat := rfl

theorem update_raw (v : V) (b : UInt8) (bs : Bytes) (hl : (b :: bs).length < 2 ^ 30) :
    (CryptoCell.mk v 0).update (b :: bs) true
      = some ⟨(blocks ((b :: bs) ++ padding (b :: bs).length)).foldl (compress KSpec) v, (b :: bs).length⟩ := by
  have e := engine_length 0 (by decide) v true
  unfold CryptoCell.update
  dsimp only
  rw [if_neg (by simp), Nat.mod_eq_of_lt hl, List.take_length]
  unfold Engine.dma
  rw [if_neg (by rw [e]; omega), if_pos rfl, e]
  simp only [Option.map_some, Engine.absorb, e, Nat.zero_add]
  rw [engine_length _ (by omega)]

theorem reuse_aux (blk w : Bytes) (n : Nat) (hb : blk.length = 64)
    (hw : be 4 (Crypto.Sha.hashBlock ⟨0, 0, 0, 0, 0, 0, 0, 0⟩ blk).a.toNat ≠ w.take 4) :
    (CryptoCell.mk (compress KSpec (fun _ => 0) blk) n).finalizeAndClear.1 ≠ w := by
  have hv : compress KSpec (fun _ => 0) blk = (Crypto.Sha.hashBlock ⟨0, 0, 0, 0, 0, 0, 0, 0⟩ blk).toV := by
    rw [Crypto.Sha.hashBlock_eq _ hb, zero_vars]
  rw [hv]
  generalize Crypto.Sha.hashBlock ⟨0, 0, 0, 0, 0, 0, 0, 0⟩ blk = x at hw
  intro h
  apply hw
  rw [← h, finalize_take]
  rfl

/-- `finalize_and_clear` says that it clears the data for reuse, but it sets the state to zeros, not to the initial value of
SHA-256: the next hash is wrong. The bootloader never reuses the state. -/
theorem C92_reuse : ∃ c, CryptoCell.new.finalizeAndClear.2.updates [([1], true)] = some c ∧
    c.finalizeAndClear.1 ≠ SHA256 [1] := by
  have hb : ([1] ++ padding 1).length = 64 := by decide
  have hblocks : blocks ([1] ++ padding 1) = [[1] ++ padding 1] := by
    rw [Crypto.Sha.blocks_long (by omega), Crypto.Sha.blocks_short (by rw [List.length_drop, hb]; decide),
      List.take_of_length_le (by omega)]
  have hs : SHA256 [1] = Crypto.Sha.hash 32 [1] := (Crypto.Sha.sha256_hash 32 [1] (by decide) (by decide)).symm
  refine ⟨⟨compress KSpec (fun _ => 0) ([1] ++ padding 1), 1⟩, ?_, ?_⟩
  · simp only [CryptoCell.updates, CryptoCell.finalizeAndClear, CryptoCell.clearData]
    rw [update_raw _ _ _ (by decide)]
    simp only [List.length_cons, List.length_nil, Nat.zero_add, Option.bind_some]
    rw [hblocks]
    simp only [List.foldl_cons, List.foldl_nil]
  · rw [hs]
    exact reuse_aux _ _ _ hb reuse_word

/-- A piece that is empty ends the message, also if it is not the last one: the padding is added too early. -/
theorem C92_empty_piece (c : CryptoCell) : c.update [] false = c.update [] true := by
  unfold CryptoCell.update
  dsimp only
  rw [if_pos (show ([] : Bytes).isEmpty = true from List.isEmpty_nil), if_pos (show ([] : Bytes).isEmpty = true from List.isEmpty_nil)]

theorem two_pieces (a b c : Bytes) (ha : a ≠ [] ∧ a.length % 64 = 0 ∧ a.length < 2 ^ 30)
    (hb : b ≠ [] ∧ b.length % 64 = 0 ∧ b.length < 2 ^ 30) (hc : c.length < 2 ^ 30) :
    ∃ s, CryptoCell.new.updates [(a, false), (b, false), (c, true)] = some s ∧ s.finalizeAndClear.1 = SHA256 (a ++ b ++ c) := by
  have := C92_hash [a, b] c (by
    intro p hp
    rcases List.mem_cons.1 hp with he | hp
    · rw [he]; exact ha
    · rw [List.mem_singleton.1 hp]; exact hb) hc (by
    simp only [List.flatten_cons, List.flatten_nil, List.append_nil, List.length_append]; omega)
  simpa only [List.flatten_cons, List.flatten_nil, List.append_nil, List.map_cons, List.map_nil, List.cons_append,
    List.nil_append] using this

/-- Pieces of a block each, and a last one of three bytes. -/
example : ∃ s, CryptoCell.new.updates [(List.replicate 64 1, false), (List.replicate 128 2, false), ([3, 4, 5], true)] = some s ∧
    s.finalizeAndClear.1 = SHA256 (List.replicate 64 1 ++ List.replicate 128 2 ++ [3, 4, 5]) :=
  two_pieces _ _ _ ⟨List.cons_ne_nil _ _, by rw [List.length_replicate], by rw [List.length_replicate]; decide⟩
    ⟨List.cons_ne_nil _ _, by rw [List.length_replicate], by rw [List.length_replicate]; decide⟩
    (by decide)

/-- A cryptography as the theorem about the bootloader assumes it. -/
example : ∃ c : Crypto, ∀ l, l.length < 2 ^ 32 → c.hash l = SHA256 l := ⟨{ toyCrypto with hash := fun l => SHA256 l }, fun _ _ => rfl⟩

end Verif.Tock
