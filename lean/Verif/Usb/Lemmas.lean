import Verif.Usb.Spec
import Verif.Hid.Props

namespace Verif.Usb
open Verif.Ctap hiding Transport
open Verif.Hid (Transport IsInit IsCont Message Both Asm Cmd)
variable [Dev]
set_option linter.unusedSectionVars false

/-! ## Sending -/

theorem spell_data {payload : Bytes} (n : Nat) (hn : n ≤ (payload.length - 57 + 58) / 59) :
    (payload.take 57 ++ List.replicate (57 - payload.length) 0) ++
      ((List.range n).map fun i => (payload.drop (57 + 59 * i)).take 59 ++
        List.replicate (59 - (payload.length - (57 + 59 * i))) (0 : UInt8)).flatten =
    payload.take (57 + 59 * n) ++ List.replicate (57 + 59 * n - payload.length) 0 := by
  induction n with
  | zero => simp
  | succ n ih =>
    have hlt : 57 + 59 * n < payload.length := by omega
    rw [List.range_succ, List.map_append, List.flatten_append, ← List.append_assoc, ih (by omega)]
    rw [show 57 + 59 * n - payload.length = 0 by omega]
    simp only [List.replicate_zero, List.append_nil, List.map_cons, List.map_nil, List.flatten_cons, List.flatten_nil]
    rw [← List.append_assoc, show 57 + 59 * (n + 1) = 57 + 59 * n + 59 by omega, List.take_add (i := 57 + 59 * n) (j := 59)]
    rw [show 59 - (payload.length - (57 + 59 * n)) = 57 + 59 * n + 59 - payload.length by omega]

theorem split_spells {m : Message} {ps : List Bytes} (hc : m.cid.length = 4) (h : Hid.split m = some ps) :
    Spells ps m.cid m.cmd.toNat m.payload := by
  obtain ⟨h1, h2⟩ := Hid.C06_split_shape m hc
  by_cases hl : m.payload.length ≤ 7609
  · obtain ⟨p0, qs, data0, hs, hi, hn, _, hd, hcs⟩ := h2 hl
    rw [h] at hs
    cases hs
    have hd' := spell_data (payload := m.payload) qs.length (by omega)
    refine ⟨p0, qs, data0, (List.range qs.length).map fun i => (m.payload.drop (57 + 59 * i)).take 59 ++
        List.replicate (59 - (m.payload.length - (57 + 59 * i))) (0 : UInt8), rfl, hi, by simp, ?_, ?_, ?_⟩
    · intro i h3 h4
      obtain ⟨data, h5, rfl⟩ := hcs i h3
      simpa using h5
    · rw [hd, hd']
      simp only [List.length_append, List.length_take, List.length_replicate]
      omega
    · rw [hd, hd', List.take_append_of_le_length (by simp; omega), List.take_take, Nat.min_eq_left (by omega), List.take_length]
  · rw [h1 (by omega)] at h
    cases h

theorem splitMessage_spells {m : Message} (hc : m.cid.length = 4) :
    (m.payload.length ≤ 7609 → Spells (splitMessage m) m.cid m.cmd.toNat m.payload) ∧
    (7609 < m.payload.length → Spells (splitMessage m) m.cid 0x10 [Status.internalError.toByte]) := by
  constructor
  · intro hl
    obtain ⟨p0, ps, _, h, _⟩ := (Hid.C06_split_shape m hc).2 hl
    unfold splitMessage
    rw [h]
    exact split_spells hc h
  · intro hl
    have h0 := (Hid.C06_split_shape m hc).1 hl
    obtain ⟨p0, ps, _, h, _⟩ := (Hid.C06_split_shape ⟨m.cid, .cbor, [Status.internalError.toByte]⟩ hc).2 (by simp)
    unfold splitMessage
    rw [h0, h]
    exact split_spells (m := ⟨m.cid, .cbor, [Status.internalError.toByte]⟩) hc h

theorem Spells.packets {ps : List Bytes} {cid : Bytes} {cmd : Nat} {payload : Bytes} (h : Spells ps cid cmd payload) :
    ∀ q ∈ ps, q.length = 64 ∧ q.take 4 = cid := by
  obtain ⟨p0, rest, data0, datas, rfl, h1, h2, h3, _⟩ := h
  intro q hq
  rcases List.mem_cons.1 hq with rfl | hq
  · refine ⟨?_, h1.take4⟩
    obtain ⟨_, _, _, rfl, h4, h5, _⟩ := h1
    simp [h4, h5]
  · obtain ⟨i, hi, rfl⟩ := List.mem_iff_getElem.1 hq
    have := h3 i hi (by omega)
    refine ⟨?_, this.take4⟩
    obtain ⟨_, h6, h4, h5, _⟩ := this
    rw [h6]
    simp [h4, h5]

/-! ## Receiving -/

theorem parsed_cid {maxMsg now : Nat} {h : Hid.Hid} {p : Bytes} {dis : Bool} {m : Message} (hp : p.length = 64)
    (ha : h.asm.idle = true → h.asm.payload = []) (hm : (h.parsePacket maxMsg now p dis).2 = some m) : m.cid = p.take 4 := by
  unfold Hid.Hid.parsePacket at hm
  dsimp only at hm
  have hf := Hid.pre_fields now h dis
  have hpre : (if dis = true then (h, some Hid.channelReserved) else h.lockedChannel now) = h.pre now dis := rfl
  rw [hpre, hf.1] at hm
  cases hr : (h.asm.parsePacket maxMsg now p (h.pre now dis).2).2 with
  | ok x =>
    rw [hr] at hm
    cases x with
    | none => cases hm
    | some m0 =>
      have h1 := Hid.parse_ok_cid hp ha hr
      rw [← h1]
      dsimp only at hm
      unfold Hid.Hid.preprocess at hm
      repeat' split at hm
      all_goals first | (cases hm; done) | (cases hm; rfl)
  | error ce =>
    obtain ⟨c, e⟩ := ce
    rw [hr] at hm
    have h1 := Hid.parse_err_cid hr
    rw [← h1]
    dsimp only at hm
    repeat' split at hm
    all_goals first | (cases hm; done) | (cases hm; rfl)

/-- A message that is passed on is the one that was assembled. -/
theorem parsed_message {maxMsg now : Nat} {h : Hid.Hid} {p : Bytes} {dis : Bool} {m : Message}
    (hm : (h.parsePacket maxMsg now p dis).2 = some m) (hc : m.cmd = .cbor ∨ m.cmd = .msg ∨ m.cmd = .ping ∨ m.cmd = .wink) :
    (h.asm.parsePacket maxMsg now p (h.pre now dis).2).2 = .ok (some m) ∧ h.isAllocated m.cid = true := by
  obtain ⟨h2, ha, _, _, _, ⟨m0, h3, h4⟩ | ⟨_, _, h3⟩⟩ := Hid.hid_parse_cases maxMsg now h p dis
  · rw [h4] at hm
    have he : m.cmd ≠ .error := by rcases hc with h | h | h | h <;> rw [h] <;> decide
    obtain ⟨h5, h6, h7⟩ := Hid.preprocess_served hm he
    have : m0 = m := by
      unfold Hid.Hid.preprocess at hm
      rw [h7] at hc
      simp only [h6, Bool.not_true, Bool.false_eq_true, if_false] at hm
      rcases hc with h | h | h | h <;> (rw [h] at hm; simpa using hm)
    subst this
    refine ⟨h3, ?_⟩
    unfold Hid.Hid.hasValidChannel at h6
    split at h6
    · rcases hc with h | h | h | h <;> rw [h] at h6 <;> cases h6
    · unfold Hid.Hid.isAllocated at h6 ⊢
      rwa [ha] at h6
  · rcases h3 with h3 | ⟨c, e, h3⟩
    · rw [h3] at hm; cases hm
    · rw [h3] at hm
      cases hm
      rcases hc with h | h | h | h <;> cases h

/-! ## Handling -/

theorem mapRes_ok {f : α → β} {r : Res α} {y : β} : mapRes f r = .ok y ↔ ∃ x, r = .ok x ∧ y = f x := by
  cases r <;> simp [mapRes, eq_comm]

theorem ctap1Message_cid {cid : Bytes} {r : Except Sw Bytes} : (ctap1Message cid r).cid = cid := by cases r <;> rfl

theorem processMessage_cid {t : Transport} {m m' : Message} {d d' : Device} (h : processMessage t m d = (.ok m', d')) :
    m'.cid = m.cid := by
  obtain ⟨cid, cmd, payload⟩ := m
  cases t <;> cases cmd <;> simp only [processMessage, mainMessage, vendorMessage, answer, Prod.mk.injEq, mapRes_ok] at h
  all_goals first
    | (obtain ⟨⟨x, _, rfl⟩, _⟩ := h; first | exact ctap1Message_cid | rfl)
    | (obtain ⟨h, _⟩ := h; cases h; rfl)
    | (split at h <;> cases h <;> rfl)

theorem mapRes_alive {f : α → β} {r : Res α} : (mapRes f r).alive = r.alive := by cases r <;> rfl

end Verif.Usb
