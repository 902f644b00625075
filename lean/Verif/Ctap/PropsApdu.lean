import Verif.Ctap.ApduSpec

/-!
# C53: parsing of APDUs and U2F requests
-/
namespace Verif.Ctap
open Verif.Cbor (beNat)

theorem beNat_two (a b : UInt8) : beNat [a, b] = be2 a b := by
  simp [beNat, be2]

theorem parseExt_eq (cla ins p1 p2 l1 l2 : UInt8) (data tail : Bytes) (h : data.length = be2 l1 l2) :
    Apdu.parseExt cla ins p1 p2 (0 :: l1 :: l2 :: (data ++ tail)) =
      match tail with
      | [] => .ok ⟨cla, ins, p1, p2, be2 l1 l2, data, 0, .extLc3Data⟩
      | [b] => .ok ⟨cla, ins, p1, p2, be2 l1 l2, data, le1 b, .extLc3DataLe1⟩
      | [b1, b2] => .ok ⟨cla, ins, p1, p2, be2 l1 l2, data, le2 [b1, b2], .extLc3DataLe2⟩
      | [b0, b1, b2] => if b0 ≠ 0 then .error .internalException
        else .ok ⟨cla, ins, p1, p2, be2 l1 l2, data, le2 [b1, b2], .extLe3⟩
      | _ => .error .wrongLength := by
  unfold Apdu.parseExt
  have hlc : beNat (((0 :: l1 :: l2 :: (data ++ tail)).drop 1).take 2) = be2 l1 l2 := beNat_two l1 l2
  have hn : (0 :: l1 :: l2 :: (data ++ tail) : Bytes).length = be2 l1 l2 + 3 + tail.length := by
    simp [h]; omega
  simp only [hlc, hn]
  rw [if_neg (by omega)]
  have hle : be2 l1 l2 + 3 + tail.length - (be2 l1 l2 + 3) = tail.length := by omega
  have hdata : ((0 :: l1 :: l2 :: (data ++ tail) : Bytes).take (be2 l1 l2 + 3 + tail.length - tail.length)).drop 3 = data := by
    rw [show be2 l1 l2 + 3 + tail.length - tail.length = data.length + 3 by omega]
    simp
  rw [hle, hdata]
  have hdrop (k : Nat) (hk : k ≤ tail.length) :
      (0 :: l1 :: l2 :: (data ++ tail) : Bytes).drop (be2 l1 l2 + 3 + tail.length - k) = tail.drop (tail.length - k) := by
    rw [show be2 l1 l2 + 3 + tail.length - k = (data.length + (tail.length - k)) + 3 by omega]
    simp [List.drop_append]
  clear hdata hle hn hlc
  generalize be2 l1 l2 = L at *
  match tail, hdrop with
  | [], _ => rfl
  | [b], _ =>
    simp only [List.length_singleton, List.headD_cons]
    have : (0 :: l1 :: l2 :: (data ++ [b]) : Bytes).getLastD 0 = b := by
      rw [show (0 :: l1 :: l2 :: (data ++ [b]) : Bytes) = (0 :: l1 :: l2 :: data) ++ [b] by simp, List.getLastD_concat]
    rw [this]
    simp
  | [b1, b2], hd =>
    have := hd 2 (by simp)
    simp only [List.length_cons, List.length_nil] at this ⊢
    simp only [List.headD_cons]
    rw [this]
    simp
  | [b0, b1, b2], hd =>
    have h2 := hd 2 (by simp)
    have h3 := hd 3 (by simp)
    simp only [List.length_cons, List.length_nil] at h2 h3 ⊢
    have hg : (0 :: l1 :: l2 :: (data ++ [b0, b1, b2]) : Bytes).getD (L + 3 + (0 + 1 + 1 + 1) - 3) 0 = b0 := by
      rw [List.getD_eq_getElem?_getD, ← List.head?_drop, h3]; rfl
    simp only [List.headD_cons]
    rw [h2, hg]
    simp
  | _ :: _ :: _ :: _ :: _, _ => simp

theorem short_pos {lc : UInt8} {data : Bytes} (h : data.length = lc.toNat) (h0 : lc ≠ 0) : 0 < data.length := by
  rw [h]; exact Nat.pos_of_ne_zero fun h => h0 (UInt8.toNat_inj.1 h)

theorem parse_ext {cla ins p1 p2 l1 l2 : UInt8} {rest : Bytes} :
    Apdu.parse (cla :: ins :: p1 :: p2 :: 0 :: l1 :: l2 :: rest) = Apdu.parseExt cla ins p1 p2 (0 :: l1 :: l2 :: rest) := by
  simp [Apdu.parse]

theorem parse_layout {m : Bytes} {a : Apdu} (h : ApduLayout m a) : Apdu.parse m = .ok a := by
  cases h with
  | instruction => rfl
  | le cla ins p1 p2 b => rfl
  | short cla ins p1 p2 lc data h h0 =>
    have hl := short_pos h h0
    cases data with
    | nil => simp at hl
    | cons d data =>
      simp only [Apdu.parse]
      rw [if_pos ⟨by simp [h.symm]; omega, h0⟩]
  | shortLe cla ins p1 p2 lc b data h h0 =>
    have hl := short_pos h h0
    have hg : (data ++ [b]).getLastD 0 = b := List.getLastD_concat
    have hd : (data ++ [b]).dropLast = data := List.dropLast_concat
    cases data with
    | nil => simp at hl
    | cons d data =>
      rw [List.cons_append] at hg hd
      simp only [Apdu.parse, List.cons_append]
      rw [if_neg (by simp [h.symm]; omega), if_pos ⟨by simp [h.symm]; omega, h0⟩, hg, hd]
      rfl
  | ext cla ins p1 p2 l1 l2 data h =>
    have := parseExt_eq cla ins p1 p2 l1 l2 data [] h
    rw [List.append_nil] at this
    rw [parse_ext, this]
  | extLe1 cla ins p1 p2 l1 l2 b data h =>
    simp only [List.cons_append]
    rw [parse_ext, parseExt_eq cla ins p1 p2 l1 l2 data [b] h]; rfl
  | extLe2 cla ins p1 p2 l1 l2 b1 b2 data h =>
    simp only [List.cons_append]
    rw [parse_ext, parseExt_eq cla ins p1 p2 l1 l2 data [b1, b2] h]
    simp only [le2, beNat_two]
  | extLe3 cla ins p1 p2 l1 l2 b1 b2 data h =>
    simp only [List.cons_append]
    rw [parse_ext, parseExt_eq cla ins p1 p2 l1 l2 data [0, b1, b2] h]
    simp only [le2, beNat_two]
    rfl

theorem layout_of_parse {m : Bytes} {a : Apdu} (h : Apdu.parse m = .ok a) : ∃ a', ApduLayout m a' := by
  match m with
  | [] | [_] | [_, _] | [_, _, _] => cases h
  | [cla, ins, p1, p2] => exact ⟨_, .instruction ..⟩
  | [cla, ins, p1, p2, b] => exact ⟨_, .le ..⟩
  | cla :: ins :: p1 :: p2 :: b :: r0 :: rest =>
    simp only [Apdu.parse] at h
    by_cases h1 : (b :: r0 :: rest).length = 1 + b.toNat ∧ b ≠ 0
    · exact ⟨_, .short _ _ _ _ _ _ (by have := h1.1; simp at this ⊢; omega) h1.2⟩
    rw [if_neg h1] at h
    by_cases h2 : (b :: r0 :: rest).length = 2 + b.toNat ∧ b ≠ 0
    · have hne : r0 :: rest ≠ [] := by simp
      have hs := List.dropLast_concat_getLast hne
      rw [← hs]
      refine ⟨_, .shortLe cla ins p1 p2 b _ _ ?_ h2.2⟩
      have := h2.1
      simp at this ⊢
      omega
    rw [if_neg h2] at h
    by_cases h3 : (b :: r0 :: rest).length > 2
    · rw [if_pos h3] at h
      cases rest with
      | nil => simp at h3
      | cons r1 rest =>
        by_cases hb : b = 0
        · subst hb
          by_cases hl : rest.length < be2 r0 r1
          · unfold Apdu.parseExt at h
            have : beNat (((0 :: r0 :: r1 :: rest).drop 1).take 2) = be2 r0 r1 := beNat_two r0 r1
            simp only [this] at h
            rw [if_pos (by simp; omega)] at h
            cases h
          · have hlen : (rest.take (be2 r0 r1)).length = be2 r0 r1 := by simp; omega
            have hsp := List.take_append_drop (be2 r0 r1) rest
            rw [← hsp] at h ⊢
            rw [parseExt_eq _ _ _ _ _ _ _ _ hlen] at h
            generalize rest.drop (be2 r0 r1) = tail at h
            match tail with
            | [] => exact ⟨_, by rw [List.append_nil]; exact .ext _ _ _ _ _ _ _ hlen⟩
            | [b] => exact ⟨_, .extLe1 _ _ _ _ _ _ _ _ hlen⟩
            | [b1, b2] => exact ⟨_, .extLe2 _ _ _ _ _ _ _ _ _ hlen⟩
            | [b0, b1, b2] =>
              by_cases h0 : b0 = 0
              · subst h0; exact ⟨_, .extLe3 _ _ _ _ _ _ _ _ _ hlen⟩
              · simp [h0] at h
            | _ :: _ :: _ :: _ :: _ => simp at h
        · unfold Apdu.parseExt at h
          have hb' : (b :: r0 :: r1 :: rest).headD 0 ≠ 0 := hb
          simp only [ne_eq, hb', not_false_eq_true, if_true] at h
          split at h
          · cases h
          · split at h <;> cases h
    · rw [if_neg h3] at h; cases h

/-- **C53.** A frame is accepted exactly if it has the layout of an APDU, with its fields; in particular the data has
the announced length. -/
theorem C53_apdu {m : Bytes} {a : Apdu} : Apdu.parse m = .ok a ↔ ApduLayout m a := by
  refine ⟨fun h => ?_, parse_layout⟩
  obtain ⟨a', h'⟩ := layout_of_parse h
  have := parse_layout h'
  rw [h] at this
  cases this
  exact h'

theorem ApduLayout.length {m : Bytes} {a : Apdu} (h : ApduLayout m a) : a.data.length = a.lc := by
  cases h <;> first | rfl | assumption

theorem flags_parse {b : UInt8} {f : U2fFlags} : U2fFlags.parse b = .ok f ↔ b = f.byte := by
  unfold U2fFlags.parse
  constructor
  · intro h
    repeat' split at h
    all_goals cases h
    all_goals assumption
  · rintro rfl
    cases f <;> simp [U2fFlags.byte]

/-- **C53.** A frame is accepted as a U2F request exactly if it is an APDU of class 0 with the layout of this request:
a registration is a challenge and an application parameter of 32 bytes each and nothing else, an authentication has in
addition the length of the key handle and the key handle, and one of the three control bytes. -/
theorem C53_request {m : Bytes} {c : U2fCommand} :
    U2fCommand.parse m = .ok c ↔ ∃ a, ApduLayout m a ∧ a.cla = 0 ∧ U2fLayout a c := by
  constructor
  · intro h
    unfold U2fCommand.parse at h
    cases ha : Apdu.parse m with
    | error e => rw [ha] at h; cases h
    | ok a =>
      rw [ha] at h
      have hl := C53_apdu.1 ha
      have hlen := hl.length
      by_cases h0 : a.cla = 0
      · refine ⟨a, hl, h0, ?_⟩
        simp only [h0, hlen, ne_eq, not_true_eq_false, false_and, if_false] at h
        unfold U2fCommand.ofApdu at h
        by_cases h1 : a.ins = 1
        · rw [if_pos h1] at h
          by_cases h2 : a.lc = 64
          · simp only [h2, ne_eq, not_true_eq_false, if_false] at h
            cases h
            refine .register _ _ h1 (by simp; omega) (by simp; omega) ?_
            rw [List.take_of_length_le (l := a.data.drop 32) (by simp; omega), List.take_append_drop]
          · simp [h2] at h
        rw [if_neg h1] at h
        by_cases h1 : a.ins = 2
        · rw [if_pos h1] at h
          by_cases h2 : a.lc < 65
          · simp [h2] at h
          rw [if_neg h2] at h
          by_cases h3 : a.lc = 65 + (a.data.getD 64 0).toNat
          · rw [if_neg (by simpa using h3)] at h
            cases hf : U2fFlags.parse a.p1 with
            | error e => rw [hf] at h; cases h
            | ok f =>
              rw [hf] at h
              cases h
              have h4 : (a.data.drop 65).length = (a.data.getD 64 0).toNat := by rw [List.length_drop, hlen]; omega
              refine .authenticate _ _ _ _ h1 (flags_parse.1 hf) (by simp; omega) (by simp; omega) ?_ ?_
              · rw [h4]; exact UInt8.toNat_lt _
              · rw [h4, UInt8.ofNat_toNat]
                have e1 := (List.take_append_drop 32 a.data).symm
                have e2 := (List.take_append_drop 32 (a.data.drop 32)).symm
                have e3 : (a.data.drop 64) = a.data.getD 64 0 :: a.data.drop 65 := by
                  rw [List.drop_eq_getElem_cons (by omega), List.getD_eq_getElem?_getD, List.getElem?_eq_getElem (by omega)]; rfl
                rw [List.drop_drop] at e2
                rw [e3] at e2
                rw [List.append_assoc, List.append_assoc, List.singleton_append, ← e2]
                exact e1
          · rw [if_pos h3] at h; cases h
        rw [if_neg h1] at h
        by_cases h1 : a.ins = 3
        · rw [if_pos h1] at h
          by_cases h2 : a.lc = 0
          · simp only [h2, ne_eq, not_true_eq_false, if_false] at h
            cases h
            exact .version h1 (List.length_eq_zero_iff.1 (hlen.trans h2))
          · simp [h2] at h
        rw [if_neg h1] at h
        by_cases h1 : 0x40 ≤ a.ins ∧ a.ins ≤ 0xBF
        · rw [if_pos h1] at h
          cases h
          exact .vendor h1.1 h1.2
        · rw [if_neg h1] at h; cases h
      · simp [h0] at h
  · rintro ⟨a, hl, h0, hu⟩
    unfold U2fCommand.parse
    rw [C53_apdu.2 hl]
    have hlen := hl.length
    simp only [h0, hlen, ne_eq, not_true_eq_false, false_and, if_false]
    unfold U2fCommand.ofApdu
    cases hu with
    | register c p hi hc ha hd =>
      rw [if_pos hi, if_neg (by rw [← hlen, hd]; simp [hc, ha]), hd]
      rw [Except.ok.injEq, U2fCommand.register.injEq]
      constructor
      · simp [← hc]
      · rw [List.drop_left' hc, ← ha, List.take_length]
    | authenticate c p k f hi hp hc ha hk hd =>
      have h64 : a.data.getD 64 0 = UInt8.ofNat k.length := by
        rw [hd, List.getD_eq_getElem?_getD]
        simp [List.getElem?_append, hc, ha]
      have hlc : a.lc = 65 + k.length := by rw [← hlen, hd]; simp [hc, ha]; omega
      rw [if_neg (by rw [hi]; decide), if_pos hi, if_neg (by omega), h64, if_neg (by simp [hlc]; omega), flags_parse.2 hp]
      simp only [Except.ok.injEq, U2fCommand.authenticate.injEq, and_true]
      rw [hd]
      refine ⟨?_, ?_, ?_⟩
      · simp [← hc]
      · rw [List.append_assoc, List.append_assoc, List.drop_left' hc, List.take_left' ha]
      · rw [List.drop_append]; simp [hc, ha]
    | version hi hd =>
      have hlc : a.lc = 0 := by rw [← hlen, hd]; rfl
      rw [if_neg (by rw [hi]; decide), if_neg (by rw [hi]; decide), if_pos hi, if_neg (by simp [hlc])]
    | vendor h1 h2 =>
      have hx : a.ins ≠ 1 ∧ a.ins ≠ 2 ∧ a.ins ≠ 3 := by
        refine ⟨?_, ?_, ?_⟩ <;> rintro h <;> rw [h] at h1 <;> exact absurd h1 (by decide)
      rw [if_neg hx.1, if_neg hx.2.1, if_neg hx.2.2, if_pos ⟨h1, h2⟩]

end Verif.Ctap

namespace Verif.Ctap

deriving instance DecidableEq for Except

set_option maxRecDepth 10000 in
/-- C53: a version request, a registration in a short frame and an authentication in an extended one; a registration
with one byte too many is refused. -/
example : U2fCommand.parse [0, 3, 0, 0] = .ok .version ∧
    U2fCommand.parse ([0, 1, 0, 0, 64] ++ List.replicate 32 5 ++ List.replicate 32 6) =
      .ok (.register (List.replicate 32 5) (List.replicate 32 6)) ∧
    U2fCommand.parse ([0, 2, 3, 0, 0, 0, 67] ++ List.replicate 32 5 ++ List.replicate 32 6 ++ [2, 8, 9] ++ [0, 0]) =
      .ok (.authenticate (List.replicate 32 5) (List.replicate 32 6) [8, 9] .enforce) ∧
    U2fCommand.parse ([0, 1, 0, 0, 65] ++ List.replicate 32 5 ++ List.replicate 33 6) = .error .wrongLength :=
  by decide +kernel

end Verif.Ctap
