import Verif.Usb.Lemmas
namespace Verif.Usb
open Verif.Ctap hiding Transport
open Verif.Hid (Transport IsInit IsCont Message Both Asm Cmd runAsm natToCid)
variable [Dev]
set_option linter.unusedSectionVars false

theorem processMessage_hid {t : Transport} {m : Message} {d : Device} : (processMessage t m d).2.hid = d.hid := by
  obtain ⟨cid, cmd, payload⟩ := m
  cases t <;> cases cmd <;> simp only [processMessage, mainMessage, vendorMessage, answer]
  all_goals (split <;> rfl)

theorem processPacket_hid {t : Transport} {p : Bytes} {d : Device} :
    (processPacket t p d).2.hid = (d.hid.parsePacket Dev.maxMsgSize d.st.env.now t p).1 := by
  unfold processPacket
  dsimp only
  split
  · rfl
  · exact processMessage_hid

theorem packetsOn_snoc {t : Transport} {l : List Event} {e : Event} :
    packetsOn t (l ++ [e]) = packetsOn t l ++ packetsOn t [e] := by simp [packetsOn]

/-- What the history says about the interfaces. -/
structure Inv (l : List Event) (d : Device) : Prop where
  asm : ∀ t, ∃ xs : List (Nat × Bytes × Option Bytes), xs.map (fun x => (x.1, x.2.1)) = packetsOn t l ∧
    (∀ x ∈ xs, x.2.1.length = 64) ∧ (d.hid.get t).asm = runAsm Dev.maxMsgSize Asm.default xs
  given : ∀ t k, 1 ≤ k → k ≤ (d.hid.get t).allocated → GaveOut t l (natToCid k)

theorem Inv.idle {l : List Event} {d : Device} (h : Inv l d) (t : Transport) :
    (d.hid.get t).asm.idle = true → (d.hid.get t).asm.payload = [] := by
  obtain ⟨xs, _, h2, h3⟩ := h.asm t
  rw [h3]
  exact (Hid.ghost_run _ xs (Hid.Ghost.init _) h2).1

theorem hid_asm {maxMsg now : Nat} {h : Hid.Hid} {p : Bytes} {dis : Bool} :
    (h.parsePacket maxMsg now p dis).1.asm = (h.asm.parsePacket maxMsg now p (h.pre now dis).2).1 := by
  obtain ⟨h2, _, h1, _, _, ⟨m0, _, h4⟩ | ⟨_, h4, _⟩⟩ := Hid.hid_parse_cases maxMsg now h p dis
  · rw [h4, Hid.preprocess_asm, h1]
  · rw [h4, h1]

/-- The answer to an INIT. -/
theorem parsed_init {maxMsg now : Nat} {h : Hid.Hid} {p : Bytes} {dis : Bool} {m : Message}
    (hm : (h.parsePacket maxMsg now p dis).2 = some m) (hc : m.cmd = .init) (hl : m.cid.length = 4) :
    m.payload.length = 17 := by
  obtain ⟨h2, ha, _, _, _, ⟨m0, h3, h4⟩ | ⟨_, _, h3⟩⟩ := Hid.hid_parse_cases maxMsg now h p dis
  · rw [h4] at hm
    obtain ⟨h5, h6, h7⟩ := Hid.preprocess_served hm (by rw [hc]; decide)
    unfold Hid.Hid.preprocess at hm
    have hc0 := hc
    rw [h7] at hc0
    simp only [h6, Bool.not_true, Bool.false_eq_true, if_false, hc0] at hm
    split at hm
    · obtain rfl : Hid.errorMessage m0.cid .invalidLen = m := by simpa using hm
      cases hc
    · rename_i h8
      have h9 : m0.payload.length = 8 := by omega
      simp only [Option.some.injEq] at hm
      subst hm
      have hl' : m0.cid.length = 4 := hl
      split <;> simp [h9, natToCid, hl']
  · rcases h3 with h3 | ⟨c, e, h3⟩
    · rw [h3] at hm; cases hm
    · rw [h3] at hm
      cases hm
      cases hc

/-- A new channel is reported to the client that asked for it. -/
theorem given_out {t : Transport} {p : Bytes} {d : Device} {k : Nat} (hp : p.length = 64)
    (hi : (d.hid.get t).asm.idle = true → (d.hid.get t).asm.payload = [])
    (hk : k = (d.hid.get t).allocated + 1)
    (h : ((processPacket t p d).2.hid.get t).allocated = (d.hid.get t).allocated + 1) :
    p.take 4 = [0xFF, 0xFF, 0xFF, 0xFF] ∧ ∃ q data, (processPacket t p d).1 = .ok [q] ∧
      IsInit q [0xFF, 0xFF, 0xFF, 0xFF] 0x06 17 data ∧ (data.drop 8).take 4 = natToCid k := by
  rw [processPacket_hid] at h
  obtain ⟨b1, b2, b3⟩ := Hid.both_step Dev.maxMsgSize d.st.env.now d.hid t p
  rw [b1] at h
  rcases Hid.hid_step_alloc Dev.maxMsgSize d.st.env.now (d.hid.get t) p ((d.hid.get t.other).hasChannelLock d.st.env.now).2 with ⟨h1, _⟩ | ⟨_, h2⟩
  · omega
  rw [← b3] at h2
  cases hm : (d.hid.parsePacket Dev.maxMsgSize d.st.env.now t p).2 with
  | none => rw [hm] at h2; cases h2
  | some m =>
    have hm' := b3.symm.trans hm
    have hcid : m.cid = p.take 4 := parsed_cid hp hi hm'
    rw [hm, ← hk] at h2
    by_cases hi' : m.cmd = .init ∧ m.cid = [0xFF, 0xFF, 0xFF, 0xFF]
    · have h3 : (m.payload.drop 8).take 4 = natToCid k := by simpa [Hid.handedOut, hi'] using h2
      obtain ⟨hc, hb⟩ := hi'
      have h17 : m.payload.length = 17 := parsed_init hm' hc (by rw [hb]; rfl)
      refine ⟨by rw [← hcid, hb], ?_⟩
      have hr : (processPacket t p d).1 = .ok (splitMessage m) := by
        unfold processPacket
        dsimp only
        rw [hm]
        dsimp only
        cases t <;> simp only [processMessage, mainMessage, vendorMessage, hc, mapRes]
      obtain ⟨p0, ps, data0, h4, h5, h6, _, h7, _⟩ := (Hid.C06_split_shape m (by rw [hb]; rfl)).2 (by omega)
      have h8 : ps = [] := List.eq_nil_of_length_eq_zero (by omega)
      refine ⟨p0, data0, by rw [hr, splitMessage, h4, h8], ?_, ?_⟩
      · rw [hb, hc, h17] at h5; exact h5
      · rw [h7, ← h3, List.take_of_length_le (l := m.payload) (by omega), List.drop_append_of_le_length (by omega),
          List.take_append_of_le_length (by rw [List.length_drop]; omega)]
    · have : Hid.handedOut [some m] = [] := by simp [Hid.handedOut]; simpa using hi'
      rw [this] at h2
      cases h2

theorem trace_inv {l : List Event} {d : Device} (h : Trace l d) : Inv l d := by
  induction h with
  | boot d h =>
    refine ⟨fun t => ⟨[], rfl, by simp, by cases t <;> rfl⟩, fun t k h1 h2 => ?_⟩
    have : ((boot d).2.hid.get t).allocated = 0 := by cases t <;> rfl
    omega
  | @step l d o i h hi ha ih =>
    cases i with
    | packet t p =>
      have hp := hi t p rfl
      obtain ⟨b1, b2, _⟩ := Hid.both_step Dev.maxMsgSize d.st.env.now d.hid t p
      have hh : (step (.packet t p) (d.withOracle o)).2.hid = (d.hid.parsePacket Dev.maxMsgSize d.st.env.now t p).1 :=
        processPacket_hid
      constructor
      · intro t'
        obtain ⟨xs, h1, h2, h3⟩ := ih.asm t'
        rw [hh, packetsOn_snoc]
        rcases Hid.tr_cases t t' with rfl | rfl
        · refine ⟨xs ++ [(d.st.env.now, p, ((d.hid.get t').pre d.st.env.now ((d.hid.get t'.other).hasChannelLock d.st.env.now).2).2)], ?_, ?_, ?_⟩
          · simp [h1, packetsOn]
          · intro x hx
            rcases List.mem_append.1 hx with hx | hx
            · exact h2 x hx
            · rw [List.mem_singleton.1 hx]; exact hp
          · rw [b1, hid_asm, Hid.runAsm_append, ← h3]; rfl
        · refine ⟨xs, ?_, h2, ?_⟩
          · have : t ≠ t.other := by cases t <;> simp [Hid.Transport.other]
            simp [h1, packetsOn, this]
          · rw [b2, Hid.hasChannelLock_asm, h3]
      · intro t' k h1 h2
        have old : k ≤ (d.hid.get t').allocated → GaveOut t' (l ++ [⟨d.st.env.now, .packet t p, (step (.packet t p) (d.withOracle o)).1⟩]) (natToCid k) := by
          intro hk
          obtain ⟨e, he, h3⟩ := ih.given t' k h1 hk
          exact ⟨e, List.mem_append_left _ he, h3⟩
        rcases Hid.tr_cases t t' with rfl | rfl
        · by_cases hk : k ≤ (d.hid.get t').allocated
          · exact old hk
          · have h4 : ((processPacket t' p (d.withOracle o)).2.hid.get t').allocated ≤ (d.hid.get t').allocated + 1 := by
              rw [processPacket_hid]
              show ((d.hid.parsePacket Dev.maxMsgSize d.st.env.now t' p).1.get t').allocated ≤ _
              rw [b1]
              rcases Hid.hid_step_alloc Dev.maxMsgSize d.st.env.now (d.hid.get t') p ((d.hid.get t'.other).hasChannelLock d.st.env.now).2 with h | h <;> omega
            have h5 : k ≤ ((processPacket t' p (d.withOracle o)).2.hid.get t').allocated := h2
            obtain ⟨h6, q, data, h7, h8⟩ := given_out (d := d.withOracle o) (k := k) hp (ih.idle t')
              (show k = (d.hid.get t').allocated + 1 by omega)
              (show _ = (d.hid.get t').allocated + 1 by omega)
            exact ⟨_, List.mem_append_right _ (List.mem_singleton.2 rfl), p, q, data, rfl, h6, h7, h8⟩
        · apply old
          rw [hh, b2, Hid.hasChannelLock_alloc] at h2
          exact h2
    | touch =>
      refine ⟨fun t => ?_, fun t k h1 h2 => ?_⟩
      · obtain ⟨xs, h1, h2, h3⟩ := ih.asm t
        exact ⟨xs, by simp [h1, packetsOn], h2, h3⟩
      · obtain ⟨e, he, h3⟩ := ih.given t k h1 h2
        exact ⟨e, List.mem_append_left _ he, h3⟩
    | wait ms =>
      refine ⟨fun t => ?_, fun t k h1 h2 => ?_⟩
      · obtain ⟨xs, h1, h2, h3⟩ := ih.asm t
        exact ⟨xs, by simp [h1, packetsOn], h2, h3⟩
      · obtain ⟨e, he, h3⟩ := ih.given t k h1 h2
        exact ⟨e, List.mem_append_left _ he, h3⟩

end Verif.Usb
