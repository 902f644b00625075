import Verif.Usb.Lemmas4
namespace Verif.Usb
open Verif.Ctap hiding Transport
open Verif.Hid (Transport IsInit IsCont Message Both Asm Cmd runAsm natToCid)
variable [Dev]
set_option linter.unusedSectionVars false

/-! ## Winking -/

theorem splitMessage_ne {m : Message} (hl : m.cid.length = 4) : splitMessage m ≠ [] := by
  intro h
  by_cases h7 : m.payload.length ≤ 7609
  · obtain ⟨_, _, _, _, h1, _⟩ := (splitMessage_spells hl).1 h7
    rw [h] at h1; cases h1
  · obtain ⟨_, _, _, _, h1, _⟩ := (splitMessage_spells hl).2 (by omega)
    rw [h] at h1; cases h1

theorem isInit_inj {p c c' : Bytes} {cmd cmd' len len' : Nat} {data data' : Bytes} (h : IsInit p c cmd len data)
    (h' : IsInit p c' cmd' len' data') : cmd = cmd' ∧ len = len' := by
  obtain ⟨b0, b1, b2, rfl, hc, _, h0, rfl⟩ := h
  obtain ⟨b0', b1', b2', he, hc', _, h0', rfl⟩ := h'
  have h1 := List.append_inj (by simpa using he) (by rw [hc, hc'])
  simp only [List.cons.injEq] at h1
  obtain ⟨_, rfl, rfl, rfl, _⟩ := h1
  exact ⟨by omega, rfl⟩

/-- The only messages that are answered with an empty WINK. -/
theorem split_wink {m : Message} (hl : m.cid.length = 4) {q c data : Bytes} (h : splitMessage m = [q])
    (hi : IsInit q c 0x08 0 data) : m.cmd = .wink ∧ m.payload = [] := by
  by_cases h7 : m.payload.length ≤ 7609
  · obtain ⟨p0, rest, d0, ds, h1, h2, _⟩ := (splitMessage_spells hl).1 h7
    rw [h] at h1
    cases h1
    obtain ⟨h3, h4⟩ := isInit_inj h2 hi
    refine ⟨?_, List.eq_nil_of_length_eq_zero h4⟩
    generalize m.cmd = cmd at h3
    cases cmd <;> simp [Cmd.toNat] at h3 ⊢
  · obtain ⟨p0, rest, d0, ds, h1, h2, _⟩ := (splitMessage_spells hl).2 (by omega)
    rw [h] at h1
    cases h1
    have := (isInit_inj h2 hi).1
    omega

theorem wink_split {m : Message} (hl : m.cid.length = 4) (hc : m.cmd = .wink) (hp : m.payload = []) :
    ∃ q data, splitMessage m = [q] ∧ IsInit q m.cid 0x08 0 data := by
  obtain ⟨p0, ps, data0, h4, h5, h6, _⟩ := (Hid.C06_split_shape m hl).2 (by simp [hp])
  have h8 : ps = [] := List.eq_nil_of_length_eq_zero (by simpa [hp] using h6)
  refine ⟨p0, data0, by rw [splitMessage, h4, h8], ?_⟩
  rw [hc, hp] at h5
  exact h5

theorem vendor_wink {p : Bytes} {d : Device} : (processPacket .vendor p d).2.wink = d.wink := by
  unfold processPacket
  dsimp only
  split
  · rfl
  · rename_i m _
    obtain ⟨cid, cmd, payload⟩ := m
    cases cmd <;> rfl

theorem main_wink {l : List Event} {d : Device} (hI : Inv l d) {p : Bytes} (hp : p.length = 64) :
    ((processPacket .main p d).1 = .ok [] ∧ (processPacket .main p d).2.wink = d.wink) ∨
    ((processPacket .main p d).1 ≠ .ok [] ∧ (∃ q c data, (processPacket .main p d).1 = .ok [q] ∧ IsInit q c 0x08 0 data) ∧
      (processPacket .main p d).2.wink = some (d.st.env.now + 5000)) ∨
    ((processPacket .main p d).1 ≠ .ok [] ∧ (¬ ∃ q c data, (processPacket .main p d).1 = .ok [q] ∧ IsInit q c 0x08 0 data) ∧
      (processPacket .main p d).2.wink = none) := by
  obtain ⟨b1, b2, b3⟩ := Hid.both_step Dev.maxMsgSize d.st.env.now d.hid .main p
  cases hm : (d.hid.parsePacket Dev.maxMsgSize d.st.env.now .main p).2 with
  | none => left; rw [processPacket_none hm]; exact ⟨rfl, rfl⟩
  | some m =>
    right
    have hm' := b3.symm.trans hm
    have hcid : m.cid = p.take 4 := parsed_cid hp (hI.idle .main) hm'
    have hl : m.cid.length = 4 := by rw [hcid]; simp [hp]
    rw [processPacket_some hm]
    generalize (d.hid.parsePacket Dev.maxMsgSize d.st.env.now .main p).1 = hid
    have hne : mapRes splitMessage (processMessage .main m { d with hid := hid }).1 ≠ .ok [] := by
      intro h
      obtain ⟨m', h1, h2⟩ := mapRes_ok.1 h
      exact splitMessage_ne (by rw [processMessage_cid (Prod.ext h1 rfl), hl]) h2.symm
    by_cases hw : m.cmd = .wink ∧ m.payload = []
    · left
      have h1 : processMessage .main m { d with hid := hid } = (.ok m, { d with hid := hid, wink := some (d.st.env.now + 5000) }) := by
        obtain ⟨cid, cmd, payload⟩ := m
        obtain ⟨rfl, rfl⟩ := hw
        rfl
      rw [h1] at hne ⊢
      obtain ⟨q, data, h2, h3⟩ := wink_split hl hw.1 hw.2
      exact ⟨hne, ⟨q, m.cid, data, by simp [mapRes, h2], h3⟩, rfl⟩
    · right
      refine ⟨hne, ?_, ?_⟩
      · rintro ⟨q, c, data, h1, h2⟩
        obtain ⟨m', h3, h4⟩ := mapRes_ok.1 h1
        obtain ⟨h5, h6⟩ := split_wink (by rw [processMessage_cid (Prod.ext h3 rfl), hl]) h4.symm h2
        apply hw
        obtain ⟨cid, cmd, payload⟩ := m
        cases cmd <;> simp only [processMessage, mainMessage, answer, mapRes_ok] at h3
        case msg => obtain ⟨r, _, rfl⟩ := h3; rw [ctap1Message_content] at h5; cases h5
        case cbor => obtain ⟨r, _, rfl⟩ := h3; cases h5
        case wink =>
          split at h3
          · rename_i h7; exact ⟨rfl, h7⟩
          · cases h3; cases h5
        all_goals (cases h3; cases h5)
      · obtain ⟨cid, cmd, payload⟩ := m
        cases cmd <;> simp only [processMessage, mainMessage, answer]
        simp at hw
        simp [hw]

/-- A packet on the main interface was answered. -/
theorem trace_wink {l : List Event} {d : Device} (h : Trace l d) (dl : Nat) :
    d.wink = some dl ↔ ∃ pre e post, l = pre ++ e :: post ∧ Winked e ∧ e.time + 5000 = dl ∧ ∀ e' ∈ post, Unanswered e' := by
  induction h with
  | boot d h => simp [boot]
  | @step l d o i h hi ha ih =>
    have hI := trace_inv h
    have keep (h1 : (step i (d.withOracle o)).2.wink = d.wink)
        (h2 : Unanswered ⟨d.st.env.now, i, (step i (d.withOracle o)).1⟩) (h3 : ¬ Winked ⟨d.st.env.now, i, (step i (d.withOracle o)).1⟩) :
        (step i (d.withOracle o)).2.wink = some dl ↔
        ∃ pre e post, l ++ [⟨d.st.env.now, i, (step i (d.withOracle o)).1⟩] = pre ++ e :: post ∧ Winked e ∧ e.time + 5000 = dl ∧
          ∀ e' ∈ post, Unanswered e' := by
      rw [h1, ih]
      constructor
      · rintro ⟨pre, e, post, rfl, h4, h5, h6⟩
        refine ⟨pre, e, post ++ [⟨d.st.env.now, i, (step i (d.withOracle o)).1⟩], by simp, h4, h5, ?_⟩
        intro e' he'
        rcases List.mem_append.1 he' with he' | he'
        · exact h6 e' he'
        · rw [List.mem_singleton.1 he']; exact h2
      · rintro ⟨pre, e, post, h4, h5, h6, h7⟩
        rcases List.eq_nil_or_concat post with rfl | ⟨post', x, rfl⟩
        · have := List.append_inj' h4 rfl
          simp only [List.cons.injEq, and_true] at this
          rw [← this.2] at h5
          exact absurd h5 h3
        · rw [List.concat_eq_append] at h4 h7
          rw [← List.cons_append, ← List.append_assoc] at h4
          have := List.append_inj' h4 rfl
          refine ⟨pre, e, post', this.1, h5, h6, fun e' he' => h7 e' (List.mem_append_left _ he')⟩
    cases i with
    | packet t p =>
      have hp := hi t p rfl
      cases t with
      | main =>
        have hI' : Inv l (d.withOracle o) := ⟨hI.asm, hI.given⟩
        have last (hn : (processPacket .main p (d.withOracle o)).1 ≠ .ok []) :
            (∃ pre e post, l ++ [⟨d.st.env.now, .packet .main p, (processPacket .main p (d.withOracle o)).1⟩] = pre ++ e :: post ∧
              Winked e ∧ e.time + 5000 = dl ∧ ∀ e' ∈ post, Unanswered e') ↔
            Winked ⟨d.st.env.now, .packet .main p, (processPacket .main p (d.withOracle o)).1⟩ ∧ d.st.env.now + 5000 = dl := by
          constructor
          · rintro ⟨pre, e, post, h4, h5, h6, h7⟩
            rcases List.eq_nil_or_concat post with rfl | ⟨post', x, rfl⟩
            · have := List.append_inj' h4 rfl
              simp only [List.cons.injEq, and_true] at this
              rw [← this.2] at h5 h6
              exact ⟨h5, h6⟩
            · exfalso
              rw [List.concat_eq_append] at h4 h7
              rw [← List.cons_append, ← List.append_assoc] at h4
              have := List.append_inj' h4 rfl
              simp only [List.cons.injEq, and_true] at this
              have h8 := h7 x (List.mem_append_right _ (List.mem_singleton.2 rfl))
              rw [← this.2] at h8
              exact hn (h8 p rfl)
          · rintro ⟨h5, h6⟩
            exact ⟨l, _, [], rfl, h5, h6, by simp⟩
        rcases main_wink hI' hp with ⟨h1, h2⟩ | ⟨h1, h2, h3⟩ | ⟨h1, h2, h3⟩
        · apply keep h2
          · intro _ _; exact h1
          · rintro ⟨_, q, _, _, _, h4, _⟩
            change (processPacket .main p (d.withOracle o)).1 = _ at h4
            rw [h1] at h4
            cases h4
        · show (processPacket .main p (d.withOracle o)).2.wink = some dl ↔ _
          refine Iff.trans ?_ (last h1).symm
          rw [h3]
          obtain ⟨q, c, data, h4⟩ := h2
          constructor
          · intro h5
            exact ⟨⟨p, q, c, data, rfl, h4⟩, by simpa [Device.withOracle, St.withOracle] using h5⟩
          · rintro ⟨_, h5⟩
            simpa [Device.withOracle, St.withOracle] using h5
        · show (processPacket .main p (d.withOracle o)).2.wink = some dl ↔ _
          refine Iff.trans ?_ (last h1).symm
          rw [h3]
          constructor
          · intro h5; cases h5
          · rintro ⟨⟨_, q, c, data, _, h4⟩, _⟩
            exact absurd ⟨q, c, data, h4⟩ h2
      | vendor =>
        apply keep vendor_wink
        · intro _ h1; cases h1
        · rintro ⟨_, _, _, _, h1, _⟩; cases h1
    | touch =>
      apply keep rfl
      · intro _ h1; cases h1
      · rintro ⟨_, _, _, _, h1, _⟩; cases h1
    | wait ms =>
      apply keep rfl
      · intro _ h1; cases h1
      · rintro ⟨_, _, _, _, h1, _⟩; cases h1

/-! ## A new channel -/

theorem init_packet {t : Transport} {p data : Bytes} {d : Device} (hidle : (d.hid.get t).asm.idle = true)
    (hpay : (d.hid.get t).asm.payload = []) (hq : Quiet d) (hmax : 8 ≤ Dev.maxMsgSize) (hp : IsInit p [0xFF, 0xFF, 0xFF, 0xFF] 0x06 8 data) :
    ∃ q data', (processPacket t p d).1 = .ok [q] ∧ IsInit q [0xFF, 0xFF, 0xFF, 0xFF] 0x06 17 data' ∧ data'.take 8 = data.take 8 ∧
      (data'.drop 8).take 4 = natToCid ((d.hid.get t).allocated + 1) ∧
      (processPacket t p d).2.st = d.st ∧ ((processPacket t p d).2.hid.get t).allocated = (d.hid.get t).allocated + 1 ∧
      ((processPacket t p d).2.hid.get t).asm.idle = true ∧ ((processPacket t p d).2.hid.get t).asm.payload = [] ∧
      Open (processPacket t p d).2 := by
  have hd57 : data.length = 57 := by obtain ⟨_, _, _, _, _, h, _⟩ := hp; exact h
  have hpp := Hid.parse_own_init (maxMsg := Dev.maxMsgSize) (t := d.st.env.now) (l := none) (a := (d.hid.get t).asm) (p := p)
    hidle hp (by decide) hmax rfl
  unfold Asm.appendPayload at hpp
  simp only [hpay, List.nil_append, hd57, show ¬ 57 < 8 by decide, if_false] at hpp
  obtain ⟨h2, q1, q2, q3, q4, q5⟩ := hid_next (t := t) (p := p) hq
  rw [hpp] at q5 q3
  have hl8 : (data.take 8).length = 8 := by simp [hd57]
  have q6 : h2.preprocess d.st.env.now ⟨[0xFF, 0xFF, 0xFF, 0xFF], Cmd.ofByte 0x06, data.take 8⟩ =
      ({ h2 with allocated := h2.allocated + 1 }, some ⟨[0xFF, 0xFF, 0xFF, 0xFF], .init,
        data.take 8 ++ natToCid (h2.allocated + 1) ++ [2, 1, 0, 0, h2.capabilities]⟩) := by
    simp [Hid.Hid.preprocess, Hid.Hid.hasValidChannel, Hid.channelBroadcast, Cmd.ofByte, hd57]
  simp only [q6, Prod.mk.injEq] at q5
  have q7 : processPacket t p d = (.ok (splitMessage ⟨[0xFF, 0xFF, 0xFF, 0xFF], .init,
        data.take 8 ++ natToCid (h2.allocated + 1) ++ [2, 1, 0, 0, h2.capabilities]⟩),
      { d with hid := (d.hid.parsePacket Dev.maxMsgSize d.st.env.now t p).1, wink := if t = .main then none else d.wink }) := by
    rw [processPacket_some q5.2]
    cases t <;> simp [processMessage, mainMessage, vendorMessage, mapRes]
  have hlen : (data.take 8 ++ natToCid (h2.allocated + 1) ++ [2, 1, 0, 0, h2.capabilities]).length = 17 := by
    simp [hd57, natToCid]
  obtain ⟨p0, ps, data0, h4, h5, h6, _, h7, _⟩ := (Hid.C06_split_shape ⟨[0xFF, 0xFF, 0xFF, 0xFF], .init,
        data.take 8 ++ natToCid (h2.allocated + 1) ++ [2, 1, 0, 0, h2.capabilities]⟩ rfl).2 (by rw [hlen]; omega)
  rw [hlen] at h5 h6
  have h8 : ps = [] := List.eq_nil_of_length_eq_zero (by omega)
  rw [q7]
  refine ⟨p0, data0, by rw [splitMessage, h4, h8], h5, ?_, ?_, rfl, ?_, ?_, ?_, open_of (t := t) ?_ q4⟩
  · rw [h7, List.take_of_length_le (i := 57) (by rw [hlen]; omega)]
    simp [List.append_assoc, hd57]
  · rw [h7, List.take_of_length_le (i := 57) (by rw [hlen]; omega), ← q1]
    simp only [List.append_assoc]
    rw [List.drop_append_of_le_length (by omega), List.drop_of_length_le (by omega)]
    simp [natToCid]
  · show ((d.hid.parsePacket Dev.maxMsgSize d.st.env.now t p).1.get t).allocated = _; rw [q5.1, ← q1]
  · show ((d.hid.parsePacket Dev.maxMsgSize d.st.env.now t p).1.get t).asm.idle = _; rw [q5.1]; show h2.asm.idle = _; rw [q3]
  · show ((d.hid.parsePacket Dev.maxMsgSize d.st.env.now t p).1.get t).asm.payload = _; rw [q5.1]; show h2.asm.payload = _; rw [q3]
  · show ((d.hid.parsePacket Dev.maxMsgSize d.st.env.now t p).1.get t).locked = _; rw [q5.1]; exact q2

end Verif.Usb
