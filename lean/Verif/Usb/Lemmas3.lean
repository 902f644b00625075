import Verif.Usb.Lemmas2
namespace Verif.Usb
open Verif.Ctap hiding Transport
open Verif.Hid (Transport IsInit IsCont Message Both Asm Cmd runAsm natToCid)
variable [Dev]
set_option linter.unusedSectionVars false

theorem processPacket_some {t : Transport} {p : Bytes} {d : Device} {m : Message}
    (h : (d.hid.parsePacket Dev.maxMsgSize d.st.env.now t p).2 = some m) :
    processPacket t p d =
      (mapRes splitMessage (processMessage t m { d with hid := (d.hid.parsePacket Dev.maxMsgSize d.st.env.now t p).1 }).1,
        (processMessage t m { d with hid := (d.hid.parsePacket Dev.maxMsgSize d.st.env.now t p).1 }).2) := by
  unfold processPacket
  dsimp only
  rw [h]

theorem processPacket_none {t : Transport} {p : Bytes} {d : Device}
    (h : (d.hid.parsePacket Dev.maxMsgSize d.st.env.now t p).2 = none) :
    processPacket t p d = (.ok [], { d with hid := (d.hid.parsePacket Dev.maxMsgSize d.st.env.now t p).1 }) := by
  unfold processPacket
  dsimp only
  rw [h]

/-- A message that is neither a CTAP2 nor a U2F message does not reach the commands. -/
theorem processMessage_st {t : Transport} {m : Message} {d : Device} (h : ¬ (m.cmd = .cbor ∨ (m.cmd = .msg ∧ t = .main))) :
    (processMessage t m d).2.st = d.st := by
  obtain ⟨cid, cmd, payload⟩ := m
  cases t <;> cases cmd <;> simp at h <;> simp only [processMessage, mainMessage, vendorMessage]
  all_goals (split <;> rfl)

theorem cbor_executed {t : Transport} {m : Message} {d : Device} (hl : m.cid.length = 4) (h : m.cmd = .cbor) :
    Executed (.ctap2 (channel t m.cid) m.payload) m.cid 0x10 d.st (mapRes splitMessage (processMessage t m d).1)
      (processMessage t m d).2.st := by
  obtain ⟨cid, cmd, payload⟩ := m
  dsimp only at h hl
  subst h
  have h1 : (processMessage t ⟨cid, .cbor, payload⟩ d).1 =
      mapRes (fun r => ⟨cid, .cbor, r⟩) (processCommand (channel t cid) payload d.st).1 := by cases t <;> rfl
  have h2 : (processMessage t ⟨cid, .cbor, payload⟩ d).2.st = (processCommand (channel t cid) payload d.st).2 := by
    cases t <;> rfl
  rw [h1, h2]
  unfold Executed
  simp only [stepM, Bind.bind, M.bind, M.pure]
  rcases processCommand (channel t cid) payload d.st with ⟨r | r | _ | _, s⟩
  all_goals simp only [mapRes]
  · refine ⟨trivial, rfl, fun reply hr => ?_⟩
    cases hr
    exact ⟨_, rfl, (splitMessage_spells (m := ⟨cid, .cbor, r⟩) hl).1, (splitMessage_spells (m := ⟨cid, .cbor, r⟩) hl).2⟩
  all_goals exact ⟨trivial, rfl, fun reply hr => by cases hr⟩

theorem swBytes_eq (sw : Sw) : swBytes sw = [UInt8.ofNat (sw.toNat / 256), UInt8.ofNat (sw.toNat % 256)] := by
  cases sw <;> decide

theorem ctap1Message_content (cid : Bytes) (r : Except Sw Bytes) : ctap1Message cid r = ⟨cid, .msg, content (.ctap1 r)⟩ := by
  cases r with
  | ok b => simp [ctap1Message, content]; decide
  | error sw => simp [ctap1Message, content, swBytes_eq]

theorem msg_executed {m : Message} {d : Device} (hl : m.cid.length = 4) (h : m.cmd = .msg) :
    Executed (.ctap1 m.payload) m.cid 0x03 d.st (mapRes splitMessage (processMessage .main m d).1)
      (processMessage .main m d).2.st := by
  obtain ⟨cid, cmd, payload⟩ := m
  dsimp only at h hl
  subst h
  have h1 : (processMessage .main ⟨cid, .msg, payload⟩ d).1 =
      mapRes (ctap1Message cid) (processU2f payload d.st).1 := rfl
  have h2 : (processMessage .main ⟨cid, .msg, payload⟩ d).2.st = (processU2f payload d.st).2 := rfl
  rw [h1, h2]
  unfold Executed
  simp only [stepM, Bind.bind, M.bind, M.pure]
  rcases processU2f payload d.st with ⟨r | r | _ | _, s⟩
  all_goals simp only [mapRes]
  · refine ⟨trivial, rfl, fun reply hr => ?_⟩
    cases hr
    rw [ctap1Message_content]
    have := splitMessage_spells (m := ⟨cid, .msg, content (.ctap1 r)⟩) hl
    exact ⟨_, rfl, this.1, this.2⟩
  all_goals exact ⟨trivial, rfl, fun reply hr => by cases hr⟩

theorem log_map (maxMsg : Nat) (a : Asm) (xs : List (Nat × Bytes × Option Bytes)) :
    (Hid.log maxMsg a xs).map (fun e => (e.time, e.packet)) = xs.map fun x => (x.1, x.2.1) := by
  induction xs generalizing a with
  | nil => rfl
  | cons x xs ih => obtain ⟨t, p, l⟩ := x; simp [Hid.log, ih]

theorem ofByte_cbor {n : Nat} (h : Cmd.ofByte n = .cbor) : n = 0x10 := by
  unfold Cmd.ofByte at h
  repeat' split at h
  all_goals first | (cases h; done) | assumption

theorem ofByte_msg {n : Nat} (h : Cmd.ofByte n = .msg) : n = 0x03 := by
  unfold Cmd.ofByte at h
  repeat' split at h
  all_goals first | (cases h; done) | assumption

/-- A message that the assembler delivers was sent. -/
theorem sent_of_asm {l : List Event} {d : Device} (hI : Inv l d) {t : Transport} {now : Nat} {p : Bytes} {lk : Option Bytes}
    {m : Message} (hp : p.length = 64) (h : ((d.hid.get t).asm.parsePacket Dev.maxMsgSize now p lk).2 = .ok (some m)) :
    ∃ cmd, m.cmd = Cmd.ofByte cmd ∧ Sent (packetsOn t l ++ [(now, p)]) m.cid cmd m.payload := by
  obtain ⟨xs, h1, h2, h3⟩ := hI.asm t
  have hlog : Hid.log Dev.maxMsgSize Asm.default (xs ++ [(now, p, lk)]) =
      Hid.log Dev.maxMsgSize Asm.default xs ++ ⟨now, p, ((d.hid.get t).asm.parsePacket Dev.maxMsgSize now p lk).2⟩ :: [] := by
    rw [Hid.log_append, ← h3]; rfl
  obtain ⟨pre, mid, cmd, bytes, q1, q2, q3, q4, q5, _, q6⟩ := Hid.C07_isolation Dev.maxMsgSize (xs ++ [(now, p, lk)])
    (by
      intro x hx
      rcases List.mem_append.1 hx with hx | hx
      · exact h2 x hx
      · rw [List.mem_singleton.1 hx]; exact hp) _ _ _ m hlog h
  refine ⟨cmd, q3, (mid.filter Hid.Ev.accepted).map (fun e => (e.time, e.packet)), ?_, ?_, ?_, ?_⟩
  · have h4 : (pre ++ mid).map (fun e => (e.time, e.packet)) = packetsOn t l ++ [(now, p)] := by
      rw [← q1, List.map_append, log_map, h1]; rfl
    rw [← h4, List.map_append]
    exact (List.filter_sublist.map _).trans (List.sublist_append_right _ _)
  · rw [List.getLast?_map, q6]; simp
  · obtain ⟨e0, es, data0, datas, s1, s2, s3, s4, s5⟩ := q2.split
    rw [s1]
    refine ⟨e0.packet, es.map (·.packet), data0, datas, by simp, s2, by simp [s3], ?_, by rw [← s5]; exact q5, by rw [← s5]; exact q4⟩
    intro i h5 h6
    simpa using s4 i (by simpa using h5) h6
  · intro i hi
    have := q2.timely i (by simpa using hi)
    simpa using this

theorem allocated_given {l : List Event} {d : Device} (hI : Inv l d) {t : Transport} {cid : Bytes} (hl : cid.length = 4)
    (h : (d.hid.get t).isAllocated cid = true) : GaveOut t l cid := by
  unfold Hid.Hid.isAllocated at h
  simp only [Bool.and_eq_true, bne_iff_ne, ne_eq, decide_eq_true_eq] at h
  have := hI.given t (Hid.cidToNat cid) ?_ h.2
  · rwa [Hid.cid_natToCid hl] at this
  · apply Nat.pos_of_ne_zero
    intro h0
    apply h.1
    rw [← Hid.cid_natToCid hl, h0]
    rfl

/-- A command is executed only for a message that was sent, on a channel that was given out. -/
theorem packet_executed {l : List Event} {d : Device} (hI : Inv l d) {t : Transport} {p : Bytes} (hp : p.length = 64) :
    (processPacket t p d).2.st = d.st ∨ ∃ cmd payload, Sent (packetsOn t l ++ [(d.st.env.now, p)]) (p.take 4) cmd payload ∧
      GaveOut t l (p.take 4) ∧ Served t (p.take 4) cmd payload d.st (processPacket t p d).1 (processPacket t p d).2.st := by
  obtain ⟨b1, b2, b3⟩ := Hid.both_step Dev.maxMsgSize d.st.env.now d.hid t p
  cases hm : (d.hid.parsePacket Dev.maxMsgSize d.st.env.now t p).2 with
  | none => left; rw [processPacket_none hm]
  | some m =>
    rw [processPacket_some hm]
    by_cases hc : m.cmd = .cbor ∨ (m.cmd = .msg ∧ t = .main)
    · right
      have hm' := b3.symm.trans hm
      have hcid : m.cid = p.take 4 := parsed_cid hp (hI.idle t) hm'
      have hl : m.cid.length = 4 := by rw [hcid]; simp [hp]
      obtain ⟨h1, h2⟩ := parsed_message hm' (by rcases hc with hc | hc <;> simp [hc])
      obtain ⟨cmd, h3, h4⟩ := sent_of_asm hI hp h1
      rw [← hcid]
      refine ⟨cmd, m.payload, h4, allocated_given hI hl h2, ?_⟩
      rcases hc with hc | ⟨hc, rfl⟩
      · left
        exact ⟨ofByte_cbor (h3.symm.trans hc), cbor_executed hl hc⟩
      · right
        exact ⟨ofByte_msg (h3.symm.trans hc), rfl, msg_executed hl hc⟩
    · left
      exact processMessage_st hc

theorem packet_answers {l : List Event} {d : Device} (hI : Inv l d) {t : Transport} {p : Bytes} (hp : p.length = 64)
    {out : List Bytes} (h : (processPacket t p d).1 = .ok out) : ∀ q ∈ out, q.length = 64 ∧ q.take 4 = p.take 4 := by
  obtain ⟨b1, b2, b3⟩ := Hid.both_step Dev.maxMsgSize d.st.env.now d.hid t p
  cases hm : (d.hid.parsePacket Dev.maxMsgSize d.st.env.now t p).2 with
  | none => rw [processPacket_none hm] at h; cases h; simp
  | some m =>
    rw [processPacket_some hm] at h
    have hm' := b3.symm.trans hm
    have hcid : m.cid = p.take 4 := parsed_cid hp (hI.idle t) hm'
    have hl : m.cid.length = 4 := by rw [hcid]; simp [hp]
    obtain ⟨m', h1, rfl⟩ := mapRes_ok.1 h
    have h2 : m'.cid = m.cid := processMessage_cid (Prod.ext h1 rfl)
    intro q hq
    rw [← hcid, ← h2]
    by_cases h7 : m'.payload.length ≤ 7609
    · exact ((splitMessage_spells (by rw [h2, hl])).1 h7).packets q hq
    · exact ((splitMessage_spells (by rw [h2, hl])).2 (by omega)).packets q hq

/-- A packet is a command or nothing. -/
theorem packet_command (t : Transport) (p : Bytes) (d : Device) :
    ((processPacket t p d).1.alive = true ∧ (processPacket t p d).2.st = d.st) ∨
    ∃ i, (processPacket t p d).1.alive = (stepM i d.st).1.alive ∧ (processPacket t p d).2.st = (stepM i d.st).2 := by
  cases hm : (d.hid.parsePacket Dev.maxMsgSize d.st.env.now t p).2 with
  | none => left; rw [processPacket_none hm]; exact ⟨rfl, rfl⟩
  | some m =>
    rw [processPacket_some hm]
    generalize (d.hid.parsePacket Dev.maxMsgSize d.st.env.now t p).1 = hid
    obtain ⟨cid, cmd, payload⟩ := m
    have cb (ch : Channel) (w : Timer) : ∃ i,
        (mapRes splitMessage (answer (fun r => ⟨cid, .cbor, r⟩) ⟨d.st, hid, w⟩ (processCommand ch payload d.st)).1).alive =
          (stepM i d.st).1.alive ∧
        (answer (fun r => ⟨cid, .cbor, r⟩) ⟨d.st, hid, w⟩ (processCommand ch payload d.st)).2.st = (stepM i d.st).2 := by
      refine ⟨.ctap2 ch payload, ?_⟩
      simp only [stepM, Bind.bind, M.bind, M.pure, answer, mapRes_alive]
      rcases processCommand ch payload d.st with ⟨r | r | _ | _, s⟩ <;> exact ⟨rfl, rfl⟩
    cases t <;> cases cmd <;> simp only [processMessage, mainMessage, vendorMessage]
    all_goals first
      | (left; exact ⟨rfl, rfl⟩)
      | (right; exact cb _ _)
      | (left; by_cases hp : payload = [] <;> simp [hp, mapRes, Res.alive]; done)
      | (right
         refine ⟨.ctap1 payload, ?_⟩
         simp only [stepM, Bind.bind, M.bind, M.pure, answer, mapRes_alive]
         rcases processU2f payload d.st with ⟨r | r | _ | _, s⟩ <;> exact ⟨rfl, rfl⟩)

theorem reach_commands {P : Oracle → Prop} {b : Bool} {d : Device} (h : Reach P b d) : Ctap.Reach P b d.st := by
  induction h with
  | factory env att hid wink => exact .factory env att
  | boot o ho h ih => exact .boot o ho ih
  | @step d o ho i h ih =>
    cases i with
    | packet t p =>
      rcases packet_command t p (d.withOracle o) with ⟨h1, h2⟩ | ⟨i, h1, h2⟩
      · show Ctap.Reach P (processPacket t p (d.withOracle o)).1.alive (processPacket t p (d.withOracle o)).2.st
        rw [h1, h2]
        exact .step o ho (.wait 0) ih
      · show Ctap.Reach P (processPacket t p (d.withOracle o)).1.alive (processPacket t p (d.withOracle o)).2.st
        rw [h1, h2]
        exact .step o ho i ih
    | touch => exact .step o ho .touch ih
    | wait ms => exact .step o ho (.wait ms) ih

end Verif.Usb
