import Verif.Usb.Lemmas3
namespace Verif.Usb
open Verif.Ctap hiding Transport
open Verif.Hid (Transport IsInit IsCont Message Both Asm Cmd runAsm natToCid)
variable [Dev]
set_option linter.unusedSectionVars false

theorem not_active {h : Hid.Hid} {now : Nat} (hq : ∀ c, ¬ h.HoldsLock c now) : (h.lockedChannel now).2 = none := by
  have hf := Hid.lockedChannel_fields now h
  cases hl : (h.lockedChannel now).2 with
  | none => rfl
  | some c =>
    exfalso
    unfold Hid.Hid.lockedChannel at hl
    dsimp only at hl
    cases ht : h.lockTimer with
    | none => simp [ht, Hid.Timer.isElapsed] at hl
    | some dl =>
      by_cases hd : dl ≤ now
      · simp [ht, Hid.Timer.isElapsed, hd] at hl
      · simp [ht, Hid.Timer.isElapsed, hd] at hl
        exact hq c ⟨hl, dl, ht, by omega⟩

/-- No lock at all. -/
def Open (d : Device) : Prop := ∀ t, (d.hid.get t).locked = none

theorem Open.quiet {d : Device} (h : Open d) : Quiet d := by
  intro t c hc
  cases (h t).symm.trans hc.1

theorem Quiet.later {d : Device} (h : Quiet d) (ms : Nat) : Quiet { d with st := later ms d.st } := by
  rintro t c ⟨h1, dl, h2, h3⟩
  refine h t c ⟨h1, dl, h2, ?_⟩
  have : d.st.env.now + ms < dl := h3
  omega

/-- The device after a packet that is not executed, with this state of the assembler. -/
structure Next (t : Transport) (d d' : Device) (a : Asm) : Prop where
  st : d'.st = d.st
  asm : (d'.hid.get t).asm = a
  alloc : (d'.hid.get t).allocated = (d.hid.get t).allocated
  quiet : Open d'


theorem pre_quiet {t : Transport} {d : Device} (hq : Quiet d) :
    ((d.hid.get t).pre d.st.env.now ((d.hid.get t.other).hasChannelLock d.st.env.now).2).2 = none ∧
    ((d.hid.get t).pre d.st.env.now ((d.hid.get t.other).hasChannelLock d.st.env.now).2).1.locked = none ∧
    ((d.hid.get t.other).hasChannelLock d.st.env.now).1.locked = none := by
  have h1 := not_active (hq t)
  have h2 := not_active (hq t.other)
  have h3 : ((d.hid.get t.other).hasChannelLock d.st.env.now).2 = false := by simp [Hid.Hid.hasChannelLock, h2]
  rw [h3]
  have f1 := (Hid.lockedChannel_fields d.st.env.now (d.hid.get t)).2.2.2
  have f2 := (Hid.lockedChannel_fields d.st.env.now (d.hid.get t.other)).2.2.2
  refine ⟨h1, ?_, ?_⟩
  · show ((d.hid.get t).lockedChannel d.st.env.now).1.locked = none
    rw [f1, h1]
  · show ((d.hid.get t.other).lockedChannel d.st.env.now).1.locked = none
    rw [f2, h2]

/-- One packet on an open interface: the device, and what is passed on. -/
theorem hid_next {t : Transport} {p : Bytes} {d : Device} (hq : Quiet d) :
    ∃ h2 : Hid.Hid, h2.allocated = (d.hid.get t).allocated ∧ h2.locked = none ∧
      h2.asm = ((d.hid.get t).asm.parsePacket Dev.maxMsgSize d.st.env.now p none).1 ∧
      ((d.hid.parsePacket Dev.maxMsgSize d.st.env.now t p).1.get t.other).locked = none ∧
      ((d.hid.parsePacket Dev.maxMsgSize d.st.env.now t p).1.get t, (d.hid.parsePacket Dev.maxMsgSize d.st.env.now t p).2) =
        match ((d.hid.get t).asm.parsePacket Dev.maxMsgSize d.st.env.now p none).2 with
        | .ok (some m) => h2.preprocess d.st.env.now m
        | .ok none => (h2, none)
        | .error (cid, e) =>
          if e = .unexpectedContinuation then (h2, none)
          else if !h2.isAllocated cid then (h2, some (Hid.errorMessage cid .invalidChannel))
          else (h2, some (Hid.errorMessage cid e)) := by
  obtain ⟨b1, b2, b3⟩ := Hid.both_step Dev.maxMsgSize d.st.env.now d.hid t p
  obtain ⟨h1, h2, h3⟩ := pre_quiet (t := t) hq
  rw [b1, b2, b3]
  have hf := Hid.pre_fields d.st.env.now (d.hid.get t) ((d.hid.get t.other).hasChannelLock d.st.env.now).2
  refine ⟨{ ((d.hid.get t).pre d.st.env.now ((d.hid.get t.other).hasChannelLock d.st.env.now).2).1 with
    asm := ((d.hid.get t).asm.parsePacket Dev.maxMsgSize d.st.env.now p none).1 }, hf.2.1, h2, rfl, h3, ?_⟩
  rw [show ∀ x : Hid.Hid × Option Message, (x.1, x.2) = x from fun _ => rfl]
  unfold Hid.Hid.parsePacket
  dsimp only
  have hpre : (if ((d.hid.get t.other).hasChannelLock d.st.env.now).2 = true then (d.hid.get t, some Hid.channelReserved)
      else (d.hid.get t).lockedChannel d.st.env.now) =
      (d.hid.get t).pre d.st.env.now ((d.hid.get t.other).hasChannelLock d.st.env.now).2 := rfl
  rw [hpre, h1, hf.1]
  rcases ((d.hid.get t).asm.parsePacket Dev.maxMsgSize d.st.env.now p none).2 with ⟨_, _⟩ | (_ | _) <;> rfl

theorem open_of {t : Transport} {d : Device} (h1 : (d.hid.get t).locked = none) (h2 : (d.hid.get t.other).locked = none) : Open d := by
  intro t'
  rcases Hid.tr_cases t t' with rfl | rfl
  · exact h1
  · exact h2

theorem packet_nothing {t : Transport} {p : Bytes} {d : Device} (hq : Quiet d)
    (hr : ((d.hid.get t).asm.parsePacket Dev.maxMsgSize d.st.env.now p none).2 = .ok none) :
    (processPacket t p d).1 = .ok [] ∧
      Next t d (processPacket t p d).2 ((d.hid.get t).asm.parsePacket Dev.maxMsgSize d.st.env.now p none).1 := by
  obtain ⟨h2, q1, q2, q3, q4, q5⟩ := hid_next (t := t) (p := p) hq
  rw [hr] at q5
  simp only [Prod.mk.injEq] at q5
  rw [processPacket_none q5.2]
  refine ⟨rfl, rfl, ?_, ?_, open_of (t := t) ?_ q4⟩
  · show ((d.hid.parsePacket Dev.maxMsgSize d.st.env.now t p).1.get t).asm = _; rw [q5.1, q3]
  · show ((d.hid.parsePacket Dev.maxMsgSize d.st.env.now t p).1.get t).allocated = _; rw [q5.1, q1]
  · show ((d.hid.parsePacket Dev.maxMsgSize d.st.env.now t p).1.get t).locked = _; rw [q5.1, q2]

theorem error_packet {cid : Bytes} {e : Hid.Err} (hl : cid.length = 4) (he : e = .channelBusy ∨ e = .invalidChannel) :
    ∃ q data, splitMessage (Hid.errorMessage cid e) = [q] ∧ IsInit q cid 0x3F 1 data ∧
      (data.head? = some 0x06 ∨ data.head? = some 0x0B) := by
  obtain ⟨p0, ps, data0, h4, h5, h6, _, h7, _⟩ := (Hid.C06_split_shape (Hid.errorMessage cid e) hl).2 (by simp [Hid.errorMessage])
  have h8 : ps = [] := List.eq_nil_of_length_eq_zero (by simpa [Hid.errorMessage] using h6)
  refine ⟨p0, data0, by rw [splitMessage, h4, h8], h5, ?_⟩
  rw [h7]
  rcases he with rfl | rfl
  · left; rfl
  · right; rfl

theorem packet_busy {t : Transport} {p : Bytes} {d : Device} (hq : Quiet d) (hp : p.length = 64)
    (hr : ((d.hid.get t).asm.parsePacket Dev.maxMsgSize d.st.env.now p none).2 = .error (p.take 4, .channelBusy)) :
    (∃ q data, (processPacket t p d).1 = .ok [q] ∧ IsInit q (p.take 4) 0x3F 1 data ∧
      (data.head? = some 0x06 ∨ data.head? = some 0x0B)) ∧
      Next t d (processPacket t p d).2 ((d.hid.get t).asm.parsePacket Dev.maxMsgSize d.st.env.now p none).1 := by
  obtain ⟨h2, q1, q2, q3, q4, q5⟩ := hid_next (t := t) (p := p) hq
  rw [hr] at q5
  obtain ⟨e, he, q6⟩ : ∃ e, (e = .channelBusy ∨ e = .invalidChannel) ∧
      ((d.hid.parsePacket Dev.maxMsgSize d.st.env.now t p).1.get t, (d.hid.parsePacket Dev.maxMsgSize d.st.env.now t p).2) =
        (h2, some (Hid.errorMessage (p.take 4) e)) := by
    by_cases ha : h2.isAllocated (p.take 4) = true
    · exact ⟨_, .inl rfl, by rw [q5]; simp [ha]⟩
    · exact ⟨_, .inr rfl, by rw [q5]; simp [ha]⟩
  simp only [Prod.mk.injEq] at q6
  have q7 : processPacket t p d = (.ok (splitMessage (Hid.errorMessage (p.take 4) e)),
      { d with hid := (d.hid.parsePacket Dev.maxMsgSize d.st.env.now t p).1, wink := if t = .main then none else d.wink }) := by
    rw [processPacket_some q6.2]
    cases t <;> simp [processMessage, mainMessage, vendorMessage, Hid.errorMessage, mapRes]
  rw [q7]
  obtain ⟨q, data, h3⟩ := error_packet (cid := p.take 4) (e := e) (by simp [hp]) he
  refine ⟨⟨q, data, by rw [h3.1], h3.2⟩, rfl, ?_, ?_, open_of (t := t) ?_ q4⟩
  · show ((d.hid.parsePacket Dev.maxMsgSize d.st.env.now t p).1.get t).asm = _; rw [q6.1, q3]
  · show ((d.hid.parsePacket Dev.maxMsgSize d.st.env.now t p).1.get t).allocated = _; rw [q6.1, q1]
  · show ((d.hid.parsePacket Dev.maxMsgSize d.st.env.now t p).1.get t).locked = _; rw [q6.1, q2]

/-- A complete message is passed on. -/
theorem packet_message {t : Transport} {p : Bytes} {d : Device} {m : Message} (hq : Quiet d)
    (hc : m.cmd = .cbor ∨ m.cmd = .msg ∨ m.cmd = .ping) (hal : (d.hid.get t).isAllocated m.cid = true)
    (hb : m.cid ≠ Hid.channelBroadcast)
    (hr : ((d.hid.get t).asm.parsePacket Dev.maxMsgSize d.st.env.now p none).2 = .ok (some m)) :
    ∃ d1, processPacket t p d = (mapRes splitMessage (processMessage t m d1).1, (processMessage t m d1).2) ∧
      Next t d d1 ((d.hid.get t).asm.parsePacket Dev.maxMsgSize d.st.env.now p none).1 := by
  obtain ⟨h2, q1, q2, q3, q4, q5⟩ := hid_next (t := t) (p := p) hq
  rw [hr] at q5
  have q6 : h2.preprocess d.st.env.now m = (h2, some m) := by
    have : h2.hasValidChannel m = true := by
      unfold Hid.Hid.hasValidChannel
      rw [if_neg hb]
      unfold Hid.Hid.isAllocated at hal ⊢
      rwa [q1]
    unfold Hid.Hid.preprocess
    simp only [this, Bool.not_true, Bool.false_eq_true, if_false]
    rcases hc with h | h | h <;> rw [h]
  simp only [q6, Prod.mk.injEq] at q5
  refine ⟨_, processPacket_some q5.2, rfl, ?_, ?_, open_of (t := t) ?_ q4⟩
  · show ((d.hid.parsePacket Dev.maxMsgSize d.st.env.now t p).1.get t).asm = _; rw [q5.1, q3]
  · show ((d.hid.parsePacket Dev.maxMsgSize d.st.env.now t p).1.get t).allocated = _; rw [q5.1, q1]
  · show ((d.hid.parsePacket Dev.maxMsgSize d.st.env.now t p).1.get t).locked = _; rw [q5.1, q2]


theorem later_later (a b : Nat) (s : St) : later b (later a s) = later (a + b) s := by
  simp [later, Nat.add_assoc]

theorem wait_step (ms : Nat) (d : Device) : (step (.wait ms) d).2 = { d with st := later ms d.st } := rfl

theorem isAllocated_of {h : Hid.Hid} {cid : Bytes} (h1 : 0 < Hid.cidToNat cid) (h2 : Hid.cidToNat cid ≤ h.allocated) :
    h.isAllocated cid = true := by
  unfold Hid.Hid.isAllocated
  simp only [Bool.and_eq_true, bne_iff_ne, ne_eq, decide_eq_true_eq]
  refine ⟨?_, h2⟩
  rintro rfl
  exact absurd h1 (by decide)

/-- The rest of a message that is being received. -/
theorem feed_mid {t : Transport} {cid : Bytes} {cmd : Nat} (hcmd : Cmd.ofByte cmd = .cbor ∨ Cmd.ofByte cmd = .msg ∨ Cmd.ofByte cmd = .ping)
    (hb : cid ≠ Hid.channelBroadcast) (h0 : 0 < Hid.cidToNat cid) :
    ∀ (rest : List (Nat × Bytes)) (d : Device) (k r T gap : Nat) (acc : Bytes) (datas : List Bytes),
      (∀ x ∈ rest, x.2.length = 64) → Quiet d → Hid.cidToNat cid ≤ (d.hid.get t).allocated →
      (d.hid.get t).asm.idle = false → (d.hid.get t).asm.cid = cid → (d.hid.get t).asm.timer = some (T + 100) →
      (d.hid.get t).asm.cmd = cmd → (d.hid.get t).asm.seq = k → (d.hid.get t).asm.remaining = r →
      (d.hid.get t).asm.payload = acc → d.st.env.now = T + gap → 0 < r → r ≤ 59 * datas.length → 59 * datas.length < r + 59 →
      datas.length = (rest.filter (own cid)).length →
      (∀ i (h : i < (rest.filter (own cid)).length) (h' : i < datas.length), IsCont (rest.filter (own cid))[i].2 cid (k + i) datas[i]) →
      Soon cid gap rest → (∀ x, rest.getLast? = some x → own cid x = true) →
      ∃ outs last d1, (feed t rest d).1 = outs ++ [last] ∧ outs.length + 1 = rest.length ∧
        (∀ y ∈ rest.zip outs, Held cid y.1 y.2) ∧ d1.st = later (total rest) d.st ∧
        last = mapRes splitMessage (processMessage t ⟨cid, Cmd.ofByte cmd, acc ++ datas.flatten.take r⟩ d1).1 ∧
        (feed t rest d).2 = (processMessage t ⟨cid, Cmd.ofByte cmd, acc ++ datas.flatten.take r⟩ d1).2 ∧
        Open d1 ∧ (d1.hid.get t).asm.idle = true ∧ (d1.hid.get t).asm.payload = [] ∧
        (d1.hid.get t).allocated = (d.hid.get t).allocated := by
  intro rest
  induction rest with
  | nil =>
    intro d k r T gap acc datas _ _ _ _ _ _ _ _ _ _ _ hr hr1 _ hn
    simp at hn
    simp [hn] at hr1
    omega
  | cons x rest ih =>
    intro d k r T gap acc datas h64 hq hal hidle hcid htm hcm hk hrem hpay hnow hr hr1 hr2 hn hcont hsoon hlast
    obtain ⟨ms, p⟩ := x
    have hp : p.length = 64 := h64 (ms, p) (by simp)
    obtain ⟨hs1, hs2⟩ := hsoon
    have hd : (step (.wait ms) d).2 = { d with st := later ms d.st } := rfl
    generalize hdd : (step (.wait ms) d).2 = d' at hd
    have hq' : Quiet d' := by rw [hd]; exact hq.later ms
    have hhid : d'.hid = d.hid := by rw [hd]
    have hnow' : d'.st.env.now = T + (gap + ms) := by rw [hd]; show d.st.env.now + ms = _; omega
    have hst' : d'.st = later ms d.st := by rw [hd]
    have htm' : ((d'.hid.get t).asm.timer).isElapsed d'.st.env.now = false := by
      rw [hhid, htm, hnow']
      simp [Hid.Timer.isElapsed]
      exact hs1
    have hfeed : feed t ((ms, p) :: rest) d =
        ((processPacket t p d').1 :: (feed t rest (processPacket t p d').2).1, (feed t rest (processPacket t p d').2).2) := by
      simp only [feed, hdd]; rfl
    by_cases ho : own cid (ms, p) = true
    · have ho' : p.take 4 = cid := by simpa [own] using ho
      simp only [ho, if_true] at hs2
      have hf : ((ms, p) :: rest).filter (own cid) = (ms, p) :: rest.filter (own cid) := by simp [ho]
      rw [hf] at hn
      cases datas with
      | nil => simp at hn
      | cons dat datas =>
        have hc0 : IsCont p cid k dat := by
          have := hcont 0 (by rw [hf]; simp) (by simp)
          simpa [hf] using this
        have hc1 : ∀ i (h : i < (rest.filter (own cid)).length) (h' : i < datas.length),
            IsCont (rest.filter (own cid))[i].2 cid (k + 1 + i) datas[i] := by
          intro i h h'
          have := hcont (i + 1) (by rw [hf]; simp; exact h) (by simp; exact h')
          simp only [hf, List.getElem_cons_succ] at this
          rwa [Nat.add_assoc, Nat.add_comm 1 i]
        have hlen : dat.length = 59 := by obtain ⟨_, _, _, h, _⟩ := hc0; exact h
        have hpp := Hid.parse_own_cont (maxMsg := Dev.maxMsgSize) (t := d'.st.env.now) (l := none) (a := (d'.hid.get t).asm) (p := p)
          (k := k) (data := dat) (by rw [hhid]; exact hidle) (by rw [hhid, hcid]; exact hc0) (by rw [hhid]; exact hk) htm' rfl
        unfold Asm.appendPayload at hpp
        simp only [hhid, hrem, hpay, hcid, hcm] at hpp
        by_cases hmore : dat.length < r
        · simp only [hmore, if_true] at hpp
          have hne : 0 < datas.length := by simp only [List.length_cons] at hr1; omega
          obtain ⟨r1, r2⟩ := packet_nothing (t := t) (p := p) hq' (by rw [hhid, hpp])
          rw [hhid, hpp] at r2
          generalize hd2 : (processPacket t p d').2 = d2 at r2 hfeed
          obtain ⟨outs, last, d1, i1, i2, i3, i4, i5, i6, i7, i8, i9, i10⟩ := ih d2 (k + 1) (r - dat.length) d'.st.env.now 0
            (acc ++ dat) datas (fun x hx => h64 x (by simp [hx])) r2.quiet.quiet (by rw [r2.alloc, hhid]; exact hal)
            (by rw [r2.asm]) (by rw [r2.asm]) (by rw [r2.asm]) (by rw [r2.asm]) (by rw [r2.asm]) (by rw [r2.asm])
            (by rw [r2.asm]) (by rw [r2.st]; rfl) (by omega) (by simp only [List.length_cons] at hr1; omega)
            (by simp only [List.length_cons] at hr2; omega) (by simpa using hn) hc1 hs2
            (fun x hx => hlast x (by rw [List.getLast?_cons, hx]; rfl))
          have hms : acc ++ dat ++ datas.flatten.take (r - dat.length) = acc ++ (dat :: datas).flatten.take r := by
            rw [List.flatten_cons, List.take_append, List.take_of_length_le (l := dat) (by omega), List.append_assoc]
          rw [hms] at i5 i6
          refine ⟨.ok [] :: outs, last, d1, ?_, ?_, ?_, ?_, i5, ?_, i7, i8, i9, ?_⟩
          · rw [hfeed, i1, r1]; rfl
          · simp [i2]
          · intro y hy
            rw [List.zip_cons_cons] at hy
            rcases List.mem_cons.1 hy with rfl | hy
            · simp [Held, ho]
            · exact i3 y hy
          · rw [i4, r2.st, hst', later_later]; simp [total]
          · rw [hfeed]; exact i6
          · rw [i10, r2.alloc, hhid]
        · simp only [hmore, if_false] at hpp
          have hdn : datas = [] := by
            apply List.eq_nil_of_length_eq_zero
            simp only [List.length_cons] at hr2
            omega
          subst hdn
          have hfr : rest.filter (own cid) = [] := by
            apply List.eq_nil_of_length_eq_zero
            simp at hn; simpa using hn
          have hrn : rest = [] := by
            cases hre : rest.getLast? with
            | none => simpa using hre
            | some y =>
              exfalso
              have h1 := hlast y (by rw [List.getLast?_cons, hre]; rfl)
              have h2 : y ∈ rest.filter (own cid) := List.mem_filter.2 ⟨List.mem_of_getLast? hre, h1⟩
              rw [hfr] at h2
              cases h2
          subst hrn
          obtain ⟨d1, r1, r2⟩ := packet_message (t := t) (p := p) (d := d') (m := ⟨cid, Cmd.ofByte cmd, acc ++ dat.take r⟩) hq' hcmd
            (isAllocated_of h0 (by rw [hhid]; exact hal)) hb (by rw [hhid, hpp])
          rw [hhid, hpp] at r2
          refine ⟨[], mapRes splitMessage (processMessage t ⟨cid, Cmd.ofByte cmd, acc ++ dat.take r⟩ d1).1, d1, ?_, rfl, by simp, ?_, ?_, ?_,
            r2.quiet, ?_, ?_, ?_⟩
          · rw [hfeed, r1]; simp [feed]
          · rw [r2.st, hst']; simp [total]
          · simp
          · rw [hfeed, r1]; simp [feed]
          · rw [r2.asm]
          · rw [r2.asm]
          · rw [r2.alloc, hhid]
    · have ho' : p.take 4 ≠ cid := by simpa [own] using ho
      have ho2 : own cid (ms, p) = false := by simpa using ho
      simp only [ho2, Bool.false_eq_true, if_false] at hs2
      have hf : ((ms, p) :: rest).filter (own cid) = rest.filter (own cid) := by simp [ho2]
      simp only [hf] at hn hcont
      have hpp := Hid.parse_foreign (maxMsg := Dev.maxMsgSize) (t := d'.st.env.now) (l := none) (a := (d'.hid.get t).asm) (p := p)
        (by rw [hhid]; exact hidle) (by rw [hhid, hcid]; exact ho') htm'
      obtain ⟨⟨q, data, r1, r1'⟩, r2⟩ := packet_busy (t := t) (p := p) hq' hp (by rw [hpp])
      rw [hpp, hhid] at r2
      generalize hd2 : (processPacket t p d').2 = d2 at r2 hfeed
      obtain ⟨outs, last, d1, i1, i2, i3, i4, i5, i6, i7, i8, i9, i10⟩ := ih d2 k r T (gap + ms)
        acc datas (fun x hx => h64 x (by simp [hx])) r2.quiet.quiet (by rw [r2.alloc, hhid]; exact hal)
        (by rw [r2.asm]; exact hidle) (by rw [r2.asm]; exact hcid) (by rw [r2.asm]; exact htm) (by rw [r2.asm]; exact hcm)
        (by rw [r2.asm]; exact hk) (by rw [r2.asm]; exact hrem)
        (by rw [r2.asm]; exact hpay) (by rw [r2.st]; exact hnow') hr hr1 hr2 hn hcont hs2
        (fun x hx => hlast x (by rw [List.getLast?_cons, hx]; rfl))
      refine ⟨.ok [q] :: outs, last, d1, ?_, ?_, ?_, ?_, i5, ?_, i7, i8, i9, ?_⟩
      · rw [hfeed, i1, r1]; rfl
      · simp [i2]
      · intro y hy
        rw [List.zip_cons_cons] at hy
        rcases List.mem_cons.1 hy with rfl | hy
        · simp only [Held, ho2, Bool.false_eq_true, if_false]
          exact ⟨q, data, rfl, r1'⟩
        · exact i3 y hy
      · rw [i4, r2.st, hst', later_later]; simp [total]
      · rw [hfeed]; exact i6
      · rw [i10, r2.alloc, hhid]

/-- A message, from its first packet. -/
theorem feed_message {t : Transport} {cid : Bytes} {cmd : Nat} {payload : Bytes} {d : Device} {ms : Nat} {p : Bytes} {rest : List (Nat × Bytes)}
    (hcmd : Cmd.ofByte cmd = .cbor ∨ Cmd.ofByte cmd = .msg ∨ Cmd.ofByte cmd = .ping)
    (hr : Ready t cid d) (h64 : ∀ x ∈ rest, x.2.length = 64)
    (hs : Spells (p :: (rest.filter (own cid)).map (·.2)) cid cmd payload) (hn : (rest.filter (own cid)).length = (payload.length - 57 + 58) / 59)
    (hl : payload.length ≤ Dev.maxMsgSize) (hsoon : Soon cid 0 rest) (hlast : ∀ x, rest.getLast? = some x → own cid x = true) :
    ∃ outs last d1, (feed t ((ms, p) :: rest) d).1 = outs ++ [last] ∧ outs.length = rest.length ∧
      (∀ y ∈ ((ms, p) :: rest).zip outs, Held cid y.1 y.2) ∧ d1.st = later (total ((ms, p) :: rest)) d.st ∧
      last = mapRes splitMessage (processMessage t ⟨cid, Cmd.ofByte cmd, payload⟩ d1).1 ∧
      (feed t ((ms, p) :: rest) d).2 = (processMessage t ⟨cid, Cmd.ofByte cmd, payload⟩ d1).2 ∧
      Open d1 ∧ (d1.hid.get t).asm.idle = true ∧ (d1.hid.get t).asm.payload = [] ∧
      (d1.hid.get t).allocated = (d.hid.get t).allocated := by
  obtain ⟨⟨hidle, hpay, hq⟩, hc4, hb, h0, hal⟩ := hr
  obtain ⟨p0, rest0, data0, datas, he, hi, hdl, hcont, hle, hpl⟩ := hs
  simp only [List.cons.injEq] at he
  obtain ⟨rfl, rfl⟩ := he
  rw [List.length_map] at hdl
  have hd : (step (.wait ms) d).2 = { d with st := later ms d.st } := rfl
  generalize hdd : (step (.wait ms) d).2 = d' at hd
  have hq' : Quiet d' := by rw [hd]; exact hq.later ms
  have hhid : d'.hid = d.hid := by rw [hd]
  have hst' : d'.st = later ms d.st := by rw [hd]
  have hfeed : feed t ((ms, p) :: rest) d =
      ((processPacket t p d').1 :: (feed t rest (processPacket t p d').2).1, (feed t rest (processPacket t p d').2).2) := by
    simp only [feed, hdd]; rfl
  have hcl : cmd < 128 := by
    unfold Cmd.ofByte at hcmd
    repeat' split at hcmd
    all_goals first | omega | (rcases hcmd with h | h | h <;> cases h)
  have hd57 : data0.length = 57 := by obtain ⟨_, _, _, _, _, h, _⟩ := hi; exact h
  have hown : own cid (ms, p) = true := by simp [own, hi.take4]
  have hpp := Hid.parse_own_init (maxMsg := Dev.maxMsgSize) (t := d'.st.env.now) (l := none) (a := (d'.hid.get t).asm) (p := p)
    (by rw [hhid]; exact hidle) hi hcl hl rfl
  unfold Asm.appendPayload at hpp
  simp only [hhid, hpay, List.nil_append] at hpp
  by_cases hmore : data0.length < payload.length
  · simp only [hmore, if_true] at hpp
    obtain ⟨r1, r2⟩ := packet_nothing (t := t) (p := p) hq' (by rw [hhid, hpp])
    rw [hhid, hpp] at r2
    generalize hd2 : (processPacket t p d').2 = d2 at r2 hfeed
    obtain ⟨outs, last, d1, i1, i2, i3, i4, i5, i6, i7, i8, i9, i10⟩ := feed_mid hcmd hb h0 rest d2 0 (payload.length - data0.length)
      d'.st.env.now 0 data0 datas h64 r2.quiet.quiet (by rw [r2.alloc, hhid]; exact hal)
      (by rw [r2.asm]) (by rw [r2.asm]) (by rw [r2.asm]) (by rw [r2.asm]) (by rw [r2.asm]) (by rw [r2.asm])
      (by rw [r2.asm]) (by rw [r2.st]; rfl) (by omega) (by omega) (by omega) (by omega)
      (by
        intro i h h'
        have := hcont i (by simpa using h) h'
        simpa using this) hsoon hlast
    have hms : data0 ++ datas.flatten.take (payload.length - data0.length) = payload := by
      have h1 : (data0 ++ datas.flatten).take payload.length = data0 ++ datas.flatten.take (payload.length - data0.length) := by
        rw [List.take_append, List.take_of_length_le (l := data0) (by omega)]
      exact h1.symm.trans hpl.symm
    rw [hms] at i5 i6
    refine ⟨.ok [] :: outs, last, d1, ?_, ?_, ?_, ?_, i5, ?_, i7, i8, i9, ?_⟩
    · rw [hfeed, i1, r1]; rfl
    · simp [i2]
    · intro y hy
      rw [List.zip_cons_cons] at hy
      rcases List.mem_cons.1 hy with rfl | hy
      · simp [Held, hown]
      · exact i3 y hy
    · rw [i4, r2.st, hst', later_later]; simp [total]
    · rw [hfeed]; exact i6
    · rw [i10, r2.alloc, hhid]
  · simp only [hmore, if_false] at hpp
    have hfr : rest.filter (own cid) = [] := List.eq_nil_of_length_eq_zero (by omega)
    have hrn : rest = [] := by
      cases hre : rest.getLast? with
      | none => simpa using hre
      | some y =>
        exfalso
        have h1 := hlast y hre
        have h2 : y ∈ rest.filter (own cid) := List.mem_filter.2 ⟨List.mem_of_getLast? hre, h1⟩
        rw [hfr] at h2
        cases h2
    subst hrn
    have hms : data0.take payload.length = payload := by
      have h1 : (data0 ++ datas.flatten).take payload.length = data0.take payload.length :=
        List.take_append_of_le_length (by omega)
      exact h1.symm.trans hpl.symm
    rw [hms] at hpp
    obtain ⟨d1, r1, r2⟩ := packet_message (t := t) (p := p) (d := d') (m := ⟨cid, Cmd.ofByte cmd, payload⟩) hq' hcmd
      (isAllocated_of h0 (by rw [hhid]; exact hal)) hb (by rw [hhid, hpp])
    rw [hhid, hpp] at r2
    refine ⟨[], _, d1, ?_, rfl, by simp, ?_, rfl, ?_, r2.quiet, ?_, ?_, ?_⟩
    · rw [hfeed, r1]; simp [feed]
    · rw [r2.st, hst']; simp [total]
    · rw [hfeed, r1]; simp [feed]
    · rw [r2.asm]
    · rw [r2.asm]
    · rw [r2.alloc, hhid]

end Verif.Usb
