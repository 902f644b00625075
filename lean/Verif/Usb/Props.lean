import Verif.Usb.Lemmas5
import Verif.Ctap.Toy

/-!
# C70: the device behind its USB interface
-/
namespace Verif.Usb
open Verif.Ctap hiding Transport
open Verif.Hid (Transport IsInit IsCont)
variable [Dev]

/-- Whatever packets are sent, the states of the commands are those of `Ctap.Reach`: each property of the commands for all
histories of messages holds for all histories of packets. -/
theorem C70_commands {P : Oracle → Prop} {b : Bool} {d : Device} (h : Reach P b d) : Ctap.Reach P b d.st :=
  reach_commands h

/-- Each packet that is sent has 64 bytes and the channel id of the packet it answers. -/
theorem C70_answers {l : List Event} {d : Device} (h : Trace l d) (o : Oracle) (t : Transport) (p : Bytes) (hp : p.length = 64)
    (out : List Bytes) (ho : (step (.packet t p) (d.withOracle o)).1 = .ok out) :
    ∀ q ∈ out, q.length = 64 ∧ q.take 4 = p.take 4 :=
  packet_answers (d := d.withOracle o) ⟨(trace_inv h).asm, (trace_inv h).given⟩ hp ho

/-- A packet leaves the commands alone, or it is the last packet of a message that was sent on this interface and this channel,
in order and in time, the channel was given out on this interface since power-up, and exactly this message is executed, once;
the answer is sent on the same channel. -/
theorem C70_executed {l : List Event} {d : Device} (h : Trace l d) (o : Oracle) (t : Transport) (p : Bytes) (hp : p.length = 64) :
    (step (.packet t p) (d.withOracle o)).2.st = d.st.withOracle o ∨
    ∃ cmd payload, Sent (packetsOn t l ++ [(d.st.env.now, p)]) (p.take 4) cmd payload ∧ GaveOut t l (p.take 4) ∧
      Served t (p.take 4) cmd payload (d.st.withOracle o) (step (.packet t p) (d.withOracle o)).1
        (step (.packet t p) (d.withOracle o)).2.st :=
  packet_executed (d := d.withOracle o) ⟨(trace_inv h).asm, (trace_inv h).given⟩ hp

/-- After power-up both interfaces are idle. -/
theorem C70_boot (d : Device) (t : Transport) : Idle t (boot d).2 := by
  refine ⟨by cases t <;> rfl, by cases t <;> rfl, ?_⟩
  apply Open.quiet
  intro t'
  cases t' <;> rfl

/-- A client that sends an INIT packet on the broadcast channel of an idle interface gets one packet, with its nonce and a
channel for which the interface is then ready. (Before the counter of the channels has reached the reserved ids.) -/
theorem C70_channel {t : Transport} {d : Device} (hi : Idle t d) {p data : Bytes}
    (hp : IsInit p [0xFF, 0xFF, 0xFF, 0xFF] 0x06 8 data) (hn : (d.hid.get t).allocated + 2 < 2 ^ 32) :
    ∃ q data', (step (.packet t p) d).1 = .ok [q] ∧ IsInit q [0xFF, 0xFF, 0xFF, 0xFF] 0x06 17 data' ∧
      data'.take 8 = data.take 8 ∧ Ready t ((data'.drop 8).take 4) (step (.packet t p) d).2 ∧ (step (.packet t p) d).2.st = d.st := by
  obtain ⟨q, data', h1, h2, h3, h4, h5, h6, h7, h8, h9⟩ := init_packet hi.1 hi.2.1 hi.2.2
    (Nat.le_trans (by decide) Dev.maxMsgSize_ge) hp
  refine ⟨q, data', h1, h2, h3, ⟨⟨h7, h8, h9.quiet⟩, ?_, ?_, ?_, ?_⟩, h5⟩
  · rw [h4]; rfl
  · intro h
    have := Hid.natToCid_toNat (n := (d.hid.get t).allocated + 1) (by omega)
    rw [← h4, h, show Hid.cidToNat [0xFF, 0xFF, 0xFF, 0xFF] = 2 ^ 32 - 1 from by decide] at this
    omega
  · rw [h4, Hid.natToCid_toNat (by omega)]; omega
  · rw [h4, Hid.natToCid_toNat (by omega)]
    show _ ≤ ((processPacket t p d).2.hid.get t).allocated
    rw [h6]
    exact Nat.le_refl _

/-- The exchange: on an interface that is ready, a client sends the packets of a message, each less than 100 ms after the one
before it, and other clients may send packets in between. The packets of the message before the last get no answer, the others
an error, and the last packet gets the answer to exactly this message: of the commands (0x10, or 0x03 on the main interface), or
the same message again (0x01). Then the interface is ready again. -/
theorem C70_exchange {t : Transport} {cid payload : Bytes} {cmd : Nat} {d : Device} (hr : Ready t cid d) (ms : Nat) (p : Bytes)
    (rest : List (Nat × Bytes)) (h64 : ∀ x ∈ rest, x.2.length = 64)
    (hs : Spells (p :: (rest.filter (own cid)).map (·.2)) cid cmd payload)
    (hn : (rest.filter (own cid)).length = (payload.length - 57 + 58) / 59)
    (hlast : ∀ x, rest.getLast? = some x → own cid x = true) (hl : payload.length ≤ Dev.maxMsgSize) (hsoon : Soon cid 0 rest)
    (hcmd : cmd = 0x10 ∨ (cmd = 0x03 ∧ t = .main) ∨ cmd = 0x01) :
    ∃ outs last, (feed t ((ms, p) :: rest) d).1 = outs ++ [last] ∧ outs.length = rest.length ∧
      (∀ y ∈ ((ms, p) :: rest).zip outs, Held cid y.1 y.2) ∧
      (cmd ≠ 0x01 → Served t cid cmd payload (later (total ((ms, p) :: rest)) d.st) last (feed t ((ms, p) :: rest) d).2.st) ∧
      (cmd = 0x01 → (feed t ((ms, p) :: rest) d).2.st = later (total ((ms, p) :: rest)) d.st ∧
        ∃ out, last = .ok out ∧ Spells out cid 0x01 payload) ∧
      Ready t cid (feed t ((ms, p) :: rest) d).2 := by
  have hc : Hid.Cmd.ofByte cmd = .cbor ∨ Hid.Cmd.ofByte cmd = .msg ∨ Hid.Cmd.ofByte cmd = .ping := by
    rcases hcmd with rfl | ⟨rfl, _⟩ | rfl <;> decide
  obtain ⟨outs, last, d1, i1, i2, i3, i4, i5, i6, i7, i8, i9, i10⟩ := feed_message hc hr h64 hs hn hl hsoon hlast
    (ms := ms)
  refine ⟨outs, last, i1, i2, i3, ?_, ?_, ?_⟩
  · intro hne
    rw [i6, ← i4, i5]
    rcases hcmd with rfl | ⟨rfl, rfl⟩ | rfl
    · exact .inl ⟨rfl, cbor_executed (m := ⟨cid, .cbor, payload⟩) hr.2.1 rfl⟩
    · exact .inr ⟨rfl, rfl, msg_executed (m := ⟨cid, .msg, payload⟩) hr.2.1 rfl⟩
    · exact absurd rfl hne
  · rintro rfl
    have hp : processMessage t ⟨cid, Hid.Cmd.ofByte 1, payload⟩ d1 =
        (.ok ⟨cid, .ping, payload⟩, { d1 with wink := if t = .main then none else d1.wink }) := by cases t <;> rfl
    rw [i6, i5, hp, ← i4]
    exact ⟨rfl, _, rfl, (splitMessage_spells (m := ⟨cid, .ping, payload⟩) hr.2.1).1 (Nat.le_trans hl Dev.maxMsgSize_le)⟩
  · rw [i6]
    refine ⟨⟨by rw [processMessage_hid]; exact i8, by rw [processMessage_hid]; exact i9, ?_⟩, hr.2.1, hr.2.2.1, hr.2.2.2.1, ?_⟩
    · apply Open.quiet
      intro t'
      rw [processMessage_hid]
      exact i7 t'
    · rw [processMessage_hid, i10]; exact hr.2.2.2.2

/-- The device winks from the answer to an empty WINK on the main interface for five seconds, or until the next answer on that
interface. -/
theorem C70_wink {l : List Event} {d : Device} (h : Trace l d) :
    d.shouldWink = true ↔ ∃ pre e post, l = pre ++ e :: post ∧ Winked e ∧ d.st.env.now < e.time + 5000 ∧
      ∀ e' ∈ post, Unanswered e' := by
  unfold Device.shouldWink
  cases hw : d.wink with
  | none =>
    constructor
    · intro h1; cases h1
    · rintro ⟨pre, e, post, h1, h2, h3, h4⟩
      rw [(trace_wink h _).2 ⟨pre, e, post, h1, h2, rfl, h4⟩] at hw
      cases hw
  | some dl =>
    have h1 : (!Hid.Timer.isElapsed (some dl) d.st.env.now) = true ↔ d.st.env.now < dl := by simp [Hid.Timer.isElapsed]
    rw [h1]
    constructor
    · intro h2
      obtain ⟨pre, e, post, h3, h4, rfl, h5⟩ := (trace_wink h dl).1 hw
      exact ⟨pre, e, post, h3, h4, h2, h5⟩
    · rintro ⟨pre, e, post, h3, h4, h5, h6⟩
      rw [(trace_wink h _).2 ⟨pre, e, post, h3, h4, rfl, h6⟩] at hw
      cases hw
      exact h5

/-- While the device waits for the user, exactly a CANCEL packet (command 0x11) on the channel and the interface of the running
command cancels it. -/
theorem C70_cancel (t : Transport) (cid : Bytes) (x : Option SendOrRecv) (hx : ∀ t' p, x = some (.received t' p) → p.length = 64) :
    keepalive (channel t cid) x = .canceled ↔ ∃ p len data, x = some (.received t p) ∧ IsInit p cid 0x11 len data := by
  match x with
  | none => simp [keepalive]
  | some .timeout => simp [keepalive]
  | some .sent => simp [keepalive]
  | some (.received t' p) =>
    have hp := hx t' p rfl
    have hch : keepalive (channel t cid) (some (.received t' p)) =
        if t' ≠ t then .ok else if (Hid.processSinglePacket p).1 ≠ cid then .ok else
          match (Hid.processSinglePacket p).2 with
          | .init cmd _ _ => if cmd = Hid.Cmd.cancel.toNat then .canceled else .ok
          | .cont _ _ => .ok := by cases t <;> rfl
    rw [hch]
    by_cases ht : t' = t
    · subst ht
      simp only [ne_eq, not_true, if_false]
      rcases Hid.psp_cases hp with ⟨cmd, len, data, h1, h2⟩ | ⟨seq, data, h1, h2⟩
      · rw [h1]
        by_cases hc : p.take 4 = cid
        · simp only [hc, not_true, if_false]
          constructor
          · intro h
            split at h
            · rename_i hcc; exact ⟨p, len, data, rfl, by rw [← hc, ← show cmd = 0x11 from hcc]; exact h2⟩
            · cases h
          · rintro ⟨_, len', data', h3, h4⟩
            cases h3
            have := (isInit_inj h2 h4).1
            simp [this, Hid.Cmd.toNat]
        · simp only [hc, not_false_eq_true, if_true]
          constructor
          · intro h; cases h
          · rintro ⟨_, len', data', h3, h4⟩
            cases h3
            exact absurd h4.take4 hc
      · rw [h1]
        have no : ¬ ∃ p' len data, some (SendOrRecv.received t' p) = some (.received t' p') ∧ IsInit p' cid 0x11 len data := by
          rintro ⟨_, len', data', h3, h4⟩
          cases h3
          have h5 := Hid.psp_of_isInit h4 (by decide)
          rw [h1] at h5
          cases h5
        by_cases hc : p.take 4 = cid <;> simp [hc] <;> simpa using no
    · simp only [ht, not_false_eq_true, ne_eq, if_true]
      constructor
      · intro h; cases h
      · rintro ⟨_, _, _, h3, _⟩
        cases h3
        exact absurd rfl ht

end Verif.Usb

/-! ## Examples -/
namespace Verif.Usb.Toy
open Verif.Ctap hiding Transport
open Verif.Ctap.Toy (good factory)
open Verif.Hid (Transport IsInit IsCont)
set_option maxRecDepth 100000

/-- A device fresh from the factory, switched on. -/
def start : Device := { st := factory, hid := ⟨Hid.Hid.new 0, Hid.Hid.new 0⟩, wink := none }
def d0 : Device := (boot start).2

def broadcast : Bytes := [0xFF, 0xFF, 0xFF, 0xFF]
def initP : Bytes := broadcast ++ [0x86, 0, 8] ++ ([1, 2, 3, 4, 5, 6, 7, 8] ++ List.replicate 49 0)
/-- The device after a client got its channel. -/
def d1 : Device := (step (.packet .main initP) (d0.withOracle good)).2

def cid : Bytes := [0, 0, 0, 1]
def ping0 : Bytes := cid ++ [0x81, 0, 60] ++ List.replicate 57 7
def ping1 : Bytes := cid ++ [0] ++ (List.replicate 3 7 ++ List.replicate 56 0)
def other : Bytes := [0, 0, 0, 2, 0x81, 0, 1, 5] ++ List.replicate 56 0
def getInfo : Bytes := cid ++ [0x90, 0, 1] ++ (4 :: List.replicate 56 0)
def reset : Bytes := cid ++ [0x90, 0, 1] ++ (7 :: List.replicate 56 0)
def wink : Bytes := cid ++ [0x88, 0, 0] ++ List.replicate 57 0
def cancel : Bytes := cid ++ [0x91, 0, 0] ++ List.replicate 57 0

/-- The bytes that were sent. -/
def sent : Res (List Bytes) → List Bytes
  | .ok out => out
  | _ => []

theorem ready : Ready .main cid d1 := by
  refine ⟨⟨by decide +kernel, by decide +kernel, Open.quiet ?_⟩, rfl, by decide, by decide, by decide +kernel⟩
  intro t
  cases t <;> decide +kernel

/-- C70, channel: the nonce, the channel 1, and protocol version 2. -/
example : Idle .main d0 ∧ IsInit initP broadcast 0x06 8 ([1, 2, 3, 4, 5, 6, 7, 8] ++ List.replicate 49 0) ∧
    (sent (step (.packet .main initP) d0).1).map (·.drop 4 |>.take 20) =
      [[0x86, 0, 17, 1, 2, 3, 4, 5, 6, 7, 8, 0, 0, 0, 1, 2, 1, 0, 0, 5]] :=
  ⟨C70_boot start .main, ⟨0x86, 0, 8, rfl, rfl, rfl, rfl, rfl⟩, by decide +kernel⟩

/-- C70, exchange: two packets with a packet of another client in between. -/
example : ∃ outs last, (feed .main [(0, ping0), (50, other), (49, ping1)] d1).1 = outs ++ [last] ∧
    (∃ out, last = .ok out ∧ Spells out cid 0x01 (List.replicate 60 7)) ∧
    (∀ y ∈ [(0, ping0), (50, other), (49, ping1)].zip outs, Held cid y.1 y.2) := by
  obtain ⟨outs, last, h1, _, h2, _, h3, _⟩ := C70_exchange ready 0 ping0 [(50, other), (49, ping1)] (cmd := 0x01)
    (payload := List.replicate 60 7) (by simp [other, ping1, cid])
    ⟨ping0, [ping1], List.replicate 57 7, [List.replicate 3 7 ++ List.replicate 56 0], by decide +kernel,
      ⟨0x81, 0, 60, rfl, rfl, rfl, rfl, rfl⟩, rfl,
      by
        intro i h h'
        obtain rfl : i = 0 := by simp at h; omega
        exact ⟨0, rfl, rfl, rfl, rfl, by decide⟩, by decide, by decide⟩
    (by decide +kernel) (by intro x hx; simp at hx; subst hx; decide +kernel) (by decide) (by simp [Soon, own, other, cid, ping1])
    (.inr (.inr rfl))
  exact ⟨outs, last, h1, (h3 rfl).2, h2⟩

/-- C70, exchange with a command: the answer is that of the commands, and begins with the status. -/
example : ∃ last, (feed .main [(0, getInfo)] d1).1 = [last] ∧ (sent last).length = 5 ∧ ((sent last).head?.map fun q => q[7]?) = some (some 0) ∧
    Served .main cid 0x10 [4] (later 0 d1.st) last (feed .main [(0, getInfo)] d1).2.st := by
  obtain ⟨outs, last, h1, h2, _, h3, _⟩ := C70_exchange ready 0 getInfo [] (cmd := 0x10) (payload := [4]) (by simp)
    ⟨getInfo, [], 4 :: List.replicate 56 0, [], rfl, ⟨0x90, 0, 1, rfl, rfl, rfl, rfl, rfl⟩, rfl, by simp, by decide, by decide⟩
    rfl (by simp) (by decide) trivial (.inl rfl)
  obtain rfl : outs = [] := by simpa using h2
  have h4 : last = (feed .main [(0, getInfo)] d1).1.getLastD .panic := by rw [h1]; rfl
  refine ⟨last, h1, ?_, ?_, h3 (by decide)⟩
  · rw [h4]; decide +kernel
  · rw [h4]; decide +kernel

/-- A history: a channel, a reset, a packet of a channel that was not given out, a WINK. -/
def history : List Input := [.packet .main initP, .packet .main reset, .packet .main other, .packet .main wink]

/-- The history with its answers, and the device after it. -/
def record : List Input → List Event → Device → List Event × Device
  | [], l, d => (l, d)
  | i :: is, l, d => record is (l ++ [⟨d.st.env.now, i, (step i (d.withOracle good)).1⟩]) (step i (d.withOracle good)).2

theorem record_trace (is : List Input) : ∀ {l d}, Trace l d → (∀ i ∈ is, ∀ t p, i = .packet t p → p.length = 64) →
    ((record is l d).1.all fun e => e.out.alive) = true → Trace (record is l d).1 (record is l d).2 := by
  induction is with
  | nil => intro l d h _ _; exact h
  | cons i is ih =>
    intro l d h h1 h2
    refine ih (.step good i h (h1 i (by simp)) ?_) (fun j hj => h1 j (by simp [hj])) h2
    have hm : ∀ (is : List Input) (l : List Event) (d : Device), ∀ e ∈ l, e ∈ (record is l d).1 := by
      intro is
      induction is with
      | nil => intro l d e he; exact he
      | cons j js ih => intro l d e he; exact ih _ _ e (List.mem_append_left _ he)
    exact List.all_eq_true.1 h2 _ (hm is _ _ _ (List.mem_append_right _ (List.mem_singleton.2 rfl)))

theorem trace : Trace (record history [] d0).1 (record history [] d0).2 :=
  record_trace history (.boot start (by decide +kernel)) (by simp [history, initP, broadcast, reset, cid, other, wink])
    (by decide +kernel)

/-- C70, executed: the reset packet is executed; the packet of the channel that was not given out is refused. -/
example : (record history [] d0).1.map (fun e => (sent e.out).map fun q => q.take 8) =
    [[[0xFF, 0xFF, 0xFF, 0xFF, 0x86, 0, 17, 1]], [[0, 0, 0, 1, 0x90, 0, 1, 0]], [[0, 0, 0, 2, 0xBF, 0, 1, 0x0B]],
      [[0, 0, 0, 1, 0x88, 0, 0, 0]]] ∧
    (step (.packet .main reset) (d1.withOracle good)).2.st.log.length ≠ d1.st.log.length := by
  constructor <;> decide +kernel

/-- C70, wink: it winks after the history, no longer after five seconds, and no longer after another message. -/
example : Trace (record history [] d0).1 (record history [] d0).2 ∧ (record history [] d0).2.shouldWink = true ∧
    (record (history ++ [.wait 4999]) [] d0).2.shouldWink = true ∧ (record (history ++ [.wait 5000]) [] d0).2.shouldWink = false ∧
    (record (history ++ [.packet .main ping0]) [] d0).2.shouldWink = true ∧
    (record (history ++ [.packet .main getInfo]) [] d0).2.shouldWink = false := by
  refine ⟨trace, ?_⟩
  decide +kernel

/-- C70, cancel. -/
example : keepalive (.main cid) (some (.received .main cancel)) = .canceled ∧
    keepalive (.main cid) (some (.received .vendor cancel)) = .ok ∧
    keepalive (.main [0, 0, 0, 2]) (some (.received .main cancel)) = .ok ∧
    keepalive (.main cid) (some (.received .main getInfo)) = .ok := by decide +kernel

end Verif.Usb.Toy
