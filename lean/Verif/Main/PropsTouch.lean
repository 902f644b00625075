import Verif.Main.Touch
import Verif.Main.Props
import Verif.Usb.PropsUsbApp

/-!
# C95: a client can cancel a request that waits for a touch
-/
namespace Verif.Main
open Verif.Hid (Bytes Transport IsInit)
open Verif.Usb (channel)
open Verif.Usb.Kernel

/-- What the application and the controller have done so far: calls of the application that returned, with what they returned, and events of the
controller during the calls and between them. No packet comes in between the end of a timer and the command that cancels. -/
inductive History : List Status → Sys → Prop
  | boot : History [] Usb.Kernel.start
  | idle {a : List Status} {s s' : Sys} {l : List Input} : History a s → (∀ x ∈ l, x.isEvent = true) → LegalRun s l →
      s.run l = some s' → History a s'
  | call {a : List Status} {s s' : Sys} {c : Call} {r : Race} {st : Status} : History a s → r.Events → LegalCall s c r →
      s.call c r = some (st, s') → st ≠ .waiting → st ≠ .fail → (st = .timeout → r.Calm) → History (a ++ [st]) s'

/-- Between calls, events do not reach the application. -/
theorem idle_step {s s' : Sys} {x : Input} (hx : x.isEvent = true) (h : s.step x = some s') (hw : s.k.waiting = false) :
    Same s.k s'.k := by
  cases x with
  | allow _ => cases hx
  | transmit _ _ => cases hx
  | receive => cases hx
  | transmitOrReceive _ _ => cases hx
  | cancel _ => cases hx
  | packetIn t =>
    simp only [Sys.step] at h
    split at h <;> cases h <;> exact ⟨rfl, rfl, rfl⟩
  | packetOut t p =>
    simp only [Sys.step, Kernel.packetOut, Option.map_map] at h
    obtain ⟨⟨b, k⟩, h1, h2⟩ := Option.map_eq_some_iff.1 h
    cases h2
    rcases send_cases h1 with e | ⟨e, -⟩
    · exact e
    · have e' : s.k.canReceive = true := e
      rw [canReceive_false _ hw] at e'
      cases e'
  | transmitted t =>
    obtain ⟨k, h1, h2⟩ := Option.map_eq_some_iff.1 h
    cases h2
    unfold Kernel.packetTransmitted at h1
    split at h1
    · cases h1
    · dsimp only at h1
      split at h1
      · rename_i hc
        rw [canTransmit_false _ (by exact hw)] at hc
        cases hc
      · cases h1
        exact ⟨rfl, rfl, rfl⟩

theorem idle_run {s s' : Sys} (l : List Input) (hx : ∀ x ∈ l, x.isEvent = true) (h : s.run l = some s') (hw : s.k.waiting = false) :
    Same s.k s'.k := by
  induction l generalizing s with
  | nil => cases h; exact ⟨rfl, rfl, rfl⟩
  | cons x l ih =>
    obtain ⟨s1, h1, h2⟩ := Option.bind_eq_some_iff.1 h
    have e1 := idle_step (hx x (.head _)) h1 hw
    have e2 := ih (fun y hy => hx y (.tail _ hy)) h2 (e1.1.trans hw)
    exact ⟨e2.1.trans e1.1, e2.2.1.trans e1.2.1, e2.2.2.trans e1.2.2⟩

theorem returned_append (a b : List Status) (t : Transport) : returned (a ++ b) t = returned a t ++ returned b t := by
  simp only [returned, List.filterMap_append]

theorem history_inv {a : List Status} {s : Sys} (h : History a s) :
    s.k.waiting = false ∧ s.k.side = none ∧ ∀ t, s.host t = total s.k t ∧ delivered s.k.upcalls t = returned a t := by
  induction h with
  | boot => exact ⟨rfl, rfl, fun t => ⟨rfl, rfl⟩⟩
  | idle _ hx hl hr ih =>
    obtain ⟨hw, hs, hi⟩ := ih
    have e := idle_run _ hx hr hw
    refine ⟨e.1.trans hw, e.2.1.trans hs, fun t => ⟨run_total _ hl hr (fun t => (hi t).1) t, ?_⟩⟩
    rw [e.2.2]
    exact (hi t).2
  | call _ he hl hc h1 h2 hcalm ih =>
    obtain ⟨hw, hs, hi⟩ := ih
    obtain ⟨sm, e1, e2, w1, i1, -⟩ := call_end hw hs he hc h1 h2
    have hm := run_total _ hl.1 e1 (fun t => (hi t).1)
    refine ⟨w1, i1, fun t => ⟨run_total _ (hl.2 sm e1) e2 hm t, ?_⟩⟩
    rw [call_returned hw hs he hcalm hc h1 h2 t, (hi t).2, returned_append]

/-- Whatever happens during calls and between them, the application gets the packets of the host from each endpoint, all of them, in
this order and once, except that the last one may still wait in the kernel. -/
theorem C94_any_history_partial {a : List Status} {s : Sys} (h : History a s) (t : Transport) :
    s.host t = returned a t ∨ ∃ p, s.host t = returned a t ++ [p] := by
  obtain ⟨-, -, hi⟩ := history_inv h
  rw [(hi t).1, ← (hi t).2]
  unfold total
  split
  · exact .inr ⟨_, rfl⟩
  · exact .inl (by simp)

/-- A CANCEL packet (command 0x11) of a channel. -/
def IsCancel (cid p : Bytes) : Prop := ∃ len data, IsInit p cid 0x11 len data

/-- In each round, the controller does what its interface allows, and no packet comes in between the end of the timer and the command
that cancels. -/
def CalmRounds (ch : Ctap.Channel) (s : Sys) : List Round → Prop
  | [] => True
  | x :: l => (∀ y ∈ x.idle, y.isEvent = true) ∧ LegalRun s x.idle ∧ x.race.Events ∧
    ∀ s1, s.run x.idle = some s1 → LegalCall s1 (keepaliveCall ch) x.race ∧
      ∀ st s2, s1.call (keepaliveCall ch) x.race = some (st, s2) → (st = .timeout → x.race.Calm) ∧ CalmRounds ch s2 l

/-- What the rounds received. -/
theorem wait_history {t : Transport} {cid : Bytes} (l : List Round) {a : List Status} {s s' : Sys} {c : Bool} (hh : History a s)
    (hf : CalmRounds (channel t cid) s l) (h : waitTouch (channel t cid) s l = some (c, s')) :
    ∃ b, History (a ++ b) s' ∧ ((∀ p ∈ returned b t, p.length = 64) →
      (c = true → ∃ pre p, returned b t = pre ++ [p] ∧ IsCancel cid p ∧ ∀ q ∈ pre, ¬ IsCancel cid q) ∧
      (c = false → ∀ q ∈ returned b t, ¬ IsCancel cid q)) := by
  induction l generalizing a s with
  | nil =>
    cases h
    exact ⟨[], by simpa using hh, fun _ => ⟨fun e => (by cases e), fun _ q hq => by simp [returned] at hq⟩⟩
  | cons x l ih =>
    obtain ⟨f1, f2, f3, f4⟩ := hf
    obtain ⟨s1, h1, h⟩ := Option.bind_eq_some_iff.1 h
    obtain ⟨⟨st, s2⟩, h2, h⟩ := Option.bind_eq_some_iff.1 h
    obtain ⟨g1, g2⟩ := f4 s1 h1
    obtain ⟨g3, g4⟩ := g2 st s2 h2
    dsimp only at h
    have hok : st ≠ .waiting ∧ st ≠ .fail := by
      constructor <;> rintro rfl <;> simp [connectionStatus, Usb.keepalive] at h
    have hh2 := (hh.idle f1 f2 h1).call f3 g1 h2 hok.1 hok.2 g3
    have hone : (∀ p ∈ returned [st] t, p.length = 64) →
        ((connectionStatus st).map (Usb.keepalive (channel t cid)) = some .canceled ↔
          ∃ p, returned [st] t = [p] ∧ IsCancel cid p) := by
      intro h64
      cases st with
      | waiting => exact absurd rfl hok.1
      | fail => exact absurd rfl hok.2
      | timeout => simp [connectionStatus, Usb.keepalive, returned]
      | sent => simp [connectionStatus, Usb.keepalive, returned]
      | received u p =>
        by_cases hu : u = t
        · subst hu
          have hp : p.length = 64 := h64 p (by simp [returned])
          have := Usb.C70_cancel u cid (some (.received u p)) (by intro t' p' e; cases e; exact hp)
          simp only [connectionStatus, Option.map_some, Option.some.injEq, this]
          simp [returned, IsCancel]
        · have hk : Usb.keepalive (channel t cid) (some (.received u p)) = .ok := by
            cases t <;> simp [Usb.keepalive, channel, hu]
          simp [connectionStatus, hk, returned, hu]
    split at h
    · rename_i hk
      obtain ⟨b, hb, hb'⟩ := ih hh2 g4 h
      rw [List.append_assoc] at hb
      refine ⟨[st] ++ b, hb, fun h64 => ?_⟩
      rw [returned_append] at h64 ⊢
      obtain ⟨i1, i2⟩ := hb' fun p hp => h64 p (List.mem_append_right _ hp)
      have hn : ∀ q ∈ returned [st] t, ¬ IsCancel cid q := by
        intro q hq hc
        have h1 := (hone fun p hp => h64 p (List.mem_append_left _ hp)).2 ⟨q, ?_, hc⟩
        · rw [hk] at h1; cases h1
        · cases st <;> simp [returned] at hq ⊢
          rename_i u p
          by_cases hu : u = t
          · simp_all
          · simp [hu] at hq
      refine ⟨fun e => ?_, fun e q hq => ?_⟩
      · obtain ⟨pre, p, e1, e2, e3⟩ := i1 e
        refine ⟨returned [st] t ++ pre, p, by rw [e1, List.append_assoc], e2, fun q hq => ?_⟩
        exact (List.mem_append.1 hq).elim (hn q) (e3 q)
      · exact (List.mem_append.1 hq).elim (hn q) (i2 e q)
    · rename_i hk
      cases h
      refine ⟨[st], hh2, fun h64 => ⟨fun _ => ?_, fun e => by cases e⟩⟩
      obtain ⟨p, e1, e2⟩ := (hone h64).1 hk
      exact ⟨[], p, by rw [e1]; rfl, e2, by simp⟩
    · cases h

/-- After any history, a device that waits for a touch gets the packets of the host on the interface of the command, in order, and
stops at the first CANCEL of the channel: as long as it goes on, there was none, except that the last packet may still wait in the kernel;
and if it was canceled, the last packet that it got is a CANCEL of the channel, and the ones before are not. -/
theorem C95_cancel_partial {a : List Status} {s s' : Sys} (hh : History a s) (t : Transport) (cid : Bytes) (l : List Round) (c : Bool)
    (hf : CalmRounds (channel t cid) s l) (h : waitTouch (channel t cid) s l = some (c, s'))
    (h64 : ∀ p ∈ s'.host t, p.length = 64) :
    ∃ got rest, s'.host t = returned a t ++ got ++ rest ∧ rest.length ≤ 1 ∧
      (c = false → ∀ p ∈ got, ¬ IsCancel cid p) ∧
      (c = true → ∃ pre p, got = pre ++ [p] ∧ IsCancel cid p ∧ ∀ q ∈ pre, ¬ IsCancel cid q) := by
  obtain ⟨b, hb, hb'⟩ := wait_history l hh hf h
  have key : ∃ rest, s'.host t = returned a t ++ returned b t ++ rest ∧ rest.length ≤ 1 := by
    rcases C94_any_history_partial hb t with e | ⟨p, e⟩
    · exact ⟨[], by rw [e, returned_append]; simp, by simp⟩
    · exact ⟨[p], by rw [e, returned_append], by simp⟩
  obtain ⟨rest, e, hr⟩ := key
  obtain ⟨i1, i2⟩ := hb' fun p hp => h64 p (by rw [e]; simp [hp])
  exact ⟨_, rest, e, hr, i2, i1⟩

/-- A packet that waits in the kernel when a command to send or receive comes is handed over at once. -/
theorem waiting_packet (l : List Input) (s : Sys) (hl : LegalRun Usb.Kernel.start l) (hp : PromptRun Usb.Kernel.start l)
    (h : Usb.Kernel.start.run l = some s) (hw : s.k.waiting = false) (hs : s.k.side = none) (t : Transport)
    (hd : (s.k.eps t).delayedOut = true) (ht : t = Usb.Kernel.turn s.k.upcalls ∨ (s.k.eps (Usb.Kernel.turn s.k.upcalls)).delayedOut = false) (n : Nat) (q : Bytes) :
    (Call.sendOrRecv n q).ret s.k = some .success ∧ ∃ s', s.run (Call.sendOrRecv n q).first = some s' ∧ s'.k.waiting = false ∧
      s'.k.upcalls = s.k.upcalls ++ [.received t (s.k.eps t).outBuffer] := by
  obtain ⟨s1, h1, hi⟩ := run_inv l inv_start hl hp
  rw [h] at h1
  cases h1
  rw [← run_turn l h rfl] at ht
  have hpo : s.k.pendingOut = false := hi.k.out.symm.trans (canReceive_false _ hw)
  have key : ∃ k', ({ s.k with recvLen := 64, side := some .transmitOrReceive, waiting := true } : Kernel).receivePacket = some k' ∧
      k'.upcalls = s.k.upcalls ++ [.received t (s.k.eps t).outBuffer] := by
    unfold Kernel.receivePacket
    rw [if_neg (by simp [hpo])]
    obtain ⟨k1, e1, u1, c1⟩ := deliver_yes
      (k := { s.k with recvLen := 64, side := some .transmitOrReceive, waiting := true, pendingOut := true }) (t := t) rfl hd rfl rfl
    by_cases hn : t = s.k.next
    · obtain ⟨k2, e2, u2⟩ := deliver_idle (nextEndpoint t) c1
      refine ⟨k2, ?_, u2.trans u1⟩
      subst hn
      have e3 := congrArg (fun x : Option Kernel => x.bind fun k' : Kernel => k'.deliverDelayed (nextEndpoint s.k.next)) e1
      exact Eq.trans e3 e2
    · have hnd := ht.resolve_left hn
      have ho : nextEndpoint s.k.next = t := by
        cases ht' : t <;> cases hn' : s.k.next <;> simp_all [nextEndpoint]
      refine ⟨k1, ?_, u1⟩
      rw [deliver_none (k := { s.k with recvLen := 64, side := some .transmitOrReceive, waiting := true, pendingOut := true }) (t := s.k.next)
        hnd, Option.bind_some]
      dsimp only
      rw [ho]
      exact e1
  obtain ⟨k', e, u⟩ := key
  have hk : k'.waiting = false := by
    rcases receive_phase (base := s.k.upcalls) (c := .transmitOrReceive) e (.inl ⟨rfl, rfl, rfl⟩) with ⟨-, -, e'⟩ | ⟨e', -⟩
    · rw [e'] at u
      have := congrArg List.length u
      simp at this
    · exact e'
  have hr : ({ s.k with recvLen := 64 } : Kernel).transmitOrReceive n q = some (.success, k') := by
    simp only [Kernel.transmitOrReceive, Kernel.setSide, hs, hw, Bool.not_true, Bool.false_eq_true, if_false, e, Option.map_some, hk,
      Bool.not_false, if_true]
  refine ⟨by simp only [Call.ret, hr, Option.map_some], { s with k := k', submitted := submit .success s.submitted n q }, ?_, hk, u⟩
  simp only [Call.first, Call.input, Sys.run, Sys.step, Option.bind_some, hr, Option.map_some]

/-- As long as the host takes packets in time: a CANCEL that waits in the kernel cancels the command in the next round, whatever else
happens in this round, unless it is the turn of a packet on the other interface, which then goes first. -/
theorem C95_next_partial (l : List Input) (s : Sys) (hl : LegalRun Usb.Kernel.start l) (hp : PromptRun Usb.Kernel.start l)
    (h : Usb.Kernel.start.run l = some s) (hw : s.k.waiting = false) (hs : s.k.side = none) (t : Transport) (cid p : Bytes)
    (hd : (s.k.eps t).delayedOut = true) (hb : (s.k.eps t).outBuffer = p) (hc : IsCancel cid p)
    (ht : t = Usb.Kernel.turn s.k.upcalls ∨ (s.k.eps (Usb.Kernel.turn s.k.upcalls)).delayedOut = false) (r : Race) (he : r.Events) (rs : List Round)
    (c : Bool) (s' : Sys) (hr : waitTouch (channel t cid) s (⟨[], r⟩ :: rs) = some (c, s')) : c = true := by
  subst hb
  obtain ⟨n, q, hk⟩ : ∃ n q, keepaliveCall (channel t cid) = .sendOrRecv n q := by cases t <;> exact ⟨_, _, rfl⟩
  obtain ⟨g1, s1, g2, g3, g4⟩ := waiting_packet l s hl hp h hw hs t hd ht n q
  simp only [waitTouch, Sys.run, Option.bind_some] at hr
  obtain ⟨⟨st, s2⟩, h2, hr⟩ := Option.bind_eq_some_iff.1 hr
  have hst : st = .received t (s.k.eps t).outBuffer := by
    unfold Sys.call at h2
    rw [hk, g1, Option.bind_some, if_pos rfl] at h2
    obtain ⟨s3, e3, h2⟩ := Option.bind_eq_some_iff.1 h2
    rw [run_append, g2, Option.bind_some] at e3
    have e4 := (idle_run r.early (fun x hx => he x (by simp [hx])) e3 g3).2.2
    have hnew : newUpcalls s s3 = [.received t (s.k.eps t).outBuffer] := by simp [newUpcalls, e4, g4]
    dsimp only at h2
    rw [hnew] at h2
    simp only [List.isEmpty_cons, Bool.false_and, Bool.false_eq_true, if_false] at h2
    obtain ⟨_, -, e5⟩ := Option.map_eq_some_iff.1 h2
    cases e5
    rfl
  subst hst
  obtain ⟨len, data, hi⟩ := hc
  have h64 : (s.k.eps t).outBuffer.length = 64 := by
    obtain ⟨b0, b1, b2, e, h1, h2, -⟩ := hi
    rw [e]
    simp [h1, h2]
  have hcan := (Usb.C70_cancel t cid (some (.received t (s.k.eps t).outBuffer)) (by intro t' p' e; cases e; exact h64)).2
    ⟨_, len, data, rfl, hi⟩
  simp only [connectionStatus, Option.map_some, hcan] at hr
  cases hr
  rfl

/-- As long as the host takes packets in time: a round without packets of the host, in which the host takes the message, sends one KEEPALIVE
packet that asks for a touch (command 0x3B, status 2) on the interface and the channel of the command, and the wait goes on. -/
theorem C95_keepalive_partial (l : List Input) (s : Sys) (hl : LegalRun Usb.Kernel.start l) (hp : PromptRun Usb.Kernel.start l)
    (h : Usb.Kernel.start.run l = some s) (hw : s.k.waiting = false) (hs : s.k.side = none) (hd : ∀ u, (s.k.eps u).delayedOut = false)
    (t : Transport) (cid : Bytes) (hc : cid.length = 4) (timer : Bool) :
    ∃ q data, IsInit q cid 0x3B 1 data ∧ data.head? = some 2 ∧
      ∀ u, (waitTouch (channel t cid) s [⟨[], ⟨[.packetIn t, .transmitted t], timer, [], []⟩⟩]).map
        (fun x => (x.1, x.2.wire u, x.2.k.waiting, x.2.k.side)) = some (false, if u = t then s.wire u ++ [q] else s.wire u, false, none) := by
  obtain ⟨s1, h1, hi⟩ := run_inv l inv_start hl hp
  rw [h] at h1
  cases h1
  have hidle := hi.k.idle (canTransmit_false _ hw)
  have hpo : s.k.pendingOut = false := hi.k.out.symm.trans (canReceive_false _ hw)
  obtain ⟨q, data, e1, e2, e3⟩ := C84_keepalive cid hc
  refine ⟨q, data, e2, e3, fun u => ?_⟩
  cases t <;>
    simp [waitTouch, channel, keepaliveCall, e1, endpointNumber, Sys.call, Call.ret, Call.first, Call.input, Call.rest, newUpcalls, Sys.run,
      Sys.step, Kernel.transmitOrReceive, Kernel.receivePacket, Kernel.deliverDelayed, hd, hpo, Kernel.setSide, hs, hw,
      Kernel.transmitPacket, getEndpoint, hidle, Kernel.packetIn, Kernel.set, Status.ofUpcall, connectionStatus, Usb.keepalive,
      Kernel.packetTransmitted, Kernel.cancelOut, Kernel.canTransmit, Side.canTransmit, Kernel.stopWaiting, push, Nat.not_succ_le_self]

/-- The same if the host ignores the message: it is taken back, and the wait goes on. -/
theorem C95_ignored_partial (l : List Input) (s : Sys) (hl : LegalRun Usb.Kernel.start l) (hp : PromptRun Usb.Kernel.start l)
    (h : Usb.Kernel.start.run l = some s) (hw : s.k.waiting = false) (hs : s.k.side = none) (hd : ∀ u, (s.k.eps u).delayedOut = false)
    (t : Transport) (cid : Bytes) (u : Transport) :
    (waitTouch (channel t cid) s [⟨[], ⟨[], true, [], []⟩⟩]).map
      (fun x => (x.1, x.2.wire u, x.2.k.waiting, x.2.k.side, (x.2.k.eps u).pendingIn, (x.2.k.eps u).txPacket)) =
        some (false, s.wire u, false, none, false, none) := by
  obtain ⟨s1, h1, hi⟩ := run_inv l inv_start hl hp
  rw [h] at h1
  cases h1
  have hidle := hi.k.idle (canTransmit_false _ hw)
  have hpo : s.k.pendingOut = false := hi.k.out.symm.trans (canReceive_false _ hw)
  cases t <;> cases u <;>
    simp [waitTouch, channel, keepaliveCall, endpointNumber, Sys.call, Call.ret, Call.first, Call.input, Call.rest, newUpcalls, Sys.run,
      Sys.step, Kernel.transmitOrReceive, Kernel.receivePacket, Kernel.deliverDelayed, hd, hpo, Kernel.setSide, hs, hw,
      Kernel.transmitPacket, getEndpoint, hidle, Kernel.set, Status.ofUpcall, connectionStatus, Usb.keepalive,
      Kernel.cancelOut, Kernel.stopWaiting, Kernel.cancel, Kernel.cancelTransaction, Kernel.cancelIn, Call.cancelArg]

/-- A state as both assume it, after a request and its answer. -/
example : LegalRun Usb.Kernel.start [.receive, .packetOut .main [1], .transmit 1 [2], .packetIn .main, .transmitted .main] ∧
    PromptRun Usb.Kernel.start [.receive, .packetOut .main [1], .transmit 1 [2], .packetIn .main, .transmitted .main] ∧
    ((Usb.Kernel.start.run [.receive, .packetOut .main [1], .transmit 1 [2], .packetIn .main, .transmitted .main]).map fun s =>
      (s.k.waiting, s.k.side, (s.k.eps .main).delayedOut, (s.k.eps .vendor).delayedOut)) = some (false, none, false, false) := by
  decide

/-- A CANCEL for channel `00 00 00 01`. -/
def cancelPacket : Bytes := [0, 0, 0, 1, 0x91] ++ List.replicate 59 0

/-- A round in which the host takes the message, one in which it ignores it, one in which a packet comes in on the other interface while the
device looks at the button, and one in which the host cancels. -/
def rounds : List Round :=
  [⟨[], ⟨[.packetIn .main, .transmitted .main], false, [], []⟩⟩, ⟨[], ⟨[], true, [], []⟩⟩, ⟨[.packetOut .vendor [7]], ⟨[], false, [], []⟩⟩,
    ⟨[], ⟨[.packetOut .main cancelPacket], false, [], []⟩⟩]

example : IsCancel [0, 0, 0, 1] cancelPacket ∧
    (waitTouch (channel .main [0, 0, 0, 1]) Usb.Kernel.start rounds).map (·.1) = some true ∧
    (waitTouch (channel .main [0, 0, 0, 2]) Usb.Kernel.start rounds).map (·.1) = some false ∧
    ∀ p ∈ [cancelPacket], p.length = 64 := by
  refine ⟨⟨0, List.replicate 57 0, 0x91, 0, 0, by decide, by decide, by decide, by decide, by decide⟩, by decide +kernel, by decide +kernel,
    by decide⟩

/-- The rounds are calm. -/
example : CalmRounds (channel .main [0, 0, 0, 1]) Usb.Kernel.start rounds := by
  have calm : ∀ a b, Race.Calm ⟨a, b, [], []⟩ := fun _ _ x hx => by cases hx
  unfold rounds
  repeat' first
    | exact trivial
    | (refine ⟨by decide, by decide, by unfold Race.Events; decide, fun s1 h => ?_⟩
       cases h
       refine ⟨⟨by decide, fun s2 h => ?_⟩, fun st s2 h => ?_⟩ <;> cases h
       decide
       refine ⟨fun _ => calm _ _, ?_⟩)

/-- A CANCEL that waits in the kernel: it came while the device looked at the button. -/
example : LegalRun Usb.Kernel.start [.packetOut .main cancelPacket] ∧ PromptRun Usb.Kernel.start [.packetOut .main cancelPacket] ∧
    ((Usb.Kernel.start.run [.packetOut .main cancelPacket]).map fun s => (s.k.waiting, s.k.side, (s.k.eps .main).delayedOut,
      Usb.Kernel.turn s.k.upcalls)) = some (false, none, true, .main) ∧
    ((Usb.Kernel.start.run [.packetOut .main cancelPacket]).bind fun s =>
      (waitTouch (channel .main [0, 0, 0, 1]) s [⟨[], ⟨[], true, [], []⟩⟩]).map (·.1)) = some true := by
  decide +kernel

/-- A CANCEL that comes between the end of the timer and the command that cancels is lost: the device goes on to wait, and the kernel
does not have the packet any more. -/
theorem C95_lost : LegalCall Usb.Kernel.start (keepaliveCall (channel .main [0, 0, 0, 1])) ⟨[], true, [.packetOut .main cancelPacket], []⟩ ∧
    ((waitTouch (channel .main [0, 0, 0, 1]) Usb.Kernel.start [⟨[], ⟨[], true, [.packetOut .main cancelPacket], []⟩⟩,
      ⟨[], ⟨[.packetIn .main, .transmitted .main], false, [], []⟩⟩]).map fun x => (x.1, (x.2.k.eps .main).delayedOut))
      = some (false, false) := by
  refine ⟨⟨by decide, ?_⟩, by decide +kernel⟩
  intro s2 h
  cases h
  decide

/-- While the device waits for a touch, a packet comes in on the other interface before the host took the message: the next
message is refused, and the application panics. -/
theorem C95_other_interface :
    (waitTouch (channel .main [0, 0, 0, 1]) Usb.Kernel.start [⟨[], ⟨[.packetOut .vendor [7]], false, [], []⟩⟩]).map (·.1) = some false ∧
    ((waitTouch (channel .main [0, 0, 0, 1]) Usb.Kernel.start [⟨[], ⟨[.packetOut .vendor [7]], false, [], []⟩⟩]).bind fun x =>
      (x.2.call (keepaliveCall (channel .main [0, 0, 0, 1])) ⟨[], true, [], []⟩).bind fun y =>
        (connectionStatus y.1).map (Usb.keepalive (channel .main [0, 0, 0, 1]))) = some .ioError := by
  decide +kernel

end Verif.Main
