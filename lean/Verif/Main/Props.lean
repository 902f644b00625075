import Verif.Main.Lemmas2
import Verif.Usb.Props

/-!
# C84: the main loop serves packets in turn and delivers each answer
-/
namespace Verif.Main
open Verif.Ctap hiding Transport Input
open Verif.Hid (Transport IsInit)
open Verif.Usb (Device)
variable [Dev]

/-- Whatever the clients, the kernel and the user do, the loop keeps to the rules. -/
theorem C84_order {h : List Event} {l : Loop} (hr : Run h l) : ∃ t qs, Orderly h t qs := by
  obtain ⟨t, qs, h1, _⟩ := run_orderly hr
  exact ⟨t, qs, h1⟩

/-- Between a packet and the next one, its answer is sent, complete and in order and to the interface of the packet, and nothing
else is sent; or the client did not take a packet of it in time, and the rest is given up. -/
theorem C84_answered {h h1 h2 h3 : List Event} {l : Loop} {t t' : Transport} {p p' : Bytes} {ans ans' : List Bytes} (hr : Run h l)
    (hh : h = h1 ++ .packet t p ans :: (h2 ++ .packet t' p' ans' :: h3)) (hn : ∀ e ∈ h2, e.isPacket = false) :
    h2.filter (·.isOutput) = ans.map (.sent t) ∨
    ∃ k, ∃ hk : k < ans.length, h2.filter (·.isOutput) = (ans.take k).map (.sent t) ++ [.lost t ans[k]] := by
  obtain ⟨u, qs, ho⟩ := C84_order hr
  obtain ⟨u', rs, ho'⟩ := orderly_prefix ho (h1 ++ .packet t p ans :: h2 ++ [.packet t' p' ans']) h3 (by simp [hh])
  rcases orderly_last ho' with ⟨_, w, _, h4⟩ | ⟨_, h4, _⟩ | ⟨_, _, h4, _⟩ | ⟨h4, _⟩
  · obtain ⟨rfl, h5 | ⟨_, h5⟩⟩ := orderly_since h4 h1 t p ans h2 rfl hn
    · obtain ⟨k, hk, hd, hf⟩ := h5
      left
      have : ans.length ≤ k := by
        have := congrArg List.length hd
        simp at this
        omega
      rw [hf, List.take_of_length_le this]
    · exact .inr h5
  · cases h4
  · cases h4
  · cases h4

/-- Nothing is sent before the first packet comes in. -/
theorem C84_silent {h : List Event} {l : Loop} (hr : Run h l) (hn : ∀ e ∈ h, e.isPacket = false) : ∀ e ∈ h, e = .touch := by
  obtain ⟨t, qs, ho⟩ := C84_order hr
  have key : ∀ {h : List Event} {t : Transport} {qs : List Bytes}, Orderly h t qs → (∀ e ∈ h, e.isPacket = false) →
      qs = [] ∧ ∀ e ∈ h, e = .touch := by
    intro h t qs ho
    induction ho with
    | start => intro _; simp
    | packet t' p ans _ _ => intro hn; have := hn _ (List.mem_append_right _ (List.mem_singleton.2 rfl)); simp [Event.isPacket] at this
    | sent _ ih => intro hn; exact absurd (ih fun e he => hn e (List.mem_append_left _ he)).1 (by simp)
    | lost _ ih => intro hn; exact absurd (ih fun e he => hn e (List.mem_append_left _ he)).1 (by simp)
    | touch _ ih =>
      intro hn
      have := ih fun e he => hn e (List.mem_append_left _ he)
      refine ⟨this.1, ?_⟩
      intro e he
      rcases List.mem_append.1 he with he | he
      · exact this.2 e he
      · simpa using he
  exact (key ho hn).2

/-- While packets are left to send, each iteration sends the next one, or gives up the answer if the client does not take it; no
packet is taken. -/
theorem C84_sends {h evs : List Event} {l l' : Loop} {t : Transport} {q : Bytes} {qs : List Bytes} (hr : Run h l)
    (ho : Orderly h t (q :: qs)) (x : Turn) (ht : turn x l = (.ok evs, l')) :
    ∃ e, evs.filter (fun e => e.isOutput || e.isPacket) = [e] ∧
      ((x.send = .sent ∧ e = .sent t q) ∨ (x.send = .timeout ∧ e = .lost t q)) := by
  obtain ⟨u, rs, h1, hw⟩ := run_orderly hr
  obtain ⟨rfl, h2⟩ := orderly_unique _ rfl ho h1
  obtain rfl := h2 (by simp)
  unfold turn at ht
  cases hb : x.buttons with
  | none => rw [hb] at ht; simp at ht
  | some bs =>
    rw [hb] at ht
    simp only at ht
    have key : ∀ (e : Event) (he : e.isOutput = true) (l : Loop), finish x.o bs [e] none l = (.ok evs, l') →
        evs.filter (fun e => e.isOutput || e.isPacket) = [e] := by
      intro e he l hf
      obtain ⟨es, h3, rfl, _⟩ := finish_ok hf
      rcases serve_ok h3 with ⟨_, rfl, _⟩ | ⟨_, _, _, h4, _⟩
      · generalize bs.any id = b
        cases e <;> simp [Event.isOutput] at he <;> cases b <;> rfl
      · cases h4
    cases hn : l.replies.nextPacket with
    | none => cases nextPacket_none hw hn
    | some r =>
      obtain ⟨⟨u, p⟩, rs⟩ := r
      obtain ⟨rfl, qs', h3, _⟩ := nextPacket_some hw hn
      simp only [List.cons.injEq] at h3
      obtain ⟨rfl, rfl⟩ := h3
      rw [hn] at ht
      simp only at ht
      cases hs : x.send with
      | sent => rw [hs] at ht; exact ⟨_, key _ rfl _ ht, .inl ⟨rfl, rfl⟩⟩
      | timeout => rw [hs] at ht; exact ⟨_, key _ rfl _ ht, .inr ⟨rfl, rfl⟩⟩
      | fail => rw [hs] at ht; simp at ht

/-- When nothing is left to send, a packet that comes in on one of the two interfaces is processed, once, and nothing is sent in
this iteration. -/
theorem C84_takes {h evs : List Event} {l l' : Loop} {t u : Transport} {n : Nat} {p : Bytes} (hr : Run h l)
    (ho : Orderly h t []) (x : Turn) (ht : turn x l = (.ok evs, l')) (hx : x.recv = .received n p)
    (hu : (n = 1 ∧ u = .main) ∨ (n = 2 ∧ u = .vendor)) :
    ∃ ans, evs.filter (fun e => e.isOutput || e.isPacket) = [.packet u p ans] := by
  obtain ⟨w, rs, h1, hw⟩ := run_orderly hr
  obtain ⟨rfl, -⟩ := orderly_unique _ rfl ho h1
  unfold turn at ht
  cases hb : x.buttons with
  | none => rw [hb] at ht; simp at ht
  | some bs =>
    rw [hb] at ht
    simp only at ht
    cases hn : l.replies.nextPacket with
    | some r =>
      obtain ⟨⟨u, p⟩, rs⟩ := r
      obtain ⟨_, qs', h3, _⟩ := nextPacket_some hw hn
      cases h3
    | none =>
      rw [hn] at ht
      simp only [hx] at ht
      have he : endpoint n = some u := by rcases hu with ⟨rfl, rfl⟩ | ⟨rfl, rfl⟩ <;> rfl
      rw [he] at ht
      obtain ⟨es, h3, rfl, _⟩ := finish_ok ht
      rcases serve_ok h3 with ⟨h4, _⟩ | ⟨t', p', it, h4, _, rfl, _⟩
      · cases h4
      · simp only [Option.map_some, Option.some.injEq, Prod.mk.injEq] at h4
        obtain ⟨rfl, rfl⟩ := h4
        refine ⟨it.rest, ?_⟩
        cases bs.any id <;> simp [Event.isOutput, Event.isPacket]

/-- The device behind the loop is that of C70: the same packets and touches, in the same order, with the same answers. Each
property of the device for all histories of packets holds for all runs of the loop. -/
theorem C84_device {h : List Event} {l : Loop} (hr : Run h l) :
    ∃ tr, Usb.Trace tr l.dev ∧ tr.filterMap asked' = h.filterMap asked :=
  run_trace hr

/-- The user counts as present for U2F exactly in the iterations in which a button is held down. -/
theorem C84_touch {l l' : Loop} {evs : List Event} (x : Turn) (ht : turn x l = (.ok evs, l')) :
    .touch ∈ evs ↔ ∃ bs, x.buttons = some bs ∧ true ∈ bs := by
  have key : ∀ (bs : List Bool) (evs0 : List Event) (y : Option (Transport × Bytes)) (l : Loop), Event.touch ∉ evs0 →
      finish x.o bs evs0 y l = (.ok evs, l') → (.touch ∈ evs ↔ true ∈ bs) := by
    intro bs evs0 y l h0 hf
    obtain ⟨es, h3, rfl, _⟩ := finish_ok hf
    have hes : Event.touch ∉ es := by
      rcases serve_ok h3 with ⟨_, rfl, _⟩ | ⟨t', p', it, h4, _, rfl, _⟩ <;> simp
    have hb : bs.any id = true ↔ true ∈ bs := by simp
    cases hbb : bs.any id
    · rw [hbb] at hb; simpa [h0, hes] using hb
    · rw [hbb] at hb; simpa [h0, hes] using hb
  unfold turn at ht
  cases hb : x.buttons with
  | none => rw [hb] at ht; simp at ht
  | some bs =>
    rw [hb] at ht
    simp only at ht
    simp only [Option.some.injEq, exists_eq_left']
    cases hn : l.replies.nextPacket with
    | some r =>
      obtain ⟨⟨u, p⟩, rs⟩ := r
      rw [hn] at ht
      simp only at ht
      cases hs : x.send with
      | sent => rw [hs] at ht; exact key bs _ _ _ (by simp) ht
      | timeout => rw [hs] at ht; exact key bs _ _ _ (by simp) ht
      | fail => rw [hs] at ht; simp at ht
    | none =>
      rw [hn] at ht
      simp only at ht
      cases hs : x.recv with
      | received e p => rw [hs] at ht; exact key bs _ _ _ (by simp) ht
      | timeout => rw [hs] at ht; exact key bs _ _ _ (by simp) ht
      | fail => rw [hs] at ht; simp at ht

/-- The loop ends only if a driver fails or the commands stop. -/
theorem C84_goes_on (x : Turn) (l : Loop) {bs : List Bool} (hb : x.buttons = some bs) (hs : x.send ≠ .fail) (hv : x.recv ≠ .fail)
    (hc : ∀ t p d, x.recv = .received t p → ∃ out, (Usb.step (.packet (if t = 1 then .main else .vendor) p) d).1 = .ok out) :
    ∃ evs, (turn x l).1 = .ok evs := by
  have key : ∀ (evs0 : List Event) (y : Option (Transport × Bytes)) (l : Loop),
      (∀ t p, y = some (t, p) → ∀ d, ∃ out, (Usb.step (.packet t p) d).1 = .ok out) → ∃ evs, (finish x.o bs evs0 y l).1 = .ok evs := by
    intro evs0 y l hy
    unfold finish
    simp only
    suffices h : ∃ es, (serve x.o y (grant x.o (bs.any id) l)).1 = .ok es by
      obtain ⟨es, h⟩ := h
      rw [h]
      exact ⟨_, rfl⟩
    unfold serve
    cases y with
    | none => exact ⟨_, rfl⟩
    | some z =>
      obtain ⟨t, p⟩ := z
      obtain ⟨out, ho⟩ := hy t p rfl ((grant x.o (bs.any id) l).dev.withOracle x.o)
      replace ho : (Usb.processPacket t p ((grant x.o (bs.any id) l).dev.withOracle x.o)).1 = .ok out := ho
      rw [processPacket_rest] at ho
      simp only at ho ⊢
      cases hr : (processPacket t p ((grant x.o (bs.any id) l).dev.withOracle x.o)).1 with
      | ok it => exact ⟨_, rfl⟩
      | err e => rw [hr] at ho; cases ho
      | panic => rw [hr] at ho; cases ho
      | crash => rw [hr] at ho; cases ho
  unfold turn
  rw [hb]
  simp only
  cases hn : l.replies.nextPacket with
  | some r =>
    obtain ⟨⟨u, p⟩, rs⟩ := r
    simp only
    cases h : x.send with
    | sent => exact key _ _ _ (by intro _ _ h; cases h)
    | timeout => exact key _ _ _ (by intro _ _ h; cases h)
    | fail => exact absurd h hs
  | none =>
    simp only
    cases h : x.recv with
    | received e p =>
      refine key _ _ _ ?_
      intro t q hy d
      unfold endpoint at hy
      split at hy
      · rename_i h1
        simp only [Option.map_some, Option.some.injEq, Prod.mk.injEq] at hy
        obtain ⟨rfl, rfl⟩ := hy
        simpa [h1] using hc e p d h
      · rename_i h1
        split at hy
        · simp only [Option.map_some, Option.some.injEq, Prod.mk.injEq] at hy
          obtain ⟨rfl, rfl⟩ := hy
          simpa [h1] using hc e p d h
        · cases hy
    | timeout => exact key _ _ _ (by intro _ _ h; cases h)
    | fail => exact absurd h hv

/-- What the LEDs show after an iteration: the device winks if it was asked to, else it blinks if U2F waits for a touch, else it
is dark. -/
theorem C84_leds {l l' : Loop} {evs : List Event} (x : Turn) (ht : turn x l = (.ok evs, l')) :
    if l'.dev.shouldWink then ∃ n, l'.leds = .wink n
    else if l'.dev.st.v.u2f.isNeeded l'.dev.st.env.now then ∃ n, l'.leds = .blink n else l'.leds = .off := by
  have key : ∀ (bs : List Bool) (evs0 : List Event) (y : Option (Transport × Bytes)) (l : Loop),
      finish x.o bs evs0 y l = (.ok evs, l') → ∃ l0, l' = showLeds l0 := by
    intro bs evs0 y l hf
    obtain ⟨es, _, _, h⟩ := finish_ok hf
    exact ⟨_, h⟩
  have : ∃ l0, l' = showLeds l0 := by
    unfold turn at ht
    cases hb : x.buttons with
    | none => rw [hb] at ht; simp at ht
    | some bs =>
      rw [hb] at ht
      simp only at ht
      cases hn : l.replies.nextPacket with
      | some r =>
        obtain ⟨⟨u, p⟩, rs⟩ := r
        rw [hn] at ht
        simp only at ht
        cases hs : x.send with
        | sent => rw [hs] at ht; exact key bs _ _ _ ht
        | timeout => rw [hs] at ht; exact key bs _ _ _ ht
        | fail => rw [hs] at ht; simp at ht
      | none =>
        rw [hn] at ht
        simp only at ht
        cases hs : x.recv with
        | received e p => rw [hs] at ht; exact key bs _ _ _ ht
        | timeout => rw [hs] at ht; exact key bs _ _ _ ht
        | fail => rw [hs] at ht; simp at ht
  obtain ⟨l0, rfl⟩ := this
  rw [(showLeds_same l0).1]
  unfold showLeds
  simp only
  have key2 : ∀ l : Loop, l.dev = l0.dev →
      (if l0.dev.shouldWink then ∃ n, (if l.dev.shouldWink then { l with leds := .wink l.ledCounter }
          else if l.dev.st.v.u2f.isNeeded l0.dev.st.env.now then { l with leds := .blink l.ledCounter } else { l with leds := .off }).leds = .wink n
        else if l0.dev.st.v.u2f.isNeeded l0.dev.st.env.now then ∃ n, (if l.dev.shouldWink then { l with leds := .wink l.ledCounter }
          else if l.dev.st.v.u2f.isNeeded l0.dev.st.env.now then { l with leds := .blink l.ledCounter } else { l with leds := .off }).leds = .blink n
        else (if l.dev.shouldWink then { l with leds := .wink l.ledCounter }
          else if l.dev.st.v.u2f.isNeeded l0.dev.st.env.now then { l with leds := .blink l.ledCounter } else { l with leds := .off }).leds = .off) := by
    intro l hl
    rw [hl]
    by_cases h1 : l0.dev.shouldWink = true
    · simp only [h1, if_true]; exact ⟨_, rfl⟩
    · by_cases h2 : l0.dev.st.v.u2f.isNeeded l0.dev.st.env.now = true
      · simp only [h1, h2, if_true, Bool.false_eq_true, if_false]; exact ⟨_, rfl⟩
      · simp only [h1, h2, Bool.false_eq_true, if_false]
  by_cases h0 : Verif.Hid.Timer.isElapsed l0.ledTimer l0.dev.st.env.now = true
  · simp only [h0, if_true]
    exact key2 { l0 with ledCounter := l0.ledCounter + 1, ledTimer := makeTimer l0.dev.st.env.now 100 } rfl
  · simp only [h0, Bool.false_eq_true, if_false]
    exact key2 l0 rfl

omit [Dev] in
/-- While a command waits for a touch, the client gets KEEPALIVE messages of one packet that say so (command 0x3B, status 2), on its
channel. -/
theorem C84_keepalive (cid : Bytes) (hc : cid.length = 4) :
    ∃ q data, (keepalive cid).rest = [q] ∧ IsInit q cid 0x3B 1 data ∧ data.head? = some 2 := by
  match cid, hc with
  | [a, b, c, d], _ => exact ⟨[a, b, c, d, 0xBB, 0, 1] ++ 2 :: List.replicate 56 0, 2 :: List.replicate 56 0, by
      simp [keepalive, splitMessage, Hid.Splitter.new, Iter.rest, Hid.Splitter.collect, Hid.Splitter.next, Hid.consumeData, Hid.Cmd.toNat], ⟨0xBB, 0, 1, rfl, rfl, rfl, rfl, rfl⟩, rfl⟩

end Verif.Main

/-! ## Examples -/
namespace Verif.Main.Toy
open Verif.Ctap hiding Transport Input
open Verif.Ctap.Toy (good)
open Verif.Hid (Transport)
open Verif.Usb.Toy (initP ping0 ping1)
set_option maxRecDepth 100000

def calm : Turn := { o := good, ms := 1, buttons := some [false], send := .sent, recv := .timeout }
def recv (n : Nat) (p : Bytes) : Turn := { calm with recv := .received n p }
def slow : Turn := { calm with send := .timeout }
def press : Turn := { calm with buttons := some [false, true] }

/-- The events of some iterations, and the loop after them. -/
def play : List Turn → List Event → Loop → List Event × Loop
  | [], h, l => (h, l)
  | x :: xs, h, l =>
    match turn x l with
    | (.ok evs, l') => play xs (h ++ evs) l'
    | (_, l') => (h, l')

/-- The loop after power-up. -/
def l0 : Loop := Main.start (Usb.boot Usb.Toy.start).2

/-- A short form of an event. -/
def brief : Event → Nat × Bytes × Nat
  | .sent _ p => (0, p.take 6, 0)
  | .lost _ p => (1, p.take 6, 0)
  | .touch => (2, [], 0)
  | .packet _ p a => (3, p.take 6, a.length)

def xs : List Turn := [press, recv 1 initP, calm, recv 1 ping0, recv 1 ping1, recv 1 initP, slow, recv 7 initP, recv 2 initP, calm]

/-- The iterations all succeed. -/
def allOk : List Turn → Loop → Bool
  | [], _ => true
  | x :: xs, l => match turn x l with
    | (.ok _, l') => allOk xs l'
    | _ => false

theorem run : ∀ (xs : List Turn) {h l}, Run h l → (∀ x ∈ xs, ∀ e p, x.recv = .received e p → p.length = 64) → allOk xs l = true →
    Run (play xs h l).1 (play xs h l).2 := by
  intro xs
  induction xs with
  | nil => intro h l hr _ _; exact hr
  | cons x xs ih =>
    intro h l hr hx ha
    unfold allOk at ha
    unfold play
    cases ht : turn x l with
    | mk r l' =>
      rw [ht] at ha
      cases r with
      | ok evs => exact ih (.turn x hr (hx x (by simp)) ht) (fun y hy => hx y (by simp [hy])) ha
      | err e => simp at ha
      | panic => simp at ha
      | crash => simp at ha

/-- A channel is given out; of the two packets of an answer the first one is sent (a packet that the client sends meanwhile is not
taken), the second is given up; a packet on an unknown endpoint is ignored; one on the other interface is answered. -/
example : Run (play xs [] l0).1 (play xs [] l0).2 ∧ (play xs [] l0).1.map brief =
    [(2, [], 0), (3, [0xFF, 0xFF, 0xFF, 0xFF, 0x86, 0], 1), (0, [0xFF, 0xFF, 0xFF, 0xFF, 0x86, 0], 0),
      (3, [0, 0, 0, 1, 0x81, 0], 0), (3, [0, 0, 0, 1, 0, 7], 2), (0, [0, 0, 0, 1, 0x81, 0], 0), (1, [0, 0, 0, 1, 0, 7], 0),
      (3, [0xFF, 0xFF, 0xFF, 0xFF, 0x86, 0], 1), (0, [0xFF, 0xFF, 0xFF, 0xFF, 0x86, 0], 0)] := by
  refine ⟨run xs (.boot Usb.Toy.start (by decide +kernel)) ?_ (by decide +kernel), by decide +kernel⟩
  intro x hx e p h
  simp only [xs, List.mem_cons, List.not_mem_nil, or_false] at hx
  rcases hx with rfl | rfl | rfl | rfl | rfl | rfl | rfl | rfl | rfl | rfl <;> cases h <;> rfl

end Verif.Main.Toy
