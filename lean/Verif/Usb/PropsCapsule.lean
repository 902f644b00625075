import Verif.Usb.CapsuleLemmas

/-!
# C93: the USB driver in the kernel
-/
namespace Verif.Usb.Kernel
open Verif.Hid (Bytes Transport)

theorem step_total {s s' : Sys} {x : Input} (hl : Legal s x) (h : s.step x = some s') (hi : ∀ t, s.host t = total s.k t) :
    ∀ t, s'.host t = total s'.k t := by
  intro u
  cases x with
  | allow len => cases h; exact hi u
  | transmit n p =>
    cases h
    show s.host u = total (s.k.transmit n p).2 u
    rw [hi u]
    unfold Kernel.transmit
    dsimp only
    split
    · exact (setSide_total _ _ u).symm
    · split
      · exact (setSide_total _ _ u).symm
      · have e := (transmitPacket_total (s.k.setSide .transmit).2 p n u).trans (setSide_total s.k .transmit u)
        split
        · exact e.symm
        · exact e.symm
  | receive =>
    obtain ⟨⟨r, k⟩, h1, rfl⟩ := Option.map_eq_some_iff.1 h
    show s.host u = total k u
    rw [hi u]
    unfold Kernel.receive at h1
    dsimp only at h1
    split at h1
    · cases h1; exact (setSide_total _ _ u).symm
    · split at h1
      · cases h1; exact (setSide_total _ _ u).symm
      · obtain ⟨k1, h2, h3⟩ := Option.map_eq_some_iff.1 h1
        cases h3
        rw [receive_total h2]
        exact (setSide_total s.k .receive u).symm
  | transmitOrReceive n p =>
    obtain ⟨⟨r, k⟩, h1, rfl⟩ := Option.map_eq_some_iff.1 h
    show s.host u = total k u
    rw [hi u]
    unfold Kernel.transmitOrReceive at h1
    dsimp only at h1
    split at h1
    · cases h1; exact (setSide_total _ _ u).symm
    · split at h1
      · cases h1; exact (setSide_total _ _ u).symm
      · obtain ⟨k1, h2, h3⟩ := Option.map_eq_some_iff.1 h1
        have e : total k1 u = total s.k u := by
          rw [receive_total h2]
          exact setSide_total s.k .transmitOrReceive u
        split at h3
        · cases h3; exact e.symm
        · have e2 := transmitPacket_total k1 p n u
          rw [h3] at e2
          rw [← e, ← e2]
  | cancel n => cases h; exact (hi u).trans (cancel_total s.k n u).symm
  | packetIn t =>
    have e : total (s.k.packetIn t).2 u = total s.k u :=
      set_total (k := s.k) (t := t) (f := fun e => { e with txPacket := none }) (fun _ => ⟨rfl, rfl⟩) u
    simp only [Sys.step] at h
    split at h <;> (cases h; exact (hi u).trans e.symm)
  | packetOut t p =>
    obtain ⟨k, h1, rfl⟩ := Option.map_eq_some_iff.1 h
    obtain ⟨⟨b, k'⟩, h2, h3⟩ := Option.map_eq_some_iff.1 h1
    simp only at h3
    subst h3
    show push s.host t p u = total k' u
    have hd : (s.k.eps t).delayedOut = false := hl
    rw [send_total h2]
    by_cases hu : u = t
    · subst hu
      have := hi u
      simp [push, this, total, Kernel.set, hd]
    · have := hi u
      simp [push, hu, this, total, Kernel.set]
  | transmitted t =>
    obtain ⟨k, h1, rfl⟩ := Option.map_eq_some_iff.1 h
    show s.host u = total k u
    unfold Kernel.packetTransmitted at h1
    dsimp only at h1
    have e : total (s.k.set t fun e => { e with pendingIn := false }) u = total s.k u :=
      set_total (k := s.k) (t := t) (f := fun e => { e with pendingIn := false }) (fun _ => ⟨rfl, rfl⟩) u
    rw [hi u, ← e]
    split at h1
    · cases h1
    · split at h1
      · cases h1
        unfold total
        rw [delivered_append]
        simp only [show delivered [Upcall.transmitted] u = [] from rfl, List.append_nil]
        rfl
      · cases h1; rfl

theorem run_total {s s' : Sys} (l : List Input) (hl : LegalRun s l) (h : s.run l = some s') (hi : ∀ t, s.host t = total s.k t) :
    ∀ t, s'.host t = total s'.k t := by
  induction l generalizing s with
  | nil => cases h; exact hi
  | cons x l ih =>
    obtain ⟨s1, h1, h2⟩ := Option.bind_eq_some_iff.1 h
    exact ih (hl.2 s1 h1) h2 (step_total hl.1 h1 hi)

/-- Whatever the application, the controller and the host do: on each endpoint, the application receives the packets that the host
sent, all of them, in this order and once, except that the last one may still wait in the kernel. -/
theorem C93_received (l : List Input) (s : Sys) (hl : LegalRun start l) (h : start.run l = some s) (t : Transport) :
    s.host t = delivered s.k.upcalls t ∨ ∃ p, s.host t = delivered s.k.upcalls t ++ [p] := by
  have := run_total l hl h (fun t => rfl) t
  rw [this]
  unfold total
  split
  · exact .inr ⟨_, rfl⟩
  · left; simp

/-- What was accepted, and did not go to the wire yet, includes the packet that waits. -/
def TxInv (s : Sys) : Prop := ∀ t,
  (s.wire t ++ (s.k.eps t).txPacket.toList).Sublist (s.submitted t)

theorem TxInv.le {s s' : Sys} (h : TxInv s) (hk : TxLe s.k s'.k) (hw : s'.wire = s.wire) (hs : s'.submitted = s.submitted) :
    TxInv s' := by
  intro t
  rw [hw, hs]
  rcases hk t with e | e
  · rw [e]; exact h t
  · rw [e]
    simp only [Option.toList_none, List.append_nil]
    exact (List.sublist_append_left _ _).trans (h t)

theorem TxInv.transmitPacket {s : Sys} {k : Kernel} (n : Nat) (p : Bytes) (h : TxInv s) (hk : TxLe s.k k) :
    TxInv { s with k := (k.transmitPacket p n).2, submitted := submit (k.transmitPacket p n).1 s.submitted n p } := by
  have h0 : TxInv { s with k := k } := h.le hk rfl rfl
  cases hg : getEndpoint n with
  | none =>
    have e : k.transmitPacket p n = (.inval, k) := by simp only [Kernel.transmitPacket, hg]
    have e2 : submit .inval s.submitted n p = s.submitted := by simp only [submit, hg]
    rw [e, e2]
    exact h0
  | some t =>
    cases hp : (k.eps t).pendingIn with
    | true =>
      have e : k.transmitPacket p n = (.busy, k) := by simp only [Kernel.transmitPacket, hg, hp, if_true]
      have e2 : submit .busy s.submitted n p = s.submitted := by simp [submit, hg]
      rw [e, e2]
      exact h0
    | false =>
      have e : k.transmitPacket p n = (.success, k.set t fun e => { e with pendingIn := true, txPacket := some p }) := by
        simp [Kernel.transmitPacket, hg, hp]
      have e2 : submit .success s.submitted n p = push s.submitted t p := by simp [submit, hg]
      rw [e, e2]
      intro u
      by_cases hu : u = t
      · subst hu
        have := (List.sublist_append_left _ _).trans (h u)
        have := this.append (List.Sublist.refl [p])
        simp only [Kernel.set, push, if_true, Option.toList_some]
        exact this
      · have := h0 u
        simp only [Kernel.set, push, if_neg hu]
        exact this

theorem TxInv.extra {s : Sys} {k : Kernel} (r : Ret) (n : Nat) (p : Bytes) (h : TxInv s) (hk : TxLe s.k k) :
    TxInv { s with k := k, submitted := submit r s.submitted n p } := by
  have h0 : TxInv { s with k := k } := h.le hk rfl rfl
  intro u
  refine (h0 u).trans ?_
  show (s.submitted u).Sublist (submit r s.submitted n p u)
  cases hg : getEndpoint n with
  | none => simp [submit, hg]
  | some t =>
    by_cases hr : r = .success
    · by_cases hu : u = t
      · simp [submit, hg, hr, push, hu]
      · simp [submit, hg, hr, push, hu]
    · simp [submit, hg, hr]

theorem step_tx {s s' : Sys} {x : Input} (h : s.step x = some s') (hi : TxInv s) : TxInv s' := by
  cases x with
  | allow len => cases h; exact hi.le (TxLe.of_eps rfl) rfl rfl
  | transmit n p =>
    cases h
    have hs : TxLe s.k (s.k.setSide .transmit).2 := TxLe.of_eps (setSide_eps _ _)
    generalize hr : s.k.transmit n p = r
    unfold Kernel.transmit at hr
    dsimp only at hr
    split at hr
    · subst hr; exact hi.extra _ n p hs
    · split at hr
      · subst hr; exact hi.extra _ n p hs
      · have ht := hi.transmitPacket n p hs
        split at hr
        · rename_i he
          subst hr
          rw [he] at ht
          exact fun t => ht t
        · subst hr; exact ht
  | receive =>
    obtain ⟨⟨r, k⟩, h1, rfl⟩ := Option.map_eq_some_iff.1 h
    refine hi.le (?_ : TxLe s.k k) rfl rfl
    have hs : TxLe s.k (s.k.setSide .receive).2 := TxLe.of_eps (setSide_eps _ _)
    unfold Kernel.receive at h1
    dsimp only at h1
    split at h1
    · cases h1; exact hs
    · split at h1
      · cases h1; exact hs
      · obtain ⟨k1, h2, h3⟩ := Option.map_eq_some_iff.1 h1
        cases h3
        have := TxLe.receive h2
        intro t
        exact TxLe.trans hs (b := (s.k.setSide .receive).2) (fun t => this t) t
  | transmitOrReceive n p =>
    obtain ⟨⟨r, k⟩, h1, rfl⟩ := Option.map_eq_some_iff.1 h
    have hs : TxLe s.k (s.k.setSide .transmitOrReceive).2 := TxLe.of_eps (setSide_eps _ _)
    unfold Kernel.transmitOrReceive at h1
    dsimp only at h1
    split at h1
    · cases h1; exact hi.extra _ n p hs
    · split at h1
      · cases h1; exact hi.extra _ n p hs
      · obtain ⟨k1, h2, h3⟩ := Option.map_eq_some_iff.1 h1
        have h4 := TxLe.receive h2
        have h5 : TxLe s.k k1 := TxLe.trans hs (b := (s.k.setSide .transmitOrReceive).2) (fun t => h4 t)
        split at h3
        · cases h3; exact hi.extra _ n p h5
        · have := hi.transmitPacket n p h5
          rw [h3] at this
          exact this
  | cancel n => cases h; exact hi.le (TxLe.cancel s.k n) rfl rfl
  | packetIn t =>
    simp only [Sys.step, Kernel.packetIn] at h
    split at h
    · rename_i p hp
      cases h
      intro u
      have := hi u
      by_cases hu : u = t
      · subst hu
        rw [hp] at this
        simpa [Kernel.set, push] using this
      · simpa [Kernel.set, push, hu] using this
    · cases h
      exact hi.le (TxLe.set s.k t (fun e => { e with txPacket := none }) fun _ => .inr rfl) rfl rfl
  | packetOut t p =>
    obtain ⟨k, h1, rfl⟩ := Option.map_eq_some_iff.1 h
    obtain ⟨⟨b, k'⟩, h2, h3⟩ := Option.map_eq_some_iff.1 h1
    simp only at h3
    subst h3
    exact hi.le ((TxLe.set s.k t (fun e => { e with outBuffer := p }) fun _ => .inl rfl).trans (TxLe.send h2)) rfl rfl
  | transmitted t =>
    obtain ⟨k, h1, rfl⟩ := Option.map_eq_some_iff.1 h
    refine hi.le (?_ : TxLe s.k k) rfl rfl
    have e := TxLe.set s.k t (fun e => { e with pendingIn := false }) fun _ => .inl rfl
    unfold Kernel.packetTransmitted at h1
    dsimp only at h1
    split at h1
    · cases h1
    · split at h1
      · cases h1; exact fun t => e t
      · cases h1; exact fun t => e t

theorem run_tx {s s' : Sys} (l : List Input) (h : s.run l = some s') (hi : TxInv s) : TxInv s' := by
  induction l generalizing s with
  | nil => cases h; exact hi
  | cons x l ih =>
    obtain ⟨s1, h1, h2⟩ := Option.bind_eq_some_iff.1 h
    exact ih h2 (step_tx h1 hi)

/-- On each endpoint, what goes to the host are packets of successful commands of the application, in this order and each at most
once. -/
theorem C93_sent (l : List Input) (s : Sys) (h : start.run l = some s) (t : Transport) :
    (s.wire t).Sublist (s.submitted t) :=
  (List.sublist_append_left _ _).trans (run_tx l h (fun _ => List.Sublist.refl _) t)

/-- Nothing is on its way to the host. -/
structure Quiet (k : Kernel) : Prop where
  idle : ∀ t, (k.eps t).pendingIn = false ∧ (k.eps t).txPacket = none
  side : k.waiting = true → k.side ≠ none
  out : k.canReceive = k.pendingOut

theorem send_yes {k : Kernel} {t : Transport} (h1 : k.recvLen = 64) (h2 : (k.eps t).delayedOut = false) (h3 : k.canReceive = true)
    (h4 : k.pendingOut = true) :
    k.sendPacketToClient t = some (true, { k with
      side := none
      waiting := false
      upcalls := k.upcalls ++ [.received t (k.eps t).outBuffer]
      eps := fun u => if u = t then { k.eps u with txPacket := none, pendingIn := false } else k.eps u
      pendingOut := false
      next := nextEndpoint t }) := by
  unfold Kernel.sendPacketToClient
  rw [if_neg (by simp [h2]), if_pos h3, if_neg (by simp [h4])]
  have hr : (({ k with pendingOut := false } : Kernel).cancelIn t).2.canReceive = true := h3
  unfold Kernel.appPacketReceived
  dsimp only
  rw [if_pos hr, if_neg (by simp [Kernel.cancelIn, Kernel.set, h1])]
  simp [Kernel.cancelIn, Kernel.set, Kernel.stopWaiting]

theorem send_no {k : Kernel} {t : Transport} (h2 : (k.eps t).delayedOut = false) (h3 : k.canReceive = false) :
    k.sendPacketToClient t = some (false, k.set t fun e => { e with delayedOut := true }) := by
  unfold Kernel.sendPacketToClient
  rw [if_neg (by simp [h2]), if_neg (by simp [h3])]

theorem canReceive_false (k : Kernel) (h : k.waiting = false) : k.canReceive = false := by simp [Kernel.canReceive, h]

/-- After a packet was given to the application, or not. -/
theorem send_quiet {k : Kernel} {t : Transport} (h : Quiet k) (hl : k.recvLen = 64) (hd : (k.eps t).delayedOut = false) :
    ∃ b k', k.sendPacketToClient t = some (b, k') ∧ Quiet k' ∧ k'.recvLen = 64 ∧ (k'.waiting = true → k.waiting = true ∧ k'.side = k.side) := by
  cases hc : k.canReceive with
  | true =>
    refine ⟨_, _, send_yes hl hd hc (h.out.symm.trans hc), ⟨?_, ?_, ?_⟩, hl, ?_⟩
    · intro u
      dsimp only
      split
      · exact ⟨rfl, rfl⟩
      · exact h.idle u
    · intro h; simp at h
    · simp [Kernel.canReceive]
    · intro h; simp at h
  | false =>
    refine ⟨_, _, send_no hd hc, ⟨?_, h.side, h.out⟩, hl, fun h => ⟨h, rfl⟩⟩
    intro u
    have := h.idle u
    unfold Kernel.set
    dsimp only
    split <;> exact this

theorem deliver_quiet {k : Kernel} (t : Transport) (h : Quiet k) (hl : k.recvLen = 64) :
    ∃ k', k.deliverDelayed t = some k' ∧ Quiet k' ∧ k'.recvLen = 64 ∧ (k'.waiting = true → k.waiting = true ∧ k'.side = k.side) := by
  unfold Kernel.deliverDelayed
  split
  · have hq : Quiet (k.set t fun e => { e with delayedOut := false }) := ⟨by
      intro u
      have := h.idle u
      unfold Kernel.set
      dsimp only
      split <;> exact this, h.side, h.out⟩
    obtain ⟨b, k', e, q, w⟩ := send_quiet (t := t) hq hl (by simp [Kernel.set])
    exact ⟨k', by rw [e]; rfl, q, w⟩
  · exact ⟨k, rfl, h, hl, fun h => ⟨h, rfl⟩⟩

theorem receive_quiet {k : Kernel} (h : Quiet { k with pendingOut := true }) (hl : k.recvLen = 64) :
    ∃ k', k.receivePacket = some k' ∧ Quiet k' ∧ (k'.waiting = true → k'.side = k.side) := by
  unfold Kernel.receivePacket
  split
  · rename_i hp
    exact ⟨k, rfl, ⟨h.idle, h.side, h.out.trans hp.symm⟩, fun _ => rfl⟩
  · obtain ⟨k1, e1, q1, l1, w1⟩ := deliver_quiet k.next h hl
    obtain ⟨k2, e2, q2, -, w2⟩ := deliver_quiet (nextEndpoint k.next) q1 l1
    refine ⟨k2, by rw [e1]; exact e2, q2, fun h => ?_⟩
    rw [(w2 h).2, (w1 (w2 h).1).2]

/-- At most one packet is on its way to the host, and the application waits for it. -/
structure KInv (k : Kernel) : Prop where
  tx : ∀ t, (k.eps t).pendingIn = false → (k.eps t).txPacket = none
  wait : ∀ t, (k.eps t).pendingIn = true → k.canTransmit = true
  one : ∀ t u, (k.eps t).pendingIn = true → (k.eps u).pendingIn = true → t = u
  side : k.waiting = true → k.side ≠ none
  out : k.canReceive = k.pendingOut

theorem Quiet.inv {k : Kernel} (h : Quiet k) : KInv k where
  tx t _ := (h.idle t).2
  wait t e := by rw [(h.idle t).1] at e; cases e
  one t _ e := by rw [(h.idle t).1] at e; cases e
  side := h.side
  out := h.out

theorem KInv.quiet {k : Kernel} (h : KInv k) (hn : ∀ t, (k.eps t).pendingIn = false) : Quiet k :=
  ⟨fun t => ⟨hn t, h.tx t (hn t)⟩, h.side, h.out⟩

theorem KInv.idle {k : Kernel} (h : KInv k) (hn : k.canTransmit = false) (t : Transport) : (k.eps t).pendingIn = false := by
  cases e : (k.eps t).pendingIn with
  | false => rfl
  | true => have := h.wait t e; rw [hn] at this; cases this

theorem canTransmit_false (k : Kernel) (h : k.waiting = false) : k.canTransmit = false := by simp [Kernel.canTransmit, h]

theorem transmitPacket_inv {k : Kernel} (n : Nat) (p : Bytes) (h : Quiet k) (hc : k.canTransmit = true) :
    KInv (k.transmitPacket p n).2 := by
  unfold Kernel.transmitPacket
  split
  · rename_i t _
    split
    · exact h.inv
    · have e : ∀ u, u ≠ t → ((k.set t fun e => { e with pendingIn := true, txPacket := some p }).eps u) = k.eps u := by
        intro u hu
        simp [Kernel.set, hu]
      have key : ∀ u, ((k.set t fun e => { e with pendingIn := true, txPacket := some p }).eps u).pendingIn = true → u = t := by
        intro u hu
        by_cases hut : u = t
        · exact hut
        · rw [e u hut, (h.idle u).1] at hu; cases hu
      refine ⟨?_, fun _ _ => hc, fun u v hu hv => (key u hu).trans (key v hv).symm, h.side, h.out⟩
      intro u hu
      by_cases hut : u = t
      · subst hut
        simp [Kernel.set] at hu
      · show ((k.set t fun e => { e with pendingIn := true, txPacket := some p }).eps u).txPacket = none
        rw [e u hut]; exact (h.idle u).2
  · exact h.inv

/-- The driver and the controller agree. -/
structure Inv (s : Sys) : Prop where
  k : KInv s.k
  fl : ∀ t, s.inFlight t = true → (s.k.eps t).pendingIn = true ∧ (s.k.eps t).txPacket = none

theorem quiet_start : Quiet start.k where
  idle _ := ⟨rfl, rfl⟩
  side h := by cases h
  out := rfl

theorem inv_start : Inv start where
  k := quiet_start.inv
  fl _ h := by cases h

theorem setSide_cases (k : Kernel) (c : Side) : (k.setSide c) = (false, k) ∨
    ((k.setSide c) = (true, { k with side := some c }) ∧ (k.side = none ∨ k.side = some c)) := by
  unfold Kernel.setSide
  split
  · rename_i h
    exact .inr ⟨rfl, .inl h⟩
  · rename_i c' h
    by_cases e : c = c'
    · subst e
      right
      refine ⟨?_, .inr h⟩
      simp only [decide_true, Prod.mk.injEq, true_and]
      cases k
      simp_all
    · left; simp [e]

theorem flight_idle {s : Sys} (h : Inv s) (hn : ∀ t, (s.k.eps t).pendingIn = false) (t : Transport) : s.inFlight t = false := by
  cases e : s.inFlight t with
  | false => rfl
  | true => have := (h.fl t e).1; rw [hn t] at this; cases this

theorem side_same {k : Kernel} (h : KInv k) {c : Side} (hs : k.side = none ∨ k.side = some c) (hw : k.waiting = true) :
    ({ k with side := some c } : Kernel) = k := by
  rcases hs with hs | hs
  · exact absurd hs (h.side hw)
  · cases k; simp_all

theorem fresh_quiet {k : Kernel} (h : KInv k) (c : Side) (hc : c.canReceive = true) (hw : k.waiting = false) :
    Quiet { k with side := some c, waiting := true, pendingOut := true } :=
  ⟨fun t => ⟨h.idle (canTransmit_false k hw) t, h.tx t (h.idle (canTransmit_false k hw) t)⟩, fun _ => by simp, by
    simp [Kernel.canReceive, hc]⟩

theorem no_flight {s : Sys} (h : Inv s) (hn : ∀ t, (s.k.eps t).pendingIn = false) {k : Kernel} :
    ∀ t, s.inFlight t = true → (k.eps t).pendingIn = true ∧ (k.eps t).txPacket = none := by
  intro t ht
  rw [flight_idle h hn t] at ht
  cases ht

theorem cancelIn_eps (k : Kernel) (t u : Transport) :
    (k.cancelIn t).2.eps u = if u = t then { k.eps u with txPacket := none, pendingIn := false } else k.eps u := rfl

theorem cancelTransaction_eps (k : Kernel) (n : Nat) (hn : ∀ t, (k.eps t).pendingIn = true → n = 0 ∨ getEndpoint n = some t)
    (ht : ∀ t, (k.eps t).pendingIn = false → (k.eps t).txPacket = none) (u : Transport) :
    ((k.cancelTransaction n).2.eps u).pendingIn = false ∧ ((k.cancelTransaction n).2.eps u).txPacket = none := by
  unfold Kernel.cancelTransaction
  split
  · rename_i h0
    have keep : ∀ u, getEndpoint n ≠ some u → (k.eps u).pendingIn = false := by
      intro u hu
      cases e : (k.eps u).pendingIn with
      | false => rfl
      | true =>
        rcases hn u e with h | h
        · omega
        · exact absurd h hu
    split
    · rename_i t ht'
      show ((k.cancelIn t).2.eps u).pendingIn = false ∧ ((k.cancelIn t).2.eps u).txPacket = none
      rw [cancelIn_eps]
      split
      · exact ⟨rfl, rfl⟩
      · rename_i hu
        have := keep u (by rw [ht']; simp [Ne.symm hu])
        exact ⟨this, ht u this⟩
    · rename_i hg
      have := keep u (by rw [hg]; simp)
      exact ⟨this, ht u this⟩
  · cases u
    · show ((((k.cancelIn .main).2.cancelOut.2).cancelIn .vendor).2.eps .main).pendingIn = false ∧ _
      exact ⟨rfl, rfl⟩
    · exact ⟨rfl, rfl⟩

theorem cancelTransaction_rest (k : Kernel) (n : Nat) (hn : n ≤ 2) : (k.cancelTransaction n).2.recvLen = k.recvLen ∧
    (k.cancelTransaction n).2.waiting = k.waiting ∧ (k.cancelTransaction n).2.pendingOut = false := by
  unfold Kernel.cancelTransaction
  split
  · split
    · exact ⟨rfl, rfl, rfl⟩
    · rename_i h
      unfold getEndpoint at h
      split at h
      · cases h
      · split at h
        · cases h
        · omega
  · exact ⟨rfl, rfl, rfl⟩

theorem step_tor {s : Sys} {n : Nat} {p : Bytes} {r : Ret × Kernel} (h : s.k.transmitOrReceive n p = some r) :
    s.step (.transmitOrReceive n p) = some { s with k := r.2, submitted := submit r.1 s.submitted n p } := by
  simp only [Sys.step, h, Option.map_some]

theorem step_out {s : Sys} {t : Transport} {p : Bytes} {r : Bool × Kernel}
    (h : (s.k.set t fun e => { e with outBuffer := p }).sendPacketToClient t = some r) :
    s.step (.packetOut t p) = some { s with k := r.2, host := push s.host t p } := by
  simp only [Sys.step, Kernel.packetOut, h, Option.map_some]

theorem step_transmitted {s : Sys} {t : Transport} {k : Kernel} (h : s.k.packetTransmitted t = some k) :
    s.step (.transmitted t) = some { s with k := k, inFlight := fun u => u ≠ t && s.inFlight u } := by
  simp only [Sys.step, h, Option.map_some]

/-- A legal and prompt step does not panic. -/
theorem step_inv {s : Sys} {x : Input} (hi : Inv s) (hl : Legal s x) (hp : Prompt s x) : ∃ s', s.step x = some s' ∧ Inv s' := by
  obtain ⟨hk, hf⟩ := hi
  have hi : Inv s := ⟨hk, hf⟩
  cases x with
  | allow len =>
    exact ⟨_, rfl, ⟨hk.tx, hk.wait, hk.one, hk.side, hk.out⟩, hf⟩
  | transmit n p =>
    refine ⟨_, rfl, ?_⟩
    rcases setSide_cases s.k .transmit with e | ⟨e, hs⟩
    · have : s.k.transmit n p = (.inval, s.k) := by simp [Kernel.transmit, e]
      rw [this]; exact ⟨hk, hf⟩
    · cases hw : s.k.waiting with
      | true =>
        have : s.k.transmit n p = (.already, s.k) := by
          rw [side_same hk hs hw] at e
          simp [Kernel.transmit, e, hw]
        rw [this]; exact ⟨hk, hf⟩
      | false =>
        have hn := hk.idle (canTransmit_false _ hw)
        have hpo : s.k.pendingOut = false := hk.out.symm.trans (canReceive_false _ hw)
        have hq : Quiet { s.k with side := some .transmit } :=
          ⟨fun t => ⟨hn t, hk.tx t (hn t)⟩, fun _ => by simp, by
            simp [Kernel.canReceive, Side.canReceive, hpo]⟩
        have hq2 : Quiet { s.k with side := some .transmit, waiting := true } :=
          ⟨fun t => ⟨hn t, hk.tx t (hn t)⟩, fun _ => by simp, by
            simp [Kernel.canReceive, Side.canReceive, hpo]⟩
        have ht := transmitPacket_inv n p hq2 rfl
        refine ⟨?_, no_flight hi hn⟩
        show KInv (s.k.transmit n p).2
        have : s.k.transmit n p = if (({ s.k with side := some .transmit } : Kernel).transmitPacket p n).1 = .success then
            (.success, { (({ s.k with side := some .transmit } : Kernel).transmitPacket p n).2 with waiting := true })
            else (({ s.k with side := some .transmit } : Kernel).transmitPacket p n) := by
          simp only [Kernel.transmit, e, hw]; rfl
        rw [this]
        unfold Kernel.transmitPacket at ht ⊢
        cases hg : getEndpoint n with
        | none => simp only; exact hq.inv
        | some t =>
          simp only [hg, hn t, Bool.false_eq_true, if_false, if_true] at ht ⊢
          exact ⟨ht.tx, ht.wait, ht.one, ht.side, ht.out⟩
  | receive =>
    rcases setSide_cases s.k .receive with e | ⟨e, hs⟩
    · have : s.k.receive = some (.inval, s.k) := by simp [Kernel.receive, e]
      exact ⟨{ s with k := s.k }, by simp only [Sys.step, this]; rfl, ⟨hk, hf⟩⟩
    · cases hw : s.k.waiting with
      | true =>
        have : s.k.receive = some (.already, s.k) := by
          rw [side_same hk hs hw] at e
          simp [Kernel.receive, e, hw]
        exact ⟨{ s with k := s.k }, by simp only [Sys.step, this]; rfl, ⟨hk, hf⟩⟩
      | false =>
        have hn := hk.idle (canTransmit_false _ hw)
        obtain ⟨k', e1, q, -⟩ := receive_quiet (k := { s.k with side := some .receive, waiting := true }) (fresh_quiet hk .receive rfl hw) hp
        have : s.k.receive = some (.success, k') := by
          simp only [Kernel.receive, e, hw, Bool.not_true, Bool.false_eq_true, if_false, e1, Option.map_some]
        exact ⟨{ s with k := k' }, by simp only [Sys.step, this]; rfl, q.inv, no_flight hi hn⟩
  | transmitOrReceive n p =>
    rcases setSide_cases s.k .transmitOrReceive with e | ⟨e, hs⟩
    · have : s.k.transmitOrReceive n p = some (.inval, s.k) := by simp [Kernel.transmitOrReceive, e]
      exact ⟨_, step_tor this, ⟨hk, hf⟩⟩
    · cases hw : s.k.waiting with
      | true =>
        have : s.k.transmitOrReceive n p = some (.already, s.k) := by
          rw [side_same hk hs hw] at e
          simp [Kernel.transmitOrReceive, e, hw]
        exact ⟨_, step_tor this, ⟨hk, hf⟩⟩
      | false =>
        have hn := hk.idle (canTransmit_false _ hw)
        obtain ⟨k', e1, q, w⟩ := receive_quiet (k := { s.k with side := some .transmitOrReceive, waiting := true })
          (fresh_quiet hk .transmitOrReceive rfl hw) hp
        have : s.k.transmitOrReceive n p = some (if !k'.waiting then (.success, k') else k'.transmitPacket p n) := by
          simp only [Kernel.transmitOrReceive, e, hw, Bool.not_true, Bool.false_eq_true, if_false, e1, Option.map_some]
        refine ⟨_, step_tor this, ?_, no_flight hi hn⟩
        cases hw' : k'.waiting with
        | false => exact q.inv
        | true => exact transmitPacket_inv n p q (by simp [Kernel.canTransmit, hw', w hw', Side.canTransmit])
  | cancel n =>
    refine ⟨_, rfl, ?_⟩
    obtain ⟨hn, hp⟩ : n ≤ 2 ∧ ∀ t, s.inFlight t = false ∧ ((s.k.eps t).pendingIn = true → n = 0 ∨ getEndpoint n = some t) := hp
    refine ⟨?_, fun t ht => ?_⟩
    · show KInv (s.k.cancel n).2
      unfold Kernel.cancel
      split
      · have h1 := cancelTransaction_eps s.k.stopWaiting n (fun t => (hp t).2) hk.tx
        obtain ⟨-, h3, h4⟩ := cancelTransaction_rest s.k.stopWaiting n hn
        have h3 : (s.k.stopWaiting.cancelTransaction n).2.waiting = false := h3
        exact Quiet.inv ⟨h1, fun h => (by rw [h3] at h; cases h),
          (canReceive_false _ h3).trans h4.symm⟩
      · exact hk
    · have : s.inFlight t = true := ht
      rw [(hp t).1] at this; cases this
  | packetIn t =>
    have hfl : s.inFlight t = false := hl
    cases e : (s.k.eps t).txPacket with
    | none =>
      refine ⟨{ s with k := (s.k.packetIn t).2 }, by simp [Sys.step, Kernel.packetIn, e], ?_⟩
      have : (s.k.packetIn t).2 = s.k := by
        have : (fun u => if u = t then { s.k.eps u with txPacket := none } else s.k.eps u) = s.k.eps := by
          funext u
          split
          · rename_i hu
            subst hu
            rw [← e]
          · rfl
        show ({ s.k with eps := fun u => if u = t then { s.k.eps u with txPacket := none } else s.k.eps u } : Kernel) = s.k
        rw [this]
      rw [this]; exact ⟨hk, hf⟩
    | some p =>
      refine ⟨_, by simp only [Sys.step, Kernel.packetIn, e]; rfl, ?_⟩
      have hpt : (s.k.eps t).pendingIn = true := by
        cases e2 : (s.k.eps t).pendingIn with
        | true => rfl
        | false => rw [hk.tx t e2] at e; cases e
      have hpe : ∀ u, ((s.k.set t fun e => { e with txPacket := none }).eps u).pendingIn = (s.k.eps u).pendingIn := by
        intro u; simp only [Kernel.set]; split <;> rfl
      refine ⟨⟨fun u hu => ?_, fun u hu => hk.wait u (by rw [← hpe]; exact hu),
        fun u v hu hv => hk.one u v (by rw [← hpe]; exact hu) (by rw [← hpe]; exact hv), hk.side, hk.out⟩, fun u hu => ?_⟩
      · have hu : (s.k.eps u).pendingIn = false := by rw [← hpe]; exact hu
        show ((s.k.set t fun e => { e with txPacket := none }).eps u).txPacket = none
        simp only [Kernel.set]
        split
        · rfl
        · exact hk.tx u hu
      · by_cases hut : u = t
        · subst hut
          exact ⟨(hpe u).trans hpt, by simp [Kernel.set]⟩
        · have hu : s.inFlight u = true := by simpa [hut] using hu
          have := hf u hu
          simpa [Kernel.set, hut] using this
  | packetOut t p =>
    have hd : (s.k.eps t).delayedOut = false := hl
    have hd' : ((s.k.set t fun e => { e with outBuffer := p }).eps t).delayedOut = false := by simp [Kernel.set, hd]
    have hpe : ∀ u, ((s.k.set t fun e => { e with outBuffer := p }).eps u).pendingIn = (s.k.eps u).pendingIn ∧
        ((s.k.set t fun e => { e with outBuffer := p }).eps u).txPacket = (s.k.eps u).txPacket := by
      intro u; simp only [Kernel.set]; split <;> exact ⟨rfl, rfl⟩
    cases hc : s.k.canReceive with
    | true =>
      obtain ⟨hlen, hp⟩ : s.k.recvLen = 64 ∧ ∀ u, s.inFlight u = false ∧ (u ≠ t → (s.k.eps u).pendingIn = false) := hp hc
      have e := send_yes (k := s.k.set t fun e => { e with outBuffer := p }) (t := t) hlen hd' hc (hk.out.symm.trans hc)
      refine ⟨_, step_out e, ?_, fun u hu => ?_⟩
      · refine Quiet.inv ⟨fun u => ?_, fun h => by simp at h, by simp [Kernel.canReceive]⟩
        dsimp only
        split
        · exact ⟨rfl, rfl⟩
        · rename_i hu
          have := (hp u).2 hu
          exact ⟨(hpe u).1.trans this, (hpe u).2.trans (hk.tx u this)⟩
      · have hu : s.inFlight u = true := hu
        rw [(hp u).1] at hu; cases hu
    | false =>
      have e := send_no (k := s.k.set t fun e => { e with outBuffer := p }) (t := t) hd' hc
      have hpe2 : ∀ u, (((s.k.set t fun e => { e with outBuffer := p }).set t fun e => { e with delayedOut := true }).eps u).pendingIn
            = (s.k.eps u).pendingIn ∧
          (((s.k.set t fun e => { e with outBuffer := p }).set t fun e => { e with delayedOut := true }).eps u).txPacket
            = (s.k.eps u).txPacket := by
        intro u; simp only [Kernel.set]; split <;> exact ⟨rfl, rfl⟩
      refine ⟨_, step_out e, ⟨fun u hu => ?_, fun u hu => ?_, fun u v hu hv => ?_,
        hk.side, hk.out⟩, fun u hu => ?_⟩
      · exact (hpe2 u).2.trans (hk.tx u ((hpe2 u).1.symm.trans hu))
      · exact hk.wait u ((hpe2 u).1.symm.trans hu)
      · exact hk.one u v ((hpe2 u).1.symm.trans hu) ((hpe2 v).1.symm.trans hv)
      · exact ⟨(hpe2 u).1.trans (hf u hu).1, (hpe2 u).2.trans (hf u hu).2⟩
  | transmitted t =>
    have hfl : s.inFlight t = true := hl
    obtain ⟨h1, h2⟩ := hf t hfl
    have hc := hk.wait t h1
    have e : s.k.packetTransmitted t = some { ((s.k.set t fun e => { e with pendingIn := false }).cancelOut.2).stopWaiting with
        upcalls := s.k.upcalls ++ [.transmitted] } := by
      unfold Kernel.packetTransmitted
      rw [if_neg (by simp [h2])]
      dsimp only
      rw [if_pos (show (s.k.set t fun e => { e with pendingIn := false }).cancelOut.2.canTransmit = true from hc)]
      rfl
    refine ⟨_, step_transmitted e, Quiet.inv ⟨fun u => ?_, fun h => by simp [Kernel.stopWaiting] at h,
      by simp [Kernel.canReceive, Kernel.stopWaiting, Kernel.cancelOut]⟩, fun u hu => ?_⟩
    · show ((s.k.set t fun e => { e with pendingIn := false }).eps u).pendingIn = false ∧
        ((s.k.set t fun e => { e with pendingIn := false }).eps u).txPacket = none
      simp only [Kernel.set]
      split
      · rename_i hu
        subst hu
        exact ⟨rfl, h2⟩
      · rename_i hu
        have : (s.k.eps u).pendingIn = false := by
          cases e3 : (s.k.eps u).pendingIn with
          | false => rfl
          | true => exact absurd (hk.one u t e3 h1) hu
        exact ⟨this, hk.tx u this⟩
    · simp only [Bool.and_eq_true, decide_eq_true_eq] at hu
      exact absurd (hk.one u t (hf u hu.2).1 h1) hu.1

theorem run_inv {s : Sys} (l : List Input) (hi : Inv s) (hl : LegalRun s l) (hp : PromptRun s l) :
    ∃ s', s.run l = some s' ∧ Inv s' := by
  induction l generalizing s with
  | nil => exact ⟨s, rfl, hi⟩
  | cons x l ih =>
    obtain ⟨s1, h1, i1⟩ := step_inv hi hl.1 hp.1
    obtain ⟨s2, h2, i2⟩ := ih i1 (hl.2 s1 h1) (hp.2 s1 h1)
    exact ⟨s2, by simp only [Sys.run, h1, Option.bind_some, h2], i2⟩

/-- The kernel does not panic, as long as the host takes packets in time. -/
theorem C93_no_panic_partial (l : List Input) (hl : LegalRun start l) (hp : PromptRun start l) : ∃ s, start.run l = some s := by
  obtain ⟨s, h, -⟩ := run_inv l inv_start hl hp
  exact ⟨s, h⟩

/-- An application that waits for packets gets the next one at once, whole. -/
theorem C93_served_partial (l : List Input) (s : Sys) (hl : LegalRun start l) (hp : PromptRun start l) (h : start.run l = some s)
    (t : Transport) (p : Bytes) (hw : s.k.canReceive = true) (hb : s.k.recvLen = 64) (ho : Legal s (.packetOut t p)) :
    ∃ s', s.step (.packetOut t p) = some s' ∧ s'.k.upcalls = s.k.upcalls ++ [.received t p] := by
  obtain ⟨s1, h1, hi⟩ := run_inv l inv_start hl hp
  rw [h] at h1
  cases h1
  have hd : (s.k.eps t).delayedOut = false := ho
  have e := send_yes (k := s.k.set t fun e => { e with outBuffer := p }) (t := t) hb (by simp [Kernel.set, hd]) hw (hi.k.out.symm.trans hw)
  refine ⟨_, step_out e, ?_⟩
  simp [Kernel.set]

theorem deliver_none {k : Kernel} {t : Transport} (h : (k.eps t).delayedOut = false) : k.deliverDelayed t = some k := by
  unfold Kernel.deliverDelayed
  rw [if_neg (by simp [h])]

theorem deliver_idle {k : Kernel} (t : Transport) (h : k.canReceive = false) :
    ∃ k', k.deliverDelayed t = some k' ∧ k'.upcalls = k.upcalls := by
  unfold Kernel.deliverDelayed
  split
  · rw [send_no (k := k.set t fun e => { e with delayedOut := false }) (by simp [Kernel.set]) h]
    exact ⟨_, rfl, rfl⟩
  · exact ⟨k, rfl, rfl⟩

theorem deliver_yes {k : Kernel} {t : Transport} (h1 : k.recvLen = 64) (h2 : (k.eps t).delayedOut = true) (h3 : k.canReceive = true)
    (h4 : k.pendingOut = true) :
    ∃ k', k.deliverDelayed t = some k' ∧ k'.upcalls = k.upcalls ++ [.received t (k.eps t).outBuffer] ∧ k'.canReceive = false := by
  unfold Kernel.deliverDelayed
  rw [if_pos h2, send_yes (k := k.set t fun e => { e with delayedOut := false }) h1 (by simp [Kernel.set]) h3 h4]
  exact ⟨_, rfl, by simp [Kernel.set], rfl⟩

theorem turn_received (l : List Upcall) (t : Transport) (p : Bytes) : turn (l ++ [.received t p]) = nextEndpoint t := by
  cases t <;> simp [turn, nextEndpoint]

theorem turn_transmitted (l : List Upcall) : turn (l ++ [.transmitted]) = turn l := by
  simp [turn]

theorem send_turn {k k' : Kernel} {t : Transport} {b : Bool} (h : k.sendPacketToClient t = some (b, k'))
    (hi : k.next = turn k.upcalls) : k'.next = turn k'.upcalls := by
  unfold Kernel.sendPacketToClient at h
  split at h
  · cases h
  · split at h
    · rename_i hc
      split at h
      · cases h
      · have hr : (({ k with pendingOut := false } : Kernel).cancelIn t).2.canReceive = true := hc
        unfold Kernel.appPacketReceived at h
        dsimp only at h
        rw [if_pos hr] at h
        split at h
        · cases h
        · simp only [Option.map_some, Option.some.injEq, Prod.mk.injEq] at h
          obtain ⟨-, rfl⟩ := h
          exact (turn_received _ _ _).symm
    · simp only [Option.some.injEq, Prod.mk.injEq] at h
      obtain ⟨-, rfl⟩ := h
      exact hi

theorem deliver_turn {k k' : Kernel} {t : Transport} (h : k.deliverDelayed t = some k') (hi : k.next = turn k.upcalls) :
    k'.next = turn k'.upcalls := by
  unfold Kernel.deliverDelayed at h
  split at h
  · obtain ⟨⟨b, k1⟩, h1, h2⟩ := Option.map_eq_some_iff.1 h
    simp only at h2
    subst h2
    exact send_turn h1 hi
  · cases h; exact hi

theorem receive_turn {k k' : Kernel} (h : k.receivePacket = some k') (hi : k.next = turn k.upcalls) : k'.next = turn k'.upcalls := by
  unfold Kernel.receivePacket at h
  split at h
  · cases h; exact hi
  · obtain ⟨k1, h1, h2⟩ := Option.bind_eq_some_iff.1 h
    exact deliver_turn h2 (deliver_turn h1 hi)

theorem setSide_turn (k : Kernel) (c : Side) (hi : k.next = turn k.upcalls) : (k.setSide c).2.next = turn (k.setSide c).2.upcalls := by
  unfold Kernel.setSide
  split <;> exact hi

theorem transmitPacket_turn (k : Kernel) (p : Bytes) (n : Nat) (hi : k.next = turn k.upcalls) :
    (k.transmitPacket p n).2.next = turn (k.transmitPacket p n).2.upcalls := by
  unfold Kernel.transmitPacket
  split
  · split <;> exact hi
  · exact hi

theorem step_turn {s s' : Sys} {x : Input} (h : s.step x = some s') (hi : s.k.next = turn s.k.upcalls) :
    s'.k.next = turn s'.k.upcalls := by
  cases x with
  | allow len => cases h; exact hi
  | transmit n p =>
    cases h
    show (s.k.transmit n p).2.next = turn (s.k.transmit n p).2.upcalls
    unfold Kernel.transmit
    dsimp only
    split
    · exact setSide_turn _ _ hi
    · split
      · exact setSide_turn _ _ hi
      · split <;> exact transmitPacket_turn _ _ _ (setSide_turn _ _ hi)
  | receive =>
    obtain ⟨⟨r, k⟩, h1, rfl⟩ := Option.map_eq_some_iff.1 h
    unfold Kernel.receive at h1
    dsimp only at h1
    split at h1
    · cases h1; exact setSide_turn _ _ hi
    · split at h1
      · cases h1; exact setSide_turn _ _ hi
      · obtain ⟨k1, h2, h3⟩ := Option.map_eq_some_iff.1 h1
        cases h3
        exact receive_turn h2 (setSide_turn _ _ hi)
  | transmitOrReceive n p =>
    obtain ⟨⟨r, k⟩, h1, rfl⟩ := Option.map_eq_some_iff.1 h
    unfold Kernel.transmitOrReceive at h1
    dsimp only at h1
    split at h1
    · cases h1; exact setSide_turn _ _ hi
    · split at h1
      · cases h1; exact setSide_turn _ _ hi
      · obtain ⟨k1, h2, h3⟩ := Option.map_eq_some_iff.1 h1
        have e := receive_turn h2 (setSide_turn _ _ hi)
        split at h3
        · cases h3; exact e
        · have e2 := transmitPacket_turn k1 p n e
          rw [h3] at e2
          exact e2
  | cancel n =>
    cases h
    show (s.k.cancel n).2.next = turn (s.k.cancel n).2.upcalls
    unfold Kernel.cancel Kernel.cancelTransaction
    split
    · dsimp only
      split
      · split <;> exact hi
      · exact hi
    · exact hi
  | packetIn t =>
    simp only [Sys.step] at h
    split at h <;> (cases h; exact hi)
  | packetOut t p =>
    obtain ⟨k, h1, rfl⟩ := Option.map_eq_some_iff.1 h
    obtain ⟨⟨b, k'⟩, h2, h3⟩ := Option.map_eq_some_iff.1 h1
    simp only at h3
    subst h3
    exact send_turn h2 hi
  | transmitted t =>
    obtain ⟨k, h1, rfl⟩ := Option.map_eq_some_iff.1 h
    unfold Kernel.packetTransmitted at h1
    dsimp only at h1
    split at h1
    · cases h1
    · split at h1
      · cases h1
        exact hi.trans (turn_transmitted _).symm
      · cases h1; exact hi

theorem run_turn {s s' : Sys} (l : List Input) (h : s.run l = some s') (hi : s.k.next = turn s.k.upcalls) :
    s'.k.next = turn s'.k.upcalls := by
  induction l generalizing s with
  | nil => cases h; exact hi
  | cons x l ih =>
    obtain ⟨s1, h1, h2⟩ := Option.bind_eq_some_iff.1 h
    exact ih h2 (step_turn h1 hi)

/-- Packets that came while the application was busy are handed over when it asks, from both endpoints in turn: the endpoint that
is not the one of the last packet goes first. -/
theorem C93_turns_partial (l : List Input) (s : Sys) (hl : LegalRun start l) (hp : PromptRun start l) (h : start.run l = some s)
    (hb : s.k.recvLen = 64) (hw : s.k.waiting = false) (hs : s.k.side = none) (t : Transport) (hd : (s.k.eps t).delayedOut = true)
    (ht : t = turn s.k.upcalls ∨ (s.k.eps (turn s.k.upcalls)).delayedOut = false) :
    ∃ s', s.step .receive = some s' ∧ s'.k.upcalls = s.k.upcalls ++ [.received t (s.k.eps t).outBuffer] := by
  obtain ⟨s1, h1, hi⟩ := run_inv l inv_start hl hp
  rw [h] at h1
  cases h1
  rw [← run_turn l h rfl] at ht
  have hpo : s.k.pendingOut = false := hi.k.out.symm.trans (canReceive_false _ hw)
  have key : ∃ k', ({ s.k with side := some .receive, waiting := true } : Kernel).receivePacket = some k' ∧
      k'.upcalls = s.k.upcalls ++ [.received t (s.k.eps t).outBuffer] := by
    unfold Kernel.receivePacket
    rw [if_neg (by simp [hpo])]
    by_cases hn : t = s.k.next
    · obtain ⟨k1, e1, u1, c1⟩ := deliver_yes (k := { s.k with side := some .receive, waiting := true, pendingOut := true }) (t := t)
        hb hd rfl rfl
      obtain ⟨k2, e2, u2⟩ := deliver_idle (nextEndpoint t) c1
      refine ⟨k2, ?_, u2.trans u1⟩
      subst hn
      have e3 := congrArg (fun x : Option Kernel => x.bind fun k' : Kernel => k'.deliverDelayed (nextEndpoint s.k.next)) e1
      exact Eq.trans e3 e2
    · have hnd := ht.resolve_left hn
      obtain ⟨k1, e1, u1, c1⟩ := deliver_yes (k := { s.k with side := some .receive, waiting := true, pendingOut := true }) (t := t)
        hb hd rfl rfl
      have ho : nextEndpoint s.k.next = t := by
        cases ht' : t <;> cases hn' : s.k.next <;> simp_all [nextEndpoint]
      refine ⟨k1, ?_, u1⟩
      rw [deliver_none (k := { s.k with side := some .receive, waiting := true, pendingOut := true }) (t := s.k.next) hnd,
        Option.bind_some]
      dsimp only
      rw [ho]
      exact e1
  obtain ⟨k', e, u⟩ := key
  have hr : s.k.receive = some (.success, k') := by
    simp only [Kernel.receive, Kernel.setSide, hs, hw, Bool.not_true, Bool.false_eq_true, if_false, e, Option.map_some]
  exact ⟨{ s with k := k' }, by simp only [Sys.step, hr]; rfl, u⟩

/-- A packet of an application that waits for nothing goes to the host, and the application is told when the host has it. -/
theorem C93_transmit_partial (l : List Input) (s : Sys) (hl : LegalRun start l) (hp : PromptRun start l) (h : start.run l = some s)
    (hw : s.k.waiting = false) (hs : s.k.side = none) (n : Nat) (t : Transport) (hn : n = 1 ∧ t = .main ∨ n = 2 ∧ t = .vendor) (p : Bytes) :
    ∃ s', s.run [.transmit n p, .packetIn t, .transmitted t] = some s' ∧ s'.wire t = s.wire t ++ [p] ∧
      s'.k.upcalls = s.k.upcalls ++ [.transmitted] ∧ s'.k.waiting = false ∧ s'.k.side = none := by
  obtain ⟨s1, h1, hi⟩ := run_inv l inv_start hl hp
  rw [h] at h1
  cases h1
  have hg : getEndpoint n = some t := by rcases hn with ⟨rfl, rfl⟩ | ⟨rfl, rfl⟩ <;> rfl
  have hidle := hi.k.idle (canTransmit_false _ hw) t
  simp [Sys.run, Sys.step, Kernel.transmit, Kernel.setSide, hs, hw, Kernel.transmitPacket, hg, hidle, Kernel.packetIn, Kernel.set,
    Kernel.packetTransmitted, Kernel.cancelOut, Kernel.canTransmit, Side.canTransmit, Kernel.stopWaiting, push]

/-- The same for a packet that is sent while the application also waits for packets, if none waits for it. -/
theorem C93_transmit_or_receive_partial (l : List Input) (s : Sys) (hl : LegalRun start l) (hp : PromptRun start l)
    (h : start.run l = some s) (hw : s.k.waiting = false) (hs : s.k.side = none) (hd : ∀ u, (s.k.eps u).delayedOut = false) (n : Nat)
    (t : Transport) (hn : n = 1 ∧ t = .main ∨ n = 2 ∧ t = .vendor) (p : Bytes) :
    ∃ s', s.run [.transmitOrReceive n p, .packetIn t, .transmitted t] = some s' ∧ s'.wire t = s.wire t ++ [p] ∧
      s'.k.upcalls = s.k.upcalls ++ [.transmitted] ∧ s'.k.waiting = false ∧ s'.k.side = none := by
  obtain ⟨s1, h1, hi⟩ := run_inv l inv_start hl hp
  rw [h] at h1
  cases h1
  have hg : getEndpoint n = some t := by rcases hn with ⟨rfl, rfl⟩ | ⟨rfl, rfl⟩ <;> rfl
  have hidle := hi.k.idle (canTransmit_false _ hw) t
  have hpo : s.k.pendingOut = false := hi.k.out.symm.trans (canReceive_false _ hw)
  simp [Sys.run, Sys.step, Kernel.transmitOrReceive, Kernel.receivePacket, Kernel.deliverDelayed, hd, hpo, Kernel.setSide, hs, hw,
    Kernel.transmitPacket, hg, hidle, Kernel.packetIn, Kernel.set,
    Kernel.packetTransmitted, Kernel.cancelOut, Kernel.canTransmit, Side.canTransmit, Kernel.stopWaiting, push]

/-- A state as both assume it, after packets in both directions. -/
example : LegalRun start [.receive, .packetOut .vendor [1], .transmit 2 [2], .packetIn .vendor, .transmitted .vendor] ∧
    PromptRun start [.receive, .packetOut .vendor [1], .transmit 2 [2], .packetIn .vendor, .transmitted .vendor] ∧
    ((start.run [.receive, .packetOut .vendor [1], .transmit 2 [2], .packetIn .vendor, .transmitted .vendor]).map
      fun s => (s.k.waiting, s.k.side, (s.k.eps .main).delayedOut, (s.k.eps .vendor).delayedOut)) = some (false, none, false, false) := by
  decide

/-- The host takes an answer only after the application has given up, and then sends a packet: the kernel panics. -/
theorem C93_late_host : LegalRun start [.transmit 1 [1], .packetIn .main, .cancel 1, .receive, .transmitted .main, .packetOut .main [2]] ∧
    (start.run [.transmit 1 [1], .packetIn .main, .cancel 1, .receive, .transmitted .main, .packetOut .main [2]]).isNone = true := by
  decide

/-- The host does not take a message that the device needs a touch before the device gives up and sends the next one: the kernel
panics. -/
theorem C93_keepalive :
    LegalRun start [.transmitOrReceive 1 [1], .packetIn .main, .cancel 0, .transmitOrReceive 1 [2], .transmitted .main] ∧
    (start.run [.transmitOrReceive 1 [1], .packetIn .main, .cancel 0, .transmitOrReceive 1 [2], .transmitted .main]).isNone = true := by
  decide

/-- The host cancels a request while such a message is on its way, and the device answers before the message was taken: the kernel
panics. -/
theorem C93_host_cancels :
    LegalRun start [.transmitOrReceive 1 [1], .packetIn .main, .packetOut .main [2], .transmit 1 [3], .transmitted .main] ∧
    (start.run [.transmitOrReceive 1 [1], .packetIn .main, .packetOut .main [2], .transmit 1 [3], .transmitted .main]).isNone = true := by
  decide

/-- While the device waits for a touch, a packet comes in on the other endpoint before the host took the message: the next message
is refused, the driver goes on waiting, and answers cannot be sent any more. -/
theorem C93_other_endpoint :
    LegalRun start [.transmitOrReceive 1 [1], .packetOut .vendor [2], .transmitOrReceive 1 [3]] ∧
    ((start.run [.transmitOrReceive 1 [1], .packetOut .vendor [2]]).bind fun s => (s.k.transmitOrReceive 1 [3]).map (·.1)) = some .busy ∧
    ((start.run [.transmitOrReceive 1 [1], .packetOut .vendor [2], .transmitOrReceive 1 [3]]).map fun s => (s.k.transmit 1 [4]).1)
      = some .inval := by
  decide

/-- A request of two packets, where the second comes while the first is processed, one of the other endpoint, an answer, and a message
that waits for a touch and is cancelled by the host. -/
example : LegalRun start [.receive, .packetOut .main [1], .packetOut .main [2], .packetOut .vendor [3], .receive, .receive,
      .transmit 1 [4], .packetIn .main, .transmitted .main, .transmitOrReceive 1 [5], .packetOut .main [6]] ∧
    PromptRun start [.receive, .packetOut .main [1], .packetOut .main [2], .packetOut .vendor [3], .receive, .receive,
      .transmit 1 [4], .packetIn .main, .transmitted .main, .transmitOrReceive 1 [5], .packetOut .main [6]] ∧
    ((start.run [.receive, .packetOut .main [1], .packetOut .main [2], .packetOut .vendor [3], .receive, .receive,
      .transmit 1 [4], .packetIn .main, .transmitted .main, .transmitOrReceive 1 [5], .packetOut .main [6]]).map
      fun s => (s.k.upcalls, s.wire .main, s.submitted .main))
      = some ([.received .main [1], .received .vendor [3], .received .main [2], .transmitted, .received .main [6]], [[4]], [[4], [5]]) := by
  decide

/-- A state as `C93_turns_partial` assumes it. -/
example : ((start.run [.receive, .packetOut .main [1], .packetOut .main [2], .packetOut .vendor [3]]).map
    fun s => (s.k.waiting, s.k.side, (s.k.eps .vendor).delayedOut, turn s.k.upcalls)) = some (false, none, true, .vendor) := by
  decide

/-- A state as `C93_served_partial` assumes it. -/
example : ((start.run [.receive]).map fun s => (s.k.canReceive, (s.k.eps .main).delayedOut)) = some (true, false) := by
  decide

end Verif.Usb.Kernel
