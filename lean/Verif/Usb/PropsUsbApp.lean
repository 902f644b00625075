import Verif.Usb.UsbApp
import Verif.Usb.PropsCapsule

/-!
# C94: the USB driver of the application
-/
namespace Verif.Usb.Kernel
open Verif.Hid (Bytes Transport)

/-- An upcall that an application with this command can get. -/
def Fits (c : Side) : Upcall → Prop
  | .transmitted => c.canTransmit = true
  | .received _ _ => c.canReceive = true

/-- The command goes on, or there was one upcall for it. -/
def Phase (base : List Upcall) (c : Side) (k : Kernel) : Prop :=
  (k.waiting = true ∧ k.side = some c ∧ k.upcalls = base) ∨
  (k.waiting = false ∧ k.side = none ∧ ∃ u, k.upcalls = base ++ [u] ∧ Fits c u)

/-- Nothing changes for the application. -/
def Same (k k' : Kernel) : Prop := k'.waiting = k.waiting ∧ k'.side = k.side ∧ k'.upcalls = k.upcalls

theorem Same.phase {k k' : Kernel} {b : List Upcall} {c : Side} (h : Same k k') (hp : Phase b c k) : Phase b c k' := by
  obtain ⟨h1, h2, h3⟩ := h
  unfold Phase
  rw [h1, h2, h3]
  exact hp

theorem send_cases {k k' : Kernel} {t : Transport} {b : Bool} (h : k.sendPacketToClient t = some (b, k')) :
    Same k k' ∨ k.canReceive = true ∧ k'.waiting = false ∧ k'.side = none ∧ ∃ p, k'.upcalls = k.upcalls ++ [.received t p] := by
  unfold Kernel.sendPacketToClient at h
  split at h
  · cases h
  · split at h
    · rename_i hc
      split at h
      · cases h
      · have hr : (({ k with pendingOut := false } : Kernel).cancelIn t).2.canReceive = true := hc
        unfold Kernel.appPacketReceived at h
        dsimp only at h
        rw [if_pos hr] at h
        split at h
        · cases h
        · simp only [Option.map_some, Option.some.injEq, Prod.mk.injEq] at h
          obtain ⟨-, rfl⟩ := h
          exact .inr ⟨hc, rfl, rfl, _, rfl⟩
    · simp only [Option.some.injEq, Prod.mk.injEq] at h
      obtain ⟨-, rfl⟩ := h
      exact .inl ⟨rfl, rfl, rfl⟩

theorem send_phase {k k' : Kernel} {t : Transport} {b : Bool} {base : List Upcall} {c : Side}
    (h : k.sendPacketToClient t = some (b, k')) (hp : Phase base c k) :
    Phase base c k' ∧ (k.waiting = false → k'.upcalls = k.upcalls) := by
  rcases send_cases h with hs | ⟨h1, h2, h3, p, h4⟩
  · exact ⟨hs.phase hp, fun _ => hs.2.2⟩
  · have hw : k.waiting = true := by
      cases e : k.waiting with
      | true => rfl
      | false => rw [canReceive_false _ e] at h1; cases h1
    rcases hp with ⟨-, e2, e3⟩ | ⟨e1, -⟩
    · refine ⟨.inr ⟨h2, h3, _, by rw [h4, e3], ?_⟩, fun e => (by rw [hw] at e; cases e)⟩
      simpa [Fits, Kernel.canReceive, e2, hw] using h1
    · rw [e1] at hw; cases hw

theorem deliver_phase {k k' : Kernel} {t : Transport} {base : List Upcall} {c : Side} (h : k.deliverDelayed t = some k')
    (hp : Phase base c k) : Phase base c k' := by
  unfold Kernel.deliverDelayed at h
  split at h
  · obtain ⟨⟨b, k1⟩, h1, h2⟩ := Option.map_eq_some_iff.1 h
    simp only at h2
    subst h2
    exact (send_phase h1 hp).1
  · cases h; exact hp

theorem receive_phase {k k' : Kernel} {base : List Upcall} {c : Side} (h : k.receivePacket = some k')
    (hp : Phase base c k) : Phase base c k' := by
  unfold Kernel.receivePacket at h
  split at h
  · cases h; exact hp
  · obtain ⟨k1, h1, h2⟩ := Option.bind_eq_some_iff.1 h
    exact deliver_phase h2 (deliver_phase h1 hp)

/-- What can happen during a call, after the command. -/
def passive : Input → Bool
  | .allow _ | .packetIn _ | .packetOut _ _ | .transmitted _ => true
  | _ => false

theorem step_phase {s s' : Sys} {x : Input} {base : List Upcall} {c : Side} (hx : passive x = true) (h : s.step x = some s')
    (hp : Phase base c s.k) : Phase base c s'.k ∧ (s.k.waiting = false → s'.k.upcalls = s.k.upcalls) ∧
      (s.k.waiting = true → x.isPacket = false → ∀ u, s'.k.upcalls = base ++ [u] → u = .transmitted) := by
  have nobase : s.k.waiting = true → ∀ k, Same s.k k → ∀ u, k.upcalls = base ++ [u] → u = .transmitted := by
    intro hw k hk u hu
    rcases hp with ⟨-, -, e⟩ | ⟨e, -⟩
    · rw [hk.2.2, e] at hu
      have := congrArg List.length hu
      simp at this
    · rw [e] at hw; cases hw
  cases x with
  | allow len =>
    cases h
    exact ⟨hp, fun _ => rfl, fun hw _ => nobase hw _ ⟨rfl, rfl, rfl⟩⟩
  | transmit n p => cases hx
  | receive => cases hx
  | transmitOrReceive n p => cases hx
  | cancel n => cases hx
  | packetIn t =>
    have hk : Same s.k (s.k.packetIn t).2 := ⟨rfl, rfl, rfl⟩
    simp only [Sys.step] at h
    split at h <;> (cases h; exact ⟨hk.phase hp, fun _ => rfl, fun hw _ => nobase hw _ hk⟩)
  | packetOut t p =>
    obtain ⟨k, h1, rfl⟩ := Option.map_eq_some_iff.1 h
    obtain ⟨⟨b, k'⟩, h2, h3⟩ := Option.map_eq_some_iff.1 h1
    simp only at h3
    subst h3
    have := send_phase (base := base) (c := c) h2 hp
    exact ⟨this.1, this.2, fun _ e => by cases e⟩
  | transmitted t =>
    obtain ⟨k, h1, rfl⟩ := Option.map_eq_some_iff.1 h
    unfold Kernel.packetTransmitted at h1
    dsimp only at h1
    split at h1
    · cases h1
    · split at h1
      · rename_i hc
        have hc : s.k.canTransmit = true := hc
        have hw : s.k.waiting = true := by
          cases e : s.k.waiting with
          | true => rfl
          | false => rw [canTransmit_false _ e] at hc; cases hc
        cases h1
        rcases hp with ⟨-, e2, e3⟩ | ⟨e1, -⟩
        · refine ⟨.inr ⟨rfl, rfl, .transmitted, ?_, ?_⟩, fun e => ?_, fun _ _ u hu => ?_⟩
          · exact congrArg (· ++ [Upcall.transmitted]) e3
          · simpa [Fits, Kernel.canTransmit, e2, hw] using hc
          · rw [hw] at e; cases e
          · have hu : s.k.upcalls ++ [Upcall.transmitted] = base ++ [u] := hu
            rw [e3] at hu
            simpa using (List.append_cancel_left hu).symm
        · rw [e1] at hw; cases hw
      · cases h1
        exact ⟨(show Same s.k _ from ⟨rfl, rfl, rfl⟩).phase hp, fun _ => rfl, fun hw _ => nobase hw _ ⟨rfl, rfl, rfl⟩⟩

theorem run_phase {s s' : Sys} (l : List Input) {base : List Upcall} {c : Side} (hx : ∀ x ∈ l, passive x = true)
    (h : s.run l = some s') (hp : Phase base c s.k) : Phase base c s'.k ∧ (s.k.waiting = false → s'.k.upcalls = s.k.upcalls) ∧
      (s.k.waiting = true → (∀ x ∈ l, x.isPacket = false) → ∀ u, s'.k.upcalls = base ++ [u] → u = .transmitted) := by
  induction l generalizing s with
  | nil =>
    cases h
    refine ⟨hp, fun _ => rfl, fun hw _ u hu => ?_⟩
    rcases hp with ⟨-, -, e⟩ | ⟨e, -⟩
    · rw [e] at hu
      have := congrArg List.length hu
      simp at this
    · rw [e] at hw; cases hw
  | cons x l ih =>
    obtain ⟨s1, h1, h2⟩ := Option.bind_eq_some_iff.1 h
    obtain ⟨p1, i1, t1⟩ := step_phase (hx x (.head _)) h1 hp
    obtain ⟨p2, i2, t2⟩ := ih (fun y hy => hx y (.tail _ hy)) h2 p1
    have idle : s.k.waiting = false → s1.k.waiting = false := by
      intro hw
      rcases p1 with ⟨-, -, e⟩ | ⟨e, -⟩
      · rcases hp with ⟨e', -⟩ | ⟨-, -, u, e', -⟩
        · rw [hw] at e'; cases e'
        · rw [i1 hw, e'] at e
          have := congrArg List.length e
          simp at this
      · exact e
    refine ⟨p2, fun hw => (i2 (idle hw)).trans (i1 hw), fun hw hn u hu => ?_⟩
    cases hw1 : s1.k.waiting with
    | true => exact t2 hw1 (fun y hy => hn y (.tail _ hy)) u hu
    | false => exact t1 hw (hn x (.head _)) u ((i2 hw1).symm.trans hu)

theorem run_append (s : Sys) (a b : List Input) : s.run (a ++ b) = (s.run a).bind (·.run b) := by
  induction a generalizing s with
  | nil => rfl
  | cons x a ih =>
    simp only [List.cons_append, Sys.run, Option.bind_assoc]
    exact congrArg _ (funext fun s1 => ih s1)

/-- The side of a call. -/
def Call.side : Call → Side
  | .recv => .receive
  | .send _ _ => .transmit
  | .sendOrRecv _ _ => .transmitOrReceive

theorem first_phase {s s1 : Sys} (c : Call) (hw : s.k.waiting = false) (hs : s.k.side = none) (hr : c.ret s.k = some .success)
    (h : s.run c.first = some s1) : Phase s.k.upcalls c.side s1.k := by
  cases c with
  | recv =>
    simp only [Call.first, Call.input, Sys.run, Sys.step, Option.bind_some, Option.bind_eq_some_iff, Option.map_eq_some_iff] at h
    obtain ⟨_, ⟨⟨r, k⟩, h1, rfl⟩, e⟩ := h
    cases e
    unfold Kernel.receive at h1
    simp only [Kernel.setSide, hs, hw, Bool.not_true, Bool.false_eq_true, if_false] at h1
    obtain ⟨k1, h2, h3⟩ := Option.map_eq_some_iff.1 h1
    cases h3
    exact receive_phase h2 (.inl ⟨rfl, rfl, rfl⟩)
  | send n p =>
    simp only [Call.ret, Option.some.injEq] at hr
    simp only [Call.first, Sys.run, Sys.step, Option.bind_some, Option.some.injEq] at h
    subst h
    show Phase s.k.upcalls .transmit (s.k.transmit n p).2
    unfold Kernel.transmit at hr ⊢
    simp only [Kernel.setSide, hs, hw, Bool.not_true, Bool.false_eq_true, if_false] at hr ⊢
    split
    · unfold Kernel.transmitPacket
      split
      · split <;> exact .inl ⟨rfl, rfl, rfl⟩
      · exact .inl ⟨rfl, rfl, rfl⟩
    · rename_i hn
      rw [if_neg hn] at hr
      exact absurd hr hn
  | sendOrRecv n p =>
    simp only [Call.first, Call.input, Sys.run, Sys.step, Option.bind_some, Option.bind_eq_some_iff, Option.map_eq_some_iff] at h
    obtain ⟨_, ⟨⟨r, k⟩, h1, rfl⟩, e⟩ := h
    cases e
    unfold Kernel.transmitOrReceive at h1
    simp only [Kernel.setSide, hs, hw, Bool.not_true, Bool.false_eq_true, if_false] at h1
    obtain ⟨k1, h2, h3⟩ := Option.map_eq_some_iff.1 h1
    have p1 := receive_phase (base := s.k.upcalls) (c := .transmitOrReceive) h2 (.inl ⟨rfl, rfl, rfl⟩)
    split at h3
    · cases h3; exact p1
    · have e : k = (k1.transmitPacket p n).2 := by rw [h3]
      show Phase s.k.upcalls .transmitOrReceive k
      rw [e]
      unfold Kernel.transmitPacket
      split
      · split
        · exact p1
        · exact (show Same k1 _ from ⟨rfl, rfl, rfl⟩).phase p1
      · exact p1

theorem isEvent_passive {x : Input} (h : x.isEvent = true) : passive x = true := by
  cases x <;> first | rfl | cases h

theorem cancel_idle {k : Kernel} {b : List Upcall} {c : Side} (n : Nat) (h : Phase b c k) :
    (k.cancel n).2.waiting = false ∧ (k.cancel n).2.side = none ∧ (k.cancel n).2.upcalls = k.upcalls := by
  unfold Kernel.cancel
  split
  · unfold Kernel.cancelTransaction
    dsimp only
    split
    · split <;> exact ⟨rfl, rfl, rfl⟩
    · exact ⟨rfl, rfl, rfl⟩
  · rename_i hw
    rcases h with ⟨e, -⟩ | ⟨e, e2, -⟩
    · exact absurd e hw
    · exact ⟨e, e2, rfl⟩

/-- How a call ends. -/
theorem call_end {s s' : Sys} {c : Call} {r : Race} {st : Status} (hw : s.k.waiting = false) (hs : s.k.side = none) (he : r.Events)
    (h : s.call c r = some (st, s')) (h1 : st ≠ .waiting) (h2 : st ≠ .fail) :
    ∃ s2, s.run (c.first ++ r.early) = some s2 ∧ s2.run (c.rest r (newUpcalls s s2)) = some s' ∧
      s'.k.waiting = false ∧ s'.k.side = none ∧
      ((∃ u, Fits c.side u ∧ st = .ofUpcall u ∧ s'.k.upcalls = s.k.upcalls ++ [u]) ∨
        st = .timeout ∧ (s'.k.upcalls = s.k.upcalls ∨ ∃ u, Fits c.side u ∧ s'.k.upcalls = s.k.upcalls ++ [u] ∧
          (r.Calm → u = .transmitted))) := by
  unfold Sys.call at h
  obtain ⟨x, hx, h⟩ := Option.bind_eq_some_iff.1 h
  split at h
  · rename_i hsuc
    subst hsuc
    obtain ⟨s2, hr2, h⟩ := Option.bind_eq_some_iff.1 h
    dsimp only at h
    have hr2' := hr2
    rw [run_append] at hr2
    obtain ⟨s1, hf, hearly⟩ := Option.bind_eq_some_iff.1 hr2
    have p1 := first_phase c hw hs hx hf
    have p2 := (run_phase r.early (fun x hx => isEvent_passive (he x (by simp [hx]))) hearly p1).1
    split at h
    · cases h; exact absurd rfl h1
    · obtain ⟨s3, hr3, h⟩ := Option.map_eq_some_iff.1 h
      have hst : s3 = s' ∧ (match newUpcalls s s2 with | [] => Status.timeout | x :: _ => .ofUpcall x) = st := by
        simp only [Prod.mk.injEq] at h
        exact ⟨h.2, h.1⟩
      obtain ⟨rfl, hst⟩ := hst
      have hpass : ∀ x ∈ r.late ++ .allow 0 :: r.last, passive x = true := by
        intro x hx
        simp only [List.mem_append, List.mem_cons] at hx
        rcases hx with hx | rfl | hx
        · exact isEvent_passive (he x (by simp [hx]))
        · rfl
        · exact isEvent_passive (he x (by simp [hx]))
      refine ⟨s2, hr2', hr3, ?_⟩
      have hsplit : c.rest r (newUpcalls s s2) =
          (r.late ++ .allow 0 :: r.last) ++ if (newUpcalls s s2).isEmpty then [.cancel c.cancelArg] else [] := by
        simp [Call.rest]
      rw [hsplit, run_append] at hr3
      obtain ⟨s4, hr4, hr5⟩ := Option.bind_eq_some_iff.1 hr3
      obtain ⟨p4, i4, t4⟩ := run_phase _ hpass hr4 p2
      rcases p2 with ⟨w2, e2, u2⟩ | ⟨w2, e2, u, u2, f2⟩
      · have hnew : newUpcalls s s2 = [] := by simp [newUpcalls, u2]
        rw [hnew] at hst hr5
        have hr5 : s4.run [.cancel c.cancelArg] = some s3 := hr5
        simp only [Sys.run, Sys.step, Option.bind_some, Option.some.injEq] at hr5
        subst hr5
        obtain ⟨a1, a2, a3⟩ := cancel_idle c.cancelArg p4
        refine ⟨a1, a2, .inr ⟨hst.symm, ?_⟩⟩
        rcases p4 with ⟨-, -, u4⟩ | ⟨-, -, u, u4, f4⟩
        · exact .inl (a3.trans u4)
        · refine .inr ⟨u, f4, a3.trans u4, fun hc => t4 w2 ?_ u u4⟩
          intro x hx
          simp only [List.mem_append, List.mem_cons] at hx
          rcases hx with hx | rfl | hx
          · exact hc x (by simp [hx])
          · rfl
          · exact hc x (by simp [hx])
      · have hnew : newUpcalls s s2 = [u] := by simp [newUpcalls, u2]
        rw [hnew] at hst hr5
        have hr5 : s4.run [] = some s3 := hr5
        cases hr5
        have u4 : s3.k.upcalls = s.k.upcalls ++ [u] := (i4 w2).trans u2
        rcases p4 with ⟨-, -, e⟩ | ⟨w4, e4, -⟩
        · rw [u4] at e
          have := congrArg List.length e
          simp at this
        · exact ⟨w4, e4, .inl ⟨u, f2, hst.symm, u4⟩⟩
  · obtain ⟨s2, -, h⟩ := Option.map_eq_some_iff.1 h
    cases h; exact absurd rfl h2

/-- A call that receives does not say that it sent, and a call that sends does not say that it received. -/
theorem C94_kind (s s' : Sys) (c : Call) (r : Race) (st : Status) (hw : s.k.waiting = false) (hs : s.k.side = none) (he : r.Events)
    (h : s.call c r = some (st, s')) :
    (c = .recv → st ≠ .sent) ∧ (∀ n p t q, c = .send n p → st ≠ .received t q) := by
  refine ⟨?_, ?_⟩
  · rintro rfl rfl
    obtain ⟨_, -, -, -, -, ⟨u, f, e, -⟩ | ⟨e, -⟩⟩ := call_end hw hs he h (by simp) (by simp)
    · cases u with
      | transmitted => cases f
      | received t p => cases e
    · cases e
  · rintro n p t q rfl rfl
    obtain ⟨_, -, -, -, -, ⟨u, f, e, -⟩ | ⟨e, -⟩⟩ := call_end hw hs he h (by simp) (by simp)
    · cases u with
      | transmitted => cases e
      | received t p => cases f
    · cases e

theorem call_returned {s s' : Sys} {c : Call} {r : Race} {st : Status} (hw : s.k.waiting = false) (hs : s.k.side = none) (he : r.Events)
    (hc : st = .timeout → r.Calm) (h : s.call c r = some (st, s')) (h1 : st ≠ .waiting) (h2 : st ≠ .fail) (t : Transport) :
    delivered s'.k.upcalls t = delivered s.k.upcalls t ++ returned [st] t := by
  obtain ⟨_, -, -, -, -, ⟨u, f, rfl, e⟩ | ⟨rfl, e | ⟨u, f, e, hu⟩⟩⟩ := call_end hw hs he h h1 h2
  · rw [e, delivered_append]
    cases u <;> rfl
  · rw [e]; simp [returned]
  · rw [e, hu (hc rfl), delivered_append]; rfl

/-- Every timeout is calm. -/
def CalmCalls (s : Sys) : List (Call × Race) → Prop
  | [] => True
  | (c, r) :: l => r.Events ∧ ∀ st s', s.call c r = some (st, s') → (st = .timeout → r.Calm) ∧ CalmCalls s' l

theorem calls_inv (l : List (Call × Race)) {s s' : Sys} {a : List Status} (hw : s.k.waiting = false) (hs : s.k.side = none)
    (hl : LegalCalls s l) (hc : CalmCalls s l) (h : s.calls l = some (a, s')) (hi : ∀ t, s.host t = total s.k t) (t : Transport) :
    s'.host t = total s'.k t ∧ delivered s'.k.upcalls t = delivered s.k.upcalls t ++ returned a t := by
  induction l generalizing s a with
  | nil =>
    cases h
    exact ⟨hi t, by simp [returned]⟩
  | cons x l ih =>
    obtain ⟨c, r⟩ := x
    obtain ⟨⟨st, s1⟩, h1, h⟩ := Option.bind_eq_some_iff.1 h
    dsimp only at h
    split at h
    · cases h
    · rename_i hn
      obtain ⟨⟨a', s2⟩, h3, h4⟩ := Option.map_eq_some_iff.1 h
      simp only [Prod.mk.injEq] at h4
      obtain ⟨rfl, rfl⟩ := h4
      have hn1 : st ≠ .waiting := fun e => hn (.inl e)
      have hn2 : st ≠ .fail := fun e => hn (.inr e)
      obtain ⟨sm, e1, e2, w1, i1, -⟩ := call_end hw hs hc.1 h1 hn1 hn2
      have hm := run_total _ hl.1.1 e1 hi
      have ht := run_total _ (hl.1.2 sm e1) e2 hm
      obtain ⟨hcalm, hc'⟩ := hc.2 st s1 h1
      obtain ⟨a1, a2⟩ := ih w1 i1 (hl.2 st s1 h1) hc' h3 ht
      refine ⟨a1, ?_⟩
      rw [a2, call_returned hw hs hc.1 hcalm h1 hn1 hn2 t, List.append_assoc]
      congr 1
      simp only [returned, ← List.filterMap_append]
      rfl

/-- Through any calls that return, the application gets the packets of the host from each endpoint, all of them, in this order and
once, except that the last one may still wait; as long as none comes between the end of a timer and the command that cancels. -/
theorem C94_history_partial (l : List (Call × Race)) (a : List Status) (s : Sys) (hl : LegalCalls start l) (hc : CalmCalls start l)
    (h : start.calls l = some (a, s)) (t : Transport) :
    s.host t = returned a t ∨ ∃ p, s.host t = returned a t ++ [p] := by
  obtain ⟨h1, h2⟩ := calls_inv l rfl rfl hl hc h (fun t => rfl) t
  have h2 : delivered s.k.upcalls t = returned a t := h2
  rw [h1, ← h2]
  unfold total
  split
  · exact .inr ⟨_, rfl⟩
  · exact .inl (by simp)

theorem prompt_left {s : Sys} (a b : List Input) (h : LegalRun s (a ++ b)) (h' : PromptRun s (a ++ b)) : LegalRun s a ∧ PromptRun s a := by
  induction a generalizing s with
  | nil => exact ⟨trivial, trivial⟩
  | cons x a ih => exact ⟨⟨h.1, fun s' e => (ih (h.2 s' e) (h'.2 s' e)).1⟩, h'.1, fun s' e => (ih (h.2 s' e) (h'.2 s' e)).2⟩

theorem ret_isSome {s s1 : Sys} (c : Call) (h : s.run c.first = some s1) : ∃ x, c.ret s.k = some x := by
  cases c with
  | recv =>
    simp only [Call.first, Call.input, Sys.run, Sys.step, Option.bind_some, Option.bind_eq_some_iff, Option.map_eq_some_iff] at h
    obtain ⟨_, ⟨r, h1, rfl⟩, -⟩ := h
    exact ⟨r.1, Option.map_eq_some_iff.2 ⟨r, h1, rfl⟩⟩
  | send n p => exact ⟨_, rfl⟩
  | sendOrRecv n p =>
    simp only [Call.first, Call.input, Sys.run, Sys.step, Option.bind_some, Option.bind_eq_some_iff, Option.map_eq_some_iff] at h
    obtain ⟨_, ⟨r, h1, rfl⟩, -⟩ := h
    exact ⟨r.1, Option.map_eq_some_iff.2 ⟨r, h1, rfl⟩⟩

/-- After any history, a call does not panic the kernel, as long as the host takes packets in time and none comes between the end of a
timer and the command that cancels. -/
theorem C94_no_panic_partial (l : List Input) (s : Sys) (c : Call) (r : Race) (hl : LegalRun start l) (hp : PromptRun start l)
    (h : start.run l = some s) (hlc : LegalCall s c r) (hpc : PromptRun s (c.first ++ r.early) ∧
      ∀ s2, s.run (c.first ++ r.early) = some s2 → PromptRun s2 (c.rest r (newUpcalls s s2))) :
    (s.call c r).isSome = true := by
  obtain ⟨s0, h0, hi⟩ := run_inv l inv_start hl hp
  rw [h] at h0
  cases h0
  obtain ⟨s2, h2, i2⟩ := run_inv _ hi hlc.1 hpc.1
  obtain ⟨s3, h3, -⟩ := run_inv _ i2 (hlc.2 s2 h2) (hpc.2 s2 h2)
  obtain ⟨s1, h1, -⟩ := run_inv _ hi (prompt_left _ _ hlc.1 hpc.1).1 (prompt_left _ _ hlc.1 hpc.1).2
  obtain ⟨x, hx⟩ := ret_isSome c h1
  unfold Sys.call
  rw [hx, Option.bind_some]
  split
  · rw [h2, Option.bind_some]
    dsimp only
    split
    · rfl
    · rw [h3]; rfl
  · rw [run_append, h1]; rfl

/-- A call to which it applies: the timer ends, the driver revokes the buffer and cancels. -/
example : LegalCall start .recv ⟨[], true, [], []⟩ ∧ PromptRun start (Call.recv.first ++ []) ∧
    ∀ s2, start.run (Call.recv.first ++ []) = some s2 → PromptRun s2 (Call.recv.rest ⟨[], true, [], []⟩ (newUpcalls start s2)) := by
  refine ⟨⟨by decide, ?_⟩, by decide, ?_⟩ <;> (intro s2 h; cases h; decide)

theorem send_upcalls {k k' : Kernel} {t : Transport} {b : Bool} (h : k.sendPacketToClient t = some (b, k')) :
    ∃ l, k'.upcalls = k.upcalls ++ l ∧ .transmitted ∉ l := by
  rcases send_cases h with hs | ⟨-, -, -, p, e⟩
  · exact ⟨[], by simp [hs.2.2], by simp⟩
  · exact ⟨_, e, by simp⟩

theorem deliver_upcalls {k k' : Kernel} {t : Transport} (h : k.deliverDelayed t = some k') :
    ∃ l, k'.upcalls = k.upcalls ++ l ∧ .transmitted ∉ l := by
  unfold Kernel.deliverDelayed at h
  split at h
  · obtain ⟨⟨b, k1⟩, h1, h2⟩ := Option.map_eq_some_iff.1 h
    simp only at h2
    subst h2
    have := send_upcalls h1
    exact this
  · cases h; exact ⟨[], by simp, by simp⟩

theorem receive_not_transmitted {k k' : Kernel} (h : k.receivePacket = some k') : k'.upcalls ≠ k.upcalls ++ [.transmitted] := by
  have key : ∃ l, k'.upcalls = k.upcalls ++ l ∧ .transmitted ∉ l := by
    unfold Kernel.receivePacket at h
    split at h
    · cases h; exact ⟨[], by simp, by simp⟩
    · obtain ⟨k1, h1, h2⟩ := Option.bind_eq_some_iff.1 h
      obtain ⟨l1, e1, n1⟩ := deliver_upcalls h1
      obtain ⟨l2, e2, n2⟩ := deliver_upcalls h2
      exact ⟨l1 ++ l2, by rw [e2, e1, List.append_assoc], by simp [n1, n2]⟩
  obtain ⟨l, e, n⟩ := key
  intro e'
  rw [e] at e'
  rw [List.append_cancel_left e'] at n
  simp at n

/-- The packet of a call that sends waits for the host, is on its way, or was sent. -/
def Track (w : List Bytes) (p : Bytes) (t : Transport) (base : List Upcall) (s : Sys) : Prop :=
  (s.k.waiting = true ∧ (s.k.eps t).pendingIn = true ∧
    ((s.k.eps t).txPacket = some p ∧ s.wire t = w ∨ (s.k.eps t).txPacket = none ∧ s.wire t = w ++ [p])) ∨
  (s.k.waiting = false ∧ (s.k.upcalls = base ++ [.transmitted] → s.wire t = w ++ [p]))

theorem Track.congr {w : List Bytes} {p : Bytes} {t : Transport} {base : List Upcall} {s s' : Sys} (h : Track w p t base s)
    (h1 : Same s.k s'.k) (h2 : (s'.k.eps t).pendingIn = (s.k.eps t).pendingIn ∧ (s'.k.eps t).txPacket = (s.k.eps t).txPacket)
    (h3 : s'.wire t = s.wire t) : Track w p t base s' := by
  unfold Track
  rw [h1.1, h1.2.2, h2.1, h2.2, h3]
  exact h

theorem step_track {s s' : Sys} {x : Input} {w : List Bytes} {p : Bytes} {t : Transport} {base : List Upcall}
    (hx : passive x = true) (hl : Legal s x) (h : s.step x = some s') (hi : Inv s)
    (ht : Track w p t base s) : Track w p t base s' := by
  cases x with
  | allow len => cases h; exact ht
  | transmit n p => cases hx
  | receive => cases hx
  | transmitOrReceive n p => cases hx
  | cancel n => cases hx
  | packetIn u =>
    simp only [Sys.step, Kernel.packetIn] at h
    cases e : (s.k.eps u).txPacket with
    | none =>
      rw [e] at h
      cases h
      refine ht.congr ⟨rfl, rfl, rfl⟩ ?_ rfl
      simp only [Kernel.set]
      split
      · rename_i hu; subst hu; exact ⟨rfl, e.symm⟩
      · exact ⟨rfl, rfl⟩
    | some q =>
      rw [e] at h
      cases h
      have hpu : (s.k.eps u).pendingIn = true := by
        cases e2 : (s.k.eps u).pendingIn with
        | true => rfl
        | false => rw [hi.k.tx u e2] at e; cases e
      rcases ht with ⟨w1, p1, g⟩ | ⟨w1, -⟩
      · have hu : u = t := hi.k.one u t hpu p1
        subst hu
        rcases g with ⟨g1, g2⟩ | ⟨g1, g2⟩
        · rw [g1] at e
          cases e
          exact .inl ⟨w1, by simpa [Kernel.set] using p1, .inr ⟨by simp [Kernel.set], by simp [push, g2]⟩⟩
        · rw [g1] at e; cases e
      · rw [hi.k.idle (canTransmit_false _ w1) u] at hpu
        cases hpu
  | packetOut u q =>
    obtain ⟨k, h1, rfl⟩ := Option.map_eq_some_iff.1 h
    obtain ⟨⟨b, k'⟩, h2, h3⟩ := Option.map_eq_some_iff.1 h1
    simp only at h3
    subst h3
    cases hc : s.k.canReceive with
    | true =>
      rcases send_cases h2 with hs | ⟨-, e2, -, q', e4⟩
      · unfold Kernel.sendPacketToClient at h2
        split at h2
        · cases h2
        · rw [if_pos (show (s.k.set u fun e => { e with outBuffer := q }).canReceive = true from hc)] at h2
          split at h2
          · cases h2
          · have hr : (({ (s.k.set u fun e => { e with outBuffer := q }) with pendingOut := false } : Kernel).cancelIn u).2.canReceive = true := hc
            unfold Kernel.appPacketReceived at h2
            dsimp only at h2
            rw [if_pos hr] at h2
            split at h2
            · cases h2
            · simp only [Option.map_some, Option.some.injEq, Prod.mk.injEq] at h2
              obtain ⟨-, rfl⟩ := h2
              have := congrArg List.length hs.2.2
              simp [Kernel.cancelIn, Kernel.set] at this
      · refine .inr ⟨e2, fun e => ?_⟩
        have e4 : k'.upcalls = s.k.upcalls ++ [.received u q'] := e4
        have e : k'.upcalls = base ++ [.transmitted] := e
        rw [e4] at e
        have := (List.append_inj' e rfl).2
        simp at this
    | false =>
      have hd : ((s.k.set u fun e => { e with outBuffer := q }).eps u).delayedOut = false := by
        have : (s.k.eps u).delayedOut = false := hl
        simp [Kernel.set, this]
      rw [send_no hd hc] at h2
      simp only [Option.some.injEq, Prod.mk.injEq] at h2
      obtain ⟨-, rfl⟩ := h2
      refine ht.congr ⟨rfl, rfl, rfl⟩ ?_ rfl
      simp only [Kernel.set]
      split <;> exact ⟨rfl, rfl⟩
  | transmitted u =>
    have hf : s.inFlight u = true := hl
    obtain ⟨f1, f2⟩ := hi.fl u hf
    have hc := hi.k.wait u f1
    obtain ⟨k, h1, rfl⟩ := Option.map_eq_some_iff.1 h
    unfold Kernel.packetTransmitted at h1
    dsimp only at h1
    rw [if_neg (by simp [f2]), if_pos (show (s.k.set u fun e => { e with pendingIn := false }).cancelOut.2.canTransmit = true from hc)] at h1
    cases h1
    refine .inr ⟨rfl, fun _ => ?_⟩
    rcases ht with ⟨w1, p1, g⟩ | ⟨w1, -⟩
    · have hu : u = t := hi.k.one u t f1 p1
      subst hu
      rcases g with ⟨g1, -⟩ | ⟨-, g2⟩
      · rw [f2] at g1; cases g1
      · exact g2
    · rw [hi.k.idle (canTransmit_false _ w1) u] at f1; cases f1

theorem run_track {s s' : Sys} (l : List Input) {w : List Bytes} {p : Bytes} {t : Transport} {base : List Upcall}
    (hx : ∀ x ∈ l, passive x = true) (hl : LegalRun s l) (hpr : PromptRun s l) (h : s.run l = some s') (hi : Inv s)
    (ht : Track w p t base s) : Inv s' ∧ Track w p t base s' := by
  induction l generalizing s with
  | nil => cases h; exact ⟨hi, ht⟩
  | cons x l ih =>
    obtain ⟨s1, h1, h2⟩ := Option.bind_eq_some_iff.1 h
    obtain ⟨s1', e, i1⟩ := step_inv hi hl.1 hpr.1
    rw [h1] at e
    cases e
    exact ih (fun y hy => hx y (.tail _ hy)) (hl.2 s1 h1) (hpr.2 s1 h1) h2 i1
      (step_track (hx x (.head _)) hl.1 h1 hi ht)

theorem first_track {s s1 : Sys} {c : Call} {n : Nat} {t : Transport} {p : Bytes} (hc : c = .send n p ∨ c = .sendOrRecv n p)
    (hn : n = 1 ∧ t = .main ∨ n = 2 ∧ t = .vendor) (hi : Inv s) (hw : s.k.waiting = false) (hs : s.k.side = none)
    (hr : c.ret s.k = some .success) (h : s.run c.first = some s1) : Track (s.wire t) p t s.k.upcalls s1 := by
  have hg : getEndpoint n = some t := by rcases hn with ⟨rfl, rfl⟩ | ⟨rfl, rfl⟩ <;> rfl
  have hidle := hi.k.idle (canTransmit_false _ hw)
  rcases hc with rfl | rfl
  · simp only [Call.first, Sys.run, Sys.step, Option.bind_some, Option.some.injEq] at h
    subst h
    left
    simp [Kernel.transmit, Kernel.setSide, hs, hw, Kernel.transmitPacket, hg, hidle, Kernel.set]
  · simp only [Call.first, Call.input, Sys.run, Sys.step, Option.bind_some, Option.bind_eq_some_iff, Option.map_eq_some_iff] at h
    obtain ⟨_, ⟨⟨r, k⟩, h1, rfl⟩, e⟩ := h
    cases e
    simp only [Call.ret] at hr
    rw [h1] at hr
    simp only [Option.map_some, Option.some.injEq] at hr
    subst hr
    unfold Kernel.transmitOrReceive at h1
    simp only [Kernel.setSide, hs, hw, Bool.not_true, Bool.false_eq_true, if_false] at h1
    obtain ⟨k1, h2, h3⟩ := Option.map_eq_some_iff.1 h1
    split at h3
    · rename_i hw1
      cases h3
      refine .inr ⟨by simpa using hw1, fun e => ?_⟩
      have hne := receive_not_transmitted h2
      exact absurd e hne
    · rename_i hw1
      unfold Kernel.transmitPacket at h3
      rw [hg] at h3
      dsimp only at h3
      split at h3
      · cases h3
      · cases h3
        left
        exact ⟨by simpa [Kernel.set] using hw1, by simp [Kernel.set], .inl ⟨by simp [Kernel.set], rfl⟩⟩

theorem legal_right {s s1 : Sys} (a b : List Input) (h : s.run a = some s1) (hl : LegalRun s (a ++ b)) (hp : PromptRun s (a ++ b)) :
    LegalRun s1 b ∧ PromptRun s1 b := by
  induction a generalizing s with
  | nil => cases h; exact ⟨hl, hp⟩
  | cons x a ih =>
    obtain ⟨s2, h1, h2⟩ := Option.bind_eq_some_iff.1 h
    exact ih h2 (hl.2 s2 h1) (hp.2 s2 h1)

/-- If a call says that it sent its packet, then it went to the host, as long as the host takes packets in time. -/
theorem C94_sent_partial (l : List Input) (s s' : Sys) (c : Call) (n : Nat) (p : Bytes) (t : Transport) (r : Race)
    (hc : c = .send n p ∨ c = .sendOrRecv n p) (hn : n = 1 ∧ t = .main ∨ n = 2 ∧ t = .vendor)
    (hl : LegalRun start l) (hp : PromptRun start l) (h : start.run l = some s) (hw : s.k.waiting = false) (hs : s.k.side = none)
    (he : r.Events) (hlc : LegalCall s c r) (hpc : PromptRun s (c.first ++ r.early) ∧
      ∀ s2, s.run (c.first ++ r.early) = some s2 → PromptRun s2 (c.rest r (newUpcalls s s2)))
    (hcall : s.call c r = some (.sent, s')) : s'.wire t = s.wire t ++ [p] := by
  obtain ⟨s0, h0, hi⟩ := run_inv l inv_start hl hp
  rw [h] at h0
  cases h0
  obtain ⟨s2, e1, e2, w', i', hcase⟩ := call_end hw hs he hcall (by simp) (by simp)
  have hret : c.ret s.k = some .success := by
    unfold Sys.call at hcall
    obtain ⟨x, hx, hcall⟩ := Option.bind_eq_some_iff.1 hcall
    split at hcall
    · rename_i e; rw [hx, e]
    · obtain ⟨_, -, e⟩ := Option.map_eq_some_iff.1 hcall
      cases e
  obtain ⟨l1, l2⟩ := prompt_left _ _ hlc.1 hpc.1
  obtain ⟨s1, f1, i1⟩ := run_inv _ hi l1 l2
  have early : s1.run r.early = some s2 := by
    rw [run_append, f1] at e1; exact e1
  obtain ⟨r1, r2⟩ := legal_right _ _ f1 hlc.1 hpc.1
  have tr1 := first_track hc hn hi hw hs hret f1
  have pe : ∀ x ∈ r.early, passive x = true := fun x hx => isEvent_passive (he x (by simp [hx]))
  obtain ⟨i2, tr2⟩ := run_track r.early pe r1 r2 early i1 tr1
  have hu' : s'.k.upcalls = s.k.upcalls ++ [.transmitted] := by
    rcases hcase with ⟨u, -, e, eu⟩ | ⟨e, -⟩
    · cases u with
      | transmitted => exact eu
      | received t q => cases e
    · cases e
  have hne : (newUpcalls s s2).isEmpty = false := by
    cases e : newUpcalls s s2 with
    | cons a b => rfl
    | nil =>
      unfold Sys.call at hcall
      rw [hret, Option.bind_some, if_pos rfl, e1, Option.bind_some] at hcall
      dsimp only at hcall
      split at hcall
      · cases hcall
      · rw [e] at hcall
        obtain ⟨_, -, e⟩ := Option.map_eq_some_iff.1 hcall
        cases e
  have hrest : c.rest r (newUpcalls s s2) = r.late ++ .allow 0 :: r.last := by simp [Call.rest, hne]
  have q1 := hlc.2 s2 e1
  have q2 := hpc.2 s2 e1
  rw [hrest] at q1 q2 e2
  have pr : ∀ x ∈ r.late ++ .allow 0 :: r.last, passive x = true := by
    intro x hx
    simp only [List.mem_append, List.mem_cons] at hx
    rcases hx with hx | rfl | hx
    · exact isEvent_passive (he x (by simp [hx]))
    · rfl
    · exact isEvent_passive (he x (by simp [hx]))
  obtain ⟨-, tr3⟩ := run_track _ pr q1 q2 e2 i2 tr2
  rcases tr3 with ⟨w3, -⟩ | ⟨-, g⟩
  · rw [w'] at w3; cases w3
  · exact g hu'

/-- A call to which it applies. -/
example : LegalCall start (.sendOrRecv 2 [5]) ⟨[.packetIn .vendor, .transmitted .vendor], false, [.packetOut .main [6]], []⟩ ∧
    PromptRun start ((Call.sendOrRecv 2 [5]).first ++ [.packetIn .vendor, .transmitted .vendor]) ∧
    (∀ s2, start.run ((Call.sendOrRecv 2 [5]).first ++ [.packetIn .vendor, .transmitted .vendor]) = some s2 →
      PromptRun s2 ((Call.sendOrRecv 2 [5]).rest ⟨[.packetIn .vendor, .transmitted .vendor], false, [.packetOut .main [6]], []⟩
        (newUpcalls start s2))) ∧
    (start.call (.sendOrRecv 2 [5]) ⟨[.packetIn .vendor, .transmitted .vendor], false, [.packetOut .main [6]], []⟩).map (·.1)
      = some .sent := by
  refine ⟨⟨by decide, ?_⟩, by decide, ?_, by decide⟩ <;> (intro s2 h; cases h; decide)

/-- An application that waits for nothing sends a packet, the host takes it, and the call says so. -/
theorem C94_send_partial (l : List Input) (s : Sys) (n : Nat) (p : Bytes) (t : Transport) (timer : Bool)
    (hn : n = 1 ∧ t = .main ∨ n = 2 ∧ t = .vendor) (hl : LegalRun start l) (hp : PromptRun start l) (h : start.run l = some s)
    (hw : s.k.waiting = false) (hs : s.k.side = none) :
    (s.call (.send n p) ⟨[.packetIn t, .transmitted t], timer, [], []⟩).map (·.1) = some .sent := by
  obtain ⟨s2, e, -, eu, -⟩ := C93_transmit_partial l s hl hp h hw hs n t hn p
  obtain ⟨s1, h1, hi⟩ := run_inv l inv_start hl hp
  rw [h] at h1
  cases h1
  have hg : getEndpoint n = some t := by rcases hn with ⟨rfl, rfl⟩ | ⟨rfl, rfl⟩ <;> rfl
  have hidle := hi.k.idle (canTransmit_false _ hw) t
  have hret : (Call.send n p).ret s.k = some .success := by
    simp [Call.ret, Kernel.transmit, Kernel.setSide, hs, hw, Kernel.transmitPacket, hg, hidle]
  have hnew : newUpcalls s s2 = [.transmitted] := by simp [newUpcalls, eu]
  have e' : s.run ((Call.send n p).first ++ [.packetIn t, .transmitted t]) = some s2 := e
  unfold Sys.call
  rw [hret, Option.bind_some, if_pos rfl, e', Option.bind_some]
  dsimp only
  rw [hnew]
  rfl

/-- A call that the host ignores until the time is over, and then a call on the other endpoint: when the host takes the first packet,
the second call says that its packet was sent, but it was not. -/
theorem C94_wrong_confirmation : (start.calls [(.send 1 [1], ⟨[.packetIn .main], true, [], []⟩), (.send 2 [2], ⟨[.transmitted .main], false, [], []⟩)]).map
    (fun x => (x.1, x.2.wire .vendor)) = some ([.timeout, .sent], []) ∧
    LegalCalls start [(.send 1 [1], ⟨[.packetIn .main], true, [], []⟩), (.send 2 [2], ⟨[.transmitted .main], false, [], []⟩)] := by
  refine ⟨by decide, ?_⟩
  repeat' first
    | exact trivial
    | (refine ⟨⟨by decide, fun s2 h => ?_⟩, fun st s' h => ?_⟩ <;> cases h)
    | decide

/-- A packet that comes between the end of the timer and the command that cancels is lost: the call says that the time is over, and
the kernel has no packet any more. -/
theorem C94_lost : LegalCall start .recv ⟨[], true, [.packetOut .main [7]], []⟩ ∧
    ((start.call .recv ⟨[], true, [.packetOut .main [7]], []⟩).map
      fun x => (x.1, x.2.host .main, (x.2.k.eps .main).delayedOut)) = some (.timeout, [[7]], false) := by
  refine ⟨⟨by decide, ?_⟩, by decide⟩
  intro s2 h
  cases h
  decide

/-- A packet that comes after the buffer is revoked and before the command is cancelled panics the kernel. -/
theorem C94_panic : LegalCall start .recv ⟨[], true, [], [.packetOut .main [7]]⟩ ∧
    (start.call .recv ⟨[], true, [], [.packetOut .main [7]]⟩).isNone = true := by
  refine ⟨⟨by decide, ?_⟩, by decide⟩
  intro s2 h
  cases h
  decide

/-- A request of two packets, of which the second comes while the first is processed; a message that waits for a touch, in vain; one that the
host answers with a packet; and an answer. -/
def sample : List (Call × Race) :=
  [(.recv, ⟨[.packetOut .main [1]], false, [.packetOut .main [2]], [.packetOut .vendor [3]]⟩), (.recv, ⟨[], false, [], []⟩),
    (.recv, ⟨[], false, [], []⟩), (.sendOrRecv 1 [4], ⟨[], true, [], []⟩), (.sendOrRecv 1 [4], ⟨[.packetOut .main [5]], false, [], []⟩),
    (.send 1 [6], ⟨[.packetIn .main, .transmitted .main], false, [.packetOut .main [7]], []⟩)]

/-- `C94_history_partial` applies to it. -/
example : LegalCalls start sample ∧ CalmCalls start sample ∧
    (start.calls sample).map (fun x => (x.1, x.2.host .main, x.2.wire .main)) =
      some ([.received .main [1], .received .vendor [3], .received .main [2], .timeout, .received .main [5], .sent],
        [[1], [2], [5], [7]], [[6]]) := by
  refine ⟨?_, ?_, by decide⟩
  · unfold sample
    repeat' first
      | exact trivial
      | (refine ⟨⟨by decide, fun s2 h => ?_⟩, fun st s' h => ?_⟩ <;> cases h)
      | decide
  · unfold sample
    repeat' first
      | exact trivial
      | (refine ⟨by unfold Race.Events; decide, fun st s' h => ?_⟩; cases h; refine ⟨fun h => ?_, ?_⟩)
      | (unfold Race.Calm; decide)
      | cases h

end Verif.Usb.Kernel
