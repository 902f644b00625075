import Verif.Main.Spec
import Verif.Usb.Lemmas

/-!
# Lemmas about the main loop
-/
namespace Verif.Main
open Verif.Ctap hiding Transport Input
open Verif.Hid (Message Transport Splitter)
open Verif.Usb (Device)

/-! ## Iterators -/

/-- A bound on the number of packets that are left. -/
def left (s : Splitter) : Nat :=
  match s.seq with
  | none => s.msg.payload.length + 1
  | some _ => s.msg.payload.length - s.i

theorem next_left {s s' : Splitter} {p : Bytes} (h : s.next = some (p, s')) : s'.msg = s.msg ∧ left s' < left s := by
  unfold Splitter.next at h
  cases hs : s.seq with
  | none =>
    simp only [hs, Option.some.injEq, Prod.mk.injEq] at h
    obtain ⟨_, rfl⟩ := h
    refine ⟨rfl, ?_⟩
    simp only [left, hs]
    omega
  | some n =>
    simp only [hs] at h
    split at h
    · rename_i hi
      simp only [Option.some.injEq, Prod.mk.injEq] at h
      obtain ⟨_, rfl⟩ := h
      refine ⟨rfl, ?_⟩
      have : 0 < (Hid.consumeData 59 (s.msg.payload.drop s.i)).2 := by
        unfold Hid.consumeData
        split <;> simp only [List.length_drop] <;> omega
      simp only [left, hs]
      omega
    · cases h

theorem collect_fuel : ∀ (n m : Nat) (s : Splitter), left s < n → left s < m → s.collect n = s.collect m := by
  intro n
  induction n with
  | zero => intro m s h; omega
  | succ n ih =>
    intro m s h1 h2
    obtain ⟨m, rfl⟩ : ∃ k, m = k + 1 := ⟨m - 1, by omega⟩
    unfold Splitter.collect
    cases hn : s.next with
    | none => rfl
    | some r =>
      obtain ⟨p, s'⟩ := r
      have := next_left hn
      simp only [List.cons.injEq, true_and]
      exact ih m s' (by omega) (by omega)

theorem left_le (s : Splitter) : left s < s.msg.payload.length + 2 := by
  unfold left
  split <;> omega

theorem rest_next {it it' : Iter} {p : Bytes} (h : it.next = some (p, it')) : it.rest = p :: it'.rest := by
  cases it with
  | none => cases h
  | some s =>
    simp only [Iter.next, Option.map_eq_some_iff, Prod.mk.injEq] at h
    obtain ⟨⟨q, s'⟩, hn, rfl, rfl⟩ := h
    obtain ⟨hm, hl⟩ := next_left hn
    have h1 : Iter.rest (some s) = q :: s'.collect (s.msg.payload.length + 1) := by
      simp only [Iter.rest, Splitter.collect, hn]
    rw [h1]
    have := left_le s
    simp only [Iter.rest, hm]
    rw [collect_fuel (s.msg.payload.length + 1) (s.msg.payload.length + 2) s' (by omega) (by omega)]

theorem rest_none {it : Iter} (h : it.next = none) : it.rest = [] := by
  cases it with
  | none => rfl
  | some s =>
    simp only [Iter.next, Option.map_eq_none_iff] at h
    simp only [Iter.rest, Splitter.collect, h]

theorem hasData_next (it : Iter) : it.hasData = it.next.isSome := by
  cases it with
  | none => rfl
  | some s =>
    simp only [Iter.hasData, Iter.next, finished, Splitter.next, Option.isSome_map]
    cases s.seq with
    | none => rfl
    | some n => by_cases h : s.i < s.msg.payload.length <;> simp [h]

theorem rest_of_hasData {it : Iter} (h : it.hasData = false) : it.rest = [] := by
  rw [hasData_next] at h
  exact rest_none (by cases hn : it.next <;> simp_all)

theorem split_rest (m : Message) : Usb.splitMessage m = (splitMessage m).rest := by
  have key : ∀ (m : Message) (s : Splitter), Splitter.new m = some s → s.msg = m := by
    intro m s h
    unfold Splitter.new at h
    split at h
    · cases h
    · cases h; rfl
  unfold Usb.splitMessage splitMessage Hid.split
  cases h : Splitter.new m with
  | some s => simp only [Option.map_some, Iter.rest, key m s h]
  | none =>
    simp only [Option.map_none]
    cases h' : Splitter.new { cid := m.cid, cmd := .cbor, payload := [Status.internalError.toByte] } with
    | some s => simp only [Option.map_some, Option.getD_some, Iter.rest, key _ s h']
    | none => rfl

/-! ## The queues -/

def Replies.get (r : Replies) : Transport → Iter
  | .main => r.main
  | .vendor => r.vendor

/-- The packets `qs` wait for interface `t`, none for the other one. -/
def Waiting (r : Replies) (t : Transport) (qs : List Bytes) : Prop :=
  (r.get t).rest = qs ∧ ∀ t', t' ≠ t → (r.get t').rest = []

theorem waiting_set {r : Replies} {t : Transport} (h : Waiting r t []) (t' : Transport) (it : Iter) :
    Waiting (r.set t' it) t' it.rest := by
  refine ⟨by cases t' <;> rfl, ?_⟩
  intro u hu
  have : ∀ u, (r.get u).rest = [] := by
    intro u
    by_cases hut : u = t
    · rw [hut]; exact h.1
    · exact h.2 u hut
  cases t' <;> cases u <;> first | exact absurd rfl hu | exact this .main | exact this .vendor

theorem waiting_any {r : Replies} {t : Transport} (h : Waiting r t []) (t' : Transport) : Waiting r t' [] := by
  have : ∀ u, (r.get u).rest = [] := by
    intro u
    by_cases hut : u = t
    · rw [hut]; exact h.1
    · exact h.2 u hut
  exact ⟨this _, fun u _ => this u⟩

theorem nextPacket_none {r : Replies} {t : Transport} {qs : List Bytes} (h : Waiting r t qs) (hn : r.nextPacket = none) : qs = [] := by
  unfold Replies.nextPacket at hn
  split at hn
  · cases hn
  · rename_i h1
    split at hn
    · cases hn
    · rename_i h2
      rw [← h.1]
      cases t
      · exact rest_none h1
      · exact rest_none h2

theorem nextPacket_some {r rs : Replies} {t u : Transport} {qs : List Bytes} {p : Bytes} (h : Waiting r t qs)
    (hn : r.nextPacket = some ((u, p), rs)) : u = t ∧ ∃ qs', qs = p :: qs' ∧ Waiting rs t qs' := by
  have key : ∀ (u : Transport) (it : Iter), (r.get u).next = some (p, it) → rs = r.set u it →
      u = t ∧ ∃ qs', qs = p :: qs' ∧ Waiting rs t qs' := by
    rintro u it h1 rfl
    have h2 := rest_next h1
    have hu : u = t := by
      by_cases hu : u = t
      · exact hu
      · rw [h.2 u hu] at h2; cases h2
    subst hu
    refine ⟨rfl, it.rest, by rw [← h2, h.1], by cases u <;> rfl, ?_⟩
    intro t' ht'
    rw [← h.2 t' ht']
    cases u <;> cases t' <;> first | exact absurd rfl ht' | rfl
  unfold Replies.nextPacket at hn
  split at hn
  · rename_i q it h1
    simp only [Option.some.injEq, Prod.mk.injEq] at hn
    obtain ⟨⟨rfl, rfl⟩, rfl⟩ := hn
    exact key .main it h1 rfl
  · split at hn
    · rename_i q it h1
      simp only [Option.some.injEq, Prod.mk.injEq] at hn
      obtain ⟨⟨rfl, rfl⟩, rfl⟩ := hn
      exact key .vendor it h1 rfl
    · cases hn

/-! ## Iterations -/

variable [Dev]

theorem processPacket_rest (t : Transport) (p : Bytes) (d : Device) :
    Usb.processPacket t p d = (Usb.mapRes Iter.rest (processPacket t p d).1, (processPacket t p d).2) := by
  unfold Usb.processPacket processPacket
  cases h : (d.hid.parsePacket Dev.maxMsgSize d.st.env.now t p).2 with
  | none => simp only [h, Usb.mapRes]; rfl
  | some m =>
    simp only [h]
    cases (Usb.processMessage t m { d with hid := (d.hid.parsePacket Dev.maxMsgSize d.st.env.now t p).1 }).1 <;>
      simp only [Usb.mapRes, split_rest]

theorem showLeds_same (l : Loop) : (showLeds l).dev = l.dev ∧ (showLeds l).replies = l.replies := by
  unfold showLeds
  simp only
  constructor <;> (repeat' split) <;> rfl

theorem grant_replies (o : Oracle) (b : Bool) (l : Loop) : (grant o b l).replies = l.replies := by
  unfold grant
  split <;> rfl

/-- The device goes through some inputs. -/
inductive Steps : Device → List Usb.Event → Device → Prop
  | refl (d : Device) : Steps d [] d
  | step {d d' : Device} {l : List Usb.Event} (o : Oracle) (i : Usb.Input) (h : Steps d l d')
      (hi : ∀ t p, i = .packet t p → p.length = 64) (ha : (Usb.step i (d'.withOracle o)).1.alive = true) :
      Steps d (l ++ [⟨d'.st.env.now, i, (Usb.step i (d'.withOracle o)).1⟩]) (Usb.step i (d'.withOracle o)).2

theorem Steps.trace {d d' : Device} {l l' : List Usb.Event} (h : Usb.Trace l d) (hs : Steps d l' d') : Usb.Trace (l ++ l') d' := by
  induction hs with
  | refl => simpa using h
  | step o i _ hi ha ih =>
    rw [← List.append_assoc]
    exact .step o i ih hi ha

/-- What a successful `finish` does. -/
theorem finish_ok {o : Oracle} {bs : List Bool} {evs evs' : List Event} {x : Option (Transport × Bytes)} {l l' : Loop}
    (h : finish o bs evs x l = (.ok evs', l')) :
    ∃ es, serve o x (grant o (bs.any id) l) = (.ok es, (serve o x (grant o (bs.any id) l)).2) ∧
      evs' = evs ++ (if bs.any id then [.touch] else []) ++ es ∧
      l' = showLeds (serve o x (grant o (bs.any id) l)).2 := by
  unfold finish at h
  simp only [Prod.mk.injEq] at h
  obtain ⟨h1, h2⟩ := h
  cases hs : serve o x (grant o (bs.any id) l) with
  | mk r l'' =>
    rw [hs] at h1 h2
    cases r with
    | ok es =>
      refine ⟨es, rfl, ?_, h2.symm⟩
      simpa [Usb.mapRes] using h1.symm
    | err e => cases h1
    | panic => cases h1
    | crash => cases h1

theorem serve_ok {o : Oracle} {x : Option (Transport × Bytes)} {l l' : Loop} {es : List Event} (h : serve o x l = (.ok es, l')) :
    (x = none ∧ es = [] ∧ l' = l) ∨
    ∃ t p it, x = some (t, p) ∧ (processPacket t p (l.dev.withOracle o)).1 = .ok it ∧ es = [.packet t p it.rest] ∧
      l'.dev = (processPacket t p (l.dev.withOracle o)).2 ∧
      l'.replies = if it.hasData then l.replies.set t it else l.replies := by
  unfold serve at h
  cases x with
  | none =>
    simp only [Prod.mk.injEq, Res.ok.injEq] at h
    exact .inl ⟨rfl, h.1.symm, h.2.symm⟩
  | some y =>
    obtain ⟨t, p⟩ := y
    simp only at h
    right
    cases hr : (processPacket t p (l.dev.withOracle o)).1 with
    | ok it =>
      rw [hr] at h
      simp only [Prod.mk.injEq, Res.ok.injEq] at h
      obtain ⟨rfl, rfl⟩ := h
      exact ⟨t, p, it, rfl, hr, rfl, rfl, rfl⟩
    | err e => rw [hr] at h; simp at h
    | panic => rw [hr] at h; simp at h
    | crash => rw [hr] at h; simp at h

theorem orderly_touch {h : List Event} {t : Transport} {qs : List Bytes} (b : Bool) (ho : Orderly h t qs) :
    Orderly (h ++ if b then [.touch] else []) t qs := by
  cases b
  · simpa using ho
  · simpa using ho.touch

/-- `finish` after something was sent. -/
theorem finish_none {o : Oracle} {bs : List Bool} {evs evs' : List Event} {l l' : Loop} {h : List Event} {t : Transport} {qs : List Bytes}
    (hf : finish o bs evs none l = (.ok evs', l')) (ho : Orderly (h ++ evs) t qs) (hw : Waiting l.replies t qs) :
    Orderly (h ++ evs') t qs ∧ Waiting l'.replies t qs := by
  obtain ⟨es, h1, rfl, rfl⟩ := finish_ok hf
  rcases serve_ok h1 with ⟨_, rfl, h2⟩ | ⟨_, _, _, h2, _⟩
  · rw [(showLeds_same _).2, h2, grant_replies]
    refine ⟨?_, hw⟩
    have := orderly_touch (bs.any id) ho
    simpa using this
  · cases h2

theorem finish_some {o : Oracle} {bs : List Bool} {evs' : List Event} {x : Option (Transport × Bytes)} {l l' : Loop} {h : List Event}
    {t : Transport} (hf : finish o bs [] x l = (.ok evs', l')) (ho : Orderly h t []) (hw : Waiting l.replies t []) :
    ∃ t qs, Orderly (h ++ evs') t qs ∧ Waiting l'.replies t qs := by
  obtain ⟨es, h1, rfl, rfl⟩ := finish_ok hf
  have ho' := orderly_touch (bs.any id) ho
  rw [(showLeds_same _).2]
  rcases serve_ok h1 with ⟨_, rfl, h2⟩ | ⟨t', p, it, _, _, rfl, _, h2⟩
  · refine ⟨t, [], by simpa using ho', ?_⟩
    rw [h2, grant_replies]
    exact hw
  · refine ⟨t', it.rest, ?_, ?_⟩
    · have := Orderly.packet t' p it.rest ho'
      simpa [List.append_assoc] using this
    · rw [h2, grant_replies]
      cases hd : it.hasData
      · rw [rest_of_hasData hd]
        simpa using waiting_any hw t'
      · simpa using waiting_set hw t' it

theorem run_orderly {h : List Event} {l : Loop} (hr : Run h l) : ∃ t qs, Orderly h t qs ∧ Waiting l.replies t qs := by
  induction hr with
  | boot d h => exact ⟨.main, [], .start _, rfl, fun t _ => by cases t <;> rfl⟩
  | @turn h l l' evs x hr hx ht ih =>
    obtain ⟨t, qs, ho, hw⟩ := ih
    unfold turn at ht
    cases hb : x.buttons with
    | none => rw [hb] at ht; simp at ht
    | some bs =>
      rw [hb] at ht
      simp only at ht
      cases hn : l.replies.nextPacket with
      | some r =>
        obtain ⟨⟨u, p⟩, rs⟩ := r
        obtain ⟨rfl, qs', rfl, hw'⟩ := nextPacket_some hw hn
        rw [hn] at ht
        simp only at ht
        cases hs : x.send with
        | sent =>
          rw [hs] at ht
          exact ⟨_, _, finish_none ht ho.sent hw'⟩
        | timeout =>
          rw [hs] at ht
          refine ⟨_, _, finish_none ht ho.lost ?_⟩
          refine ⟨by cases u <;> rfl, fun t' ht' => ?_⟩
          rw [← hw'.2 t' ht']
          cases u <;> cases t' <;> first | exact absurd rfl ht' | rfl
        | fail => rw [hs] at ht; simp at ht
      | none =>
        obtain rfl := nextPacket_none hw hn
        rw [hn] at ht
        simp only at ht
        cases hs : x.recv with
        | received e p => rw [hs] at ht; exact finish_some ht ho hw
        | timeout => rw [hs] at ht; exact finish_some ht ho hw
        | fail => rw [hs] at ht; simp at ht

end Verif.Main
