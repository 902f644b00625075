import Verif.Hid.Spec
import Verif.Utf8
namespace Verif.Hid

theorem psp_init {cid data : Bytes} {b0 b1 b2 : UInt8} (hc : cid.length = 4) (hb : b0.toNat ≥ 128) :
    processSinglePacket (cid ++ [b0, b1, b2] ++ data) =
      (cid, .init (b0.toNat % 128) (b1.toNat * 256 + b2.toNat) data) := by
  rcases cid with _ | ⟨c0, _ | ⟨c1, _ | ⟨c2, _ | ⟨c3, _ | ⟨c4, cs⟩⟩⟩⟩⟩ <;> simp at hc
  simp [processSinglePacket, hb]

theorem psp_cont {cid data : Bytes} {b : UInt8} (hc : cid.length = 4) (hb : b.toNat < 128) :
    processSinglePacket (cid ++ [b] ++ data) = (cid, .cont b.toNat data) := by
  rcases cid with _ | ⟨c0, _ | ⟨c1, _ | ⟨c2, _ | ⟨c3, _ | ⟨c4, cs⟩⟩⟩⟩⟩ <;> simp at hc
  have : ¬ (b.toNat ≥ 128) := by omega
  simp [processSinglePacket, this]

theorem psp_cases {p : Bytes} (hp : p.length = 64) :
    (∃ cmd len data, processSinglePacket p = (p.take 4, .init cmd len data) ∧ IsInit p (p.take 4) cmd len data) ∨
    (∃ seq data, processSinglePacket p = (p.take 4, .cont seq data) ∧ IsCont p (p.take 4) seq data) := by
  rcases p with _ | ⟨c0, _ | ⟨c1, _ | ⟨c2, _ | ⟨c3, _ | ⟨b0, _ | ⟨b1, _ | ⟨b2, r⟩⟩⟩⟩⟩⟩⟩ <;> simp at hp
  by_cases h : b0.toNat ≥ 128
  · left
    refine ⟨_, _, _, psp_init (cid := [c0, c1, c2, c3]) (b1 := b1) (b2 := b2) (data := r) rfl h, b0, b1, b2, rfl, rfl, by omega, ?_, rfl⟩
    have := b0.toNat_lt; omega
  · right
    refine ⟨_, _, psp_cont (cid := [c0, c1, c2, c3]) (b := b0) (data := b1 :: b2 :: r) rfl (by omega), b0, rfl, rfl, by simp; omega, rfl, by omega⟩

/-- What a call of the assembler can do. -/
inductive StepKind (maxMsg now : Nat) (a : Asm) (p : Bytes) : Asm → Except (Bytes × Err) (Option Message) → Prop
  | same (e) : StepKind maxMsg now a p a (.error e)
  | reset (e) : StepKind maxMsg now a p Asm.default (.error e)
  | start (b : Asm) (cmd len data) (hi : IsInit p (p.take 4) cmd len data) (hl : len ≤ maxMsg)
      (hb : b.payload = []) (hc : b.cid = p.take 4) (ht : b.timer = some (now + 100))
      (hcmd : b.cmd = cmd) (hs : b.seq = 0) (hr : b.remaining = len) :
      StepKind maxMsg now a p (b.appendPayload data).1 (.ok (b.appendPayload data).2)
  | more (data) (hidle : a.idle = false) (hi : IsCont p (p.take 4) a.seq data) (hc : a.cid = p.take 4)
      (ht : a.timer.isElapsed now = false) :
      StepKind maxMsg now a p ({ a with timer := some (now + 100), seq := a.seq + 1 }.appendPayload data).1
        (.ok ({ a with timer := some (now + 100), seq := a.seq + 1 }.appendPayload data).2)

theorem parseInit_kind {maxMsg now : Nat} {a b : Asm} {p : Bytes} {cmd len : Nat} {data : Bytes}
    (hi : IsInit p (p.take 4) cmd len data) (hb : b.payload = []) (hs : b = a ∨ b = Asm.default) :
    StepKind maxMsg now a p (b.parseInit maxMsg now (p.take 4) cmd len data).1
      (b.parseInit maxMsg now (p.take 4) cmd len data).2 := by
  unfold Asm.parseInit
  split
  · rcases hs with rfl | rfl
    · exact .same _
    · exact .reset _
  · exact .start _ cmd len data hi (by omega) (by simpa using hb) rfl rfl rfl rfl rfl

theorem parse_kind {maxMsg now : Nat} {a : Asm} {p : Bytes} {l : Option Bytes} (hp : p.length = 64)
    (ha : a.idle = true → a.payload = []) :
    StepKind maxMsg now a p (a.parsePacket maxMsg now p l).1 (a.parsePacket maxMsg now p l).2 := by
  unfold Asm.parsePacket
  by_cases hlk : lockedOut l (processSinglePacket p).1 = true
  · simp only [hlk, if_true]; exact .same _
  have hd : Asm.default.idle = true := rfl
  have hd' : Asm.default.payload = [] := rfl
  rcases psp_cases hp with ⟨cmd, len, data, h1, h2⟩ | ⟨seq, data, h1, h2⟩
  all_goals
    rw [h1] at hlk ⊢
    have hin := fun (b : Asm) (cmd len : Nat) (data : Bytes) => @parseInit_kind maxMsg now a b p cmd len data
    have hmo := fun data => @StepKind.more maxMsg now a p data
    generalize p.take 4 = c at *
    simp only [hlk]
  · cases hidle : a.idle
    · cases hel : a.timer.isElapsed now
      · by_cases hcid : c = a.cid
        · by_cases hcmd : cmd = Cmd.init.toNat
          · simp [hidle, hel, hcid.symm, hcmd]
            rw [← hcmd]
            exact hin _ _ _ _ h2 hd' (.inr rfl)
          · simp [hidle, hel, hcid.symm, hcmd]
            exact .reset _
        · simp [hidle, hel, hcid]
          exact .same _
      · by_cases hcid : c = a.cid
        · simp [hidle, hel, hcid.symm]
          exact .reset _
        · simp [hidle, hel, hcid, hd]
          exact hin _ _ _ _ h2 hd' (.inr rfl)
    · simp [hidle]
      exact hin _ _ _ _ h2 (ha hidle) (.inl rfl)
  · cases hidle : a.idle
    · cases hel : a.timer.isElapsed now
      · by_cases hcid : c = a.cid
        · by_cases hseq : seq = a.seq
          · simp [hidle, hel, hcid.symm, hseq]
            subst hseq
            have := hmo data hidle h2 hcid.symm hel
            simpa [makeTimer, timeoutMs, hidle, hcid] using this
          · simp [hidle, hel, hcid.symm, hseq]
            exact .reset _
        · simp [hidle, hel, hcid]
          exact .same _
      · by_cases hcid : c = a.cid
        · simp [hidle, hel, hcid.symm]
          exact .reset _
        · simp [hidle, hel, hcid, hd]
          exact .reset _
    · simp [hidle]
      exact .same _

theorem filter_acc_append (l1 l2 : List Ev) : (l1 ++ l2).filter Ev.accepted = l1.filter Ev.accepted ++ l2.filter Ev.accepted := by simp

/-- Extending a sequence by the next continuation packet. -/
theorem Sequence.snoc {acc : List Ev} {cid : Bytes} {cmd len : Nat} {bytes data : Bytes} {e : Ev} {seq : Nat}
    (h : Sequence acc cid cmd len bytes) (hs : acc.length = seq + 1) (hc : IsCont e.packet cid seq data)
    (ht : ∀ hne : acc ≠ [], e.time < (acc.getLast hne).time + 100) :
    Sequence (acc ++ [e]) cid cmd len (bytes ++ data) := by
  obtain ⟨⟨e0, es, data0, datas, rfl, hi, hl, hcs, rfl⟩, htm⟩ := h
  refine ⟨⟨e0, es ++ [e], data0, datas ++ [data], by simp, hi, by simp [hl], ?_, by simp⟩, ?_⟩
  · intro i h1 h2
    simp at hs
    by_cases hi' : i < es.length
    · rw [List.getElem_append_left hi', List.getElem_append_left (by omega)]
      exact hcs i hi' (by omega)
    · have : i = seq := by simp at h1; omega
      subst this
      rw [List.getElem_append_right (by omega), List.getElem_append_right (by omega)]
      simpa [hs, hl] using hc
  · intro i h1
    by_cases hi' : i + 1 < (e0 :: es).length
    · rw [List.getElem_append_left hi', List.getElem_append_left (by omega)]
      exact htm i hi'
    · have hil : i + 1 = (e0 :: es).length := by simp at h1 hi' ⊢; omega
      rw [List.getElem_append_right (by omega), List.getElem_append_left (by omega)]
      have := ht (by simp)
      rw [List.getLast_eq_getElem] at this
      simp only [hil, Nat.sub_self, List.getElem_cons_zero]
      have h3 : (e0 :: es).length - 1 = i := by omega
      simpa only [h3] using this

/-- What the assembler knows about the past. -/
structure Ghost (maxMsg : Nat) (h : List Ev) (a : Asm) : Prop where
  idle : a.idle = true → a.payload = []
  busy : a.idle = false → ∃ pre mid len, h = pre ++ mid ∧
    Sequence (mid.filter Ev.accepted) a.cid a.cmd len a.payload ∧
    (mid.filter Ev.accepted).length = a.seq + 1 ∧
    a.payload.length + a.remaining = len ∧ 0 < a.remaining ∧ len ≤ maxMsg ∧
    (∀ hne : mid.filter Ev.accepted ≠ [], a.timer = some (((mid.filter Ev.accepted).getLast hne).time + 100))

theorem Ghost.init (maxMsg : Nat) : Ghost maxMsg [] Asm.default := ⟨fun _ => rfl, fun h => by simp [Asm.default] at h⟩

/-- One step keeps the ghost knowledge, and a delivered message is explained by it. -/
theorem Ghost.step {maxMsg : Nat} {h : List Ev} {a : Asm} (g : Ghost maxMsg h a) (now : Nat) {p : Bytes} (l : Option Bytes)
    (hp : p.length = 64) :
    Ghost maxMsg (h ++ [⟨now, p, (a.parsePacket maxMsg now p l).2⟩]) (a.parsePacket maxMsg now p l).1 ∧
    ∀ m, (a.parsePacket maxMsg now p l).2 = .ok (some m) →
      ∃ pre mid cmd bytes, h ++ [⟨now, p, (a.parsePacket maxMsg now p l).2⟩] = pre ++ mid ∧
        Sequence (mid.filter Ev.accepted) m.cid cmd m.payload.length bytes ∧
        m.cmd = Cmd.ofByte cmd ∧ m.payload = bytes.take m.payload.length ∧ m.payload.length ≤ bytes.length ∧
        m.payload.length ≤ maxMsg ∧
        (∀ hne : mid.filter Ev.accepted ≠ [], ((mid.filter Ev.accepted).getLast hne).packet = p) := by
  have k := parse_kind (maxMsg := maxMsg) (now := now) (l := l) hp g.idle
  generalize (a.parsePacket maxMsg now p l).1 = a' at *
  generalize (a.parsePacket maxMsg now p l).2 = r at *
  cases k with
  | same e =>
    refine ⟨⟨g.idle, fun hb => ?_⟩, fun m hm => by simp at hm⟩
    obtain ⟨pre, mid, len, h1, h2⟩ := g.busy hb
    refine ⟨pre, mid ++ [⟨now, p, .error e⟩], len, by simp [h1], ?_⟩
    have : (mid ++ [(⟨now, p, .error e⟩ : Ev)]).filter Ev.accepted = mid.filter Ev.accepted := by
      simp [Ev.accepted]
    rw [this]
    exact h2
  | reset e => exact ⟨⟨fun _ => rfl, fun hb => by simp [Asm.default] at hb⟩, fun m hm => by simp at hm⟩
  | start b cmd len data hi hl hb hc ht hcmd hs hr =>
    obtain ⟨b0, b1, b2, hpk, hcl, hdl, _⟩ := hi
    have hi : IsInit p (p.take 4) cmd len data := ⟨b0, b1, b2, hpk, hcl, hdl, ‹_›⟩
    have hseq : ∀ r, Sequence ([⟨now, p, r⟩]) (p.take 4) cmd len data := by
      intro r
      refine ⟨⟨_, [], data, [], rfl, hi, rfl, by simp, by simp⟩, by simp⟩
    unfold Asm.appendPayload
    split
    · refine ⟨⟨fun hh => by simp at hh, fun _ => ?_⟩, fun m hm => by simp at hm⟩
      refine ⟨h, [⟨now, p, .ok none⟩], len, by simp, ?_⟩
      have : ([⟨now, p, .ok none⟩] : List Ev).filter Ev.accepted = [⟨now, p, .ok none⟩] := by simp [Ev.accepted]
      rw [this]
      simp only [hb, hc, hcmd, hs, List.nil_append, List.length_singleton, ht, List.getLast_singleton]
      refine ⟨hseq _, by simp, ?_, ?_, hl, by simp⟩ <;> omega
    · rename_i hlt
      refine ⟨⟨fun hh => rfl, fun hh => by simp at hh⟩, fun m hm => ?_⟩
      simp only [Except.ok.injEq, Option.some.injEq] at hm
      have hml : m.payload.length = len := by subst hm; simp [hb]; omega
      generalize hr' : (Except.ok (some _) : Except (Bytes × Err) (Option Message)) = r'
      refine ⟨h, [⟨now, p, r'⟩], cmd, data, by simp, ?_⟩
      have : ([⟨now, p, r'⟩] : List Ev).filter Ev.accepted = [⟨now, p, r'⟩] := by simp [Ev.accepted, ← hr']
      rw [this, hml]
      subst hm
      simp only [hb, hc, hcmd, List.nil_append, hr]
      refine ⟨hseq _, by simp, by simp, ?_, hl, by simp⟩; omega
  | more data hidle hi hc ht =>
    obtain ⟨pre, mid, len, h1, h2, h3, h4, h5, h6, h7⟩ := g.busy hidle
    have hne : mid.filter Ev.accepted ≠ [] := by intro h0; rw [h0] at h3; simp at h3
    have htime : ∀ r : Except (Bytes × Err) (Option Message), ∀ hne : mid.filter Ev.accepted ≠ [],
        (Ev.mk now p r).time < ((mid.filter Ev.accepted).getLast hne).time + 100 := by
      intro r hne
      rw [h7 hne] at ht
      simp only [Timer.isElapsed, decide_eq_false_iff_not, Nat.not_le] at ht
      exact ht
    have hseq : ∀ r, Sequence (mid.filter Ev.accepted ++ [⟨now, p, r⟩]) a.cid a.cmd len (a.payload ++ data) :=
      fun r => Sequence.snoc h2 h3 (by rw [hc]; exact hi) (htime r)
    unfold Asm.appendPayload
    split
    · rename_i hlt
      simp only at hlt
      refine ⟨⟨fun hh => by simp at hh, fun _ => ?_⟩, fun m hm => by simp at hm⟩
      refine ⟨pre, mid ++ [⟨now, p, .ok none⟩], len, by simp [h1], ?_⟩
      have : (mid ++ [(⟨now, p, .ok none⟩ : Ev)]).filter Ev.accepted = mid.filter Ev.accepted ++ [⟨now, p, .ok none⟩] := by
        simp [Ev.accepted]
      rw [this]
      refine ⟨hseq _, by simp [h3], by simp; omega, by simp; omega, h6, ?_⟩
      simp
    · rename_i hlt
      simp only at hlt
      refine ⟨⟨fun hh => rfl, fun hh => by simp at hh⟩, fun m hm => ?_⟩
      simp only [Except.ok.injEq, Option.some.injEq] at hm
      have hml : m.payload.length = len := by subst hm; simp; omega
      generalize hr' : (Except.ok (some _) : Except (Bytes × Err) (Option Message)) = r'
      refine ⟨pre, mid ++ [⟨now, p, r'⟩], a.cmd, a.payload ++ data, by simp [h1], ?_⟩
      have : (mid ++ [(⟨now, p, r'⟩ : Ev)]).filter Ev.accepted = mid.filter Ev.accepted ++ [⟨now, p, r'⟩] := by
        simp [Ev.accepted, ← hr']
      rw [this, hml]
      subst hm
      refine ⟨hseq _, rfl, ?_, ?_, h6, by simp⟩
      · simp only
        rw [List.take_append, List.take_of_length_le (l := a.payload) (by omega)]
        have : len - a.payload.length = a.remaining := by omega
        rw [this]
      · simp; omega

/-- Assembler state after a list of packets. -/
def runAsm (maxMsg : Nat) : Asm → List (Nat × Bytes × Option Bytes) → Asm
  | a, [] => a
  | a, (t, p, l) :: rest => runAsm maxMsg (a.parsePacket maxMsg t p l).1 rest

theorem log_append (maxMsg : Nat) (a : Asm) (xs ys : List (Nat × Bytes × Option Bytes)) :
    log maxMsg a (xs ++ ys) = log maxMsg a xs ++ log maxMsg (runAsm maxMsg a xs) ys := by
  induction xs generalizing a with
  | nil => rfl
  | cons x xs ih => obtain ⟨t, p, l⟩ := x; simp [log, runAsm, ih]

theorem runAsm_append (maxMsg : Nat) (a : Asm) (xs ys : List (Nat × Bytes × Option Bytes)) :
    runAsm maxMsg a (xs ++ ys) = runAsm maxMsg (runAsm maxMsg a xs) ys := by
  induction xs generalizing a with
  | nil => rfl
  | cons x xs ih => obtain ⟨t, p, l⟩ := x; simp [runAsm, ih]

theorem ghost_run (maxMsg : Nat) (xs : List (Nat × Bytes × Option Bytes)) {h : List Ev} {a : Asm} (g : Ghost maxMsg h a)
    (hp : ∀ x ∈ xs, x.2.1.length = 64) :
    Ghost maxMsg (h ++ log maxMsg a xs) (runAsm maxMsg a xs) := by
  induction xs generalizing h a with
  | nil => simpa [log, runAsm] using g
  | cons x xs ih =>
    obtain ⟨t, p, l⟩ := x
    have h1 := (g.step t l (hp (t, p, l) (by simp))).1
    have := ih h1 (fun x hx => hp x (by simp [hx]))
    simpa [log, runAsm] using this

end Verif.Hid
