import Verif.Hid.Lemmas2
namespace Verif.Hid
open Verif.Utf8 (toNat_ofNat)

theorem feed_all {maxMsg : Nat} {l : Option Bytes} {m : Message} {a : Asm} {ps : List Bytes} (hc : m.cid.length = 4)
    (hmax : m.payload.length ≤ maxMsg) (hs : split m = some ps)
    (ha : a.idle = true) (hap : a.payload = []) (hl : lockedOut l m.cid = false)
    (t0 : Nat) (p0 : Bytes) (rest : List (Nat × Bytes)) (hfirst : onChannel m.cid p0 = true)
    (hown : (((t0, p0) :: rest).filter (fun e => onChannel m.cid e.2)).map (·.2) = ps)
    (hlast : ∀ e, ((t0, p0) :: rest).getLast? = some e → onChannel m.cid e.2 = true)
    (hin : inTime m.cid t0 rest) :
    delivered (log maxMsg a (withLock l ((t0, p0) :: rest))) = [m] ∧
    (runAsm maxMsg a (withLock l ((t0, p0) :: rest))).idle = true ∧
    (runAsm maxMsg a (withLock l ((t0, p0) :: rest))).payload = [] ∧
    ∀ e ∈ log maxMsg a (withLock l ((t0, p0) :: rest)), onChannel m.cid e.packet = false →
      e.result = .error (e.packet.take 4, .channelBusy) := by
  have hlen : m.payload.length ≤ 7609 := by
    unfold split Splitter.new at hs
    split at hs
    · simp at hs
    · omega
  obtain ⟨s, hsm, hss, hsp, hsi, hsplit⟩ := split_eq hc hlen
  rw [hsplit] at hs
  simp only [Option.some.injEq] at hs
  subst hs
  simp only [List.filter_cons, hfirst, if_true, List.map_cons, List.cons.injEq] at hown
  obtain ⟨rfl, hrest⟩ := hown
  have hcmd : m.cmd.toNat < 128 := by cases m.cmd <;> decide
  have hst := parse_own_init (maxMsg := maxMsg) (t := t0) (a := a) (l := l) ha (isInit_initPacket hc hlen) hcmd hmax hl
  by_cases hmore : 57 < m.payload.length
  · have happ : ({ a with cid := m.cid, timer := some (t0 + 100), cmd := m.cmd.toNat, seq := 0, remaining := m.payload.length } : Asm).appendPayload
        (m.payload.take 57 ++ List.replicate (57 - m.payload.length) 0) =
        ({ idle := false, cid := m.cid, timer := some (t0 + 100), cmd := m.cmd.toNat, seq := 0,
           remaining := m.payload.length - s.i, payload := m.payload.take s.i }, none) := by
      unfold Asm.appendPayload
      have h0 : 57 - m.payload.length = 0 := by omega
      have h1 : min 57 m.payload.length = 57 := by omega
      simp [h0, h1, hmore, hap, hsi]
    rw [happ] at hst
    have hrec := feed_cont (maxMsg := maxMsg) (l := l) hc hlen hl rest (m.payload.length + 1) s 0 t0 _ hsm hss hsp
      (by omega) (by omega) (by omega) rfl hrest (fun e he => hlast e (by cases rest <;> simp_all)) hin
    simp only [withLock, List.map_cons, log, runAsm, hst, delivered] at hrec ⊢
    refine ⟨by simpa using hrec.1, hrec.2.1, hrec.2.2.1, ?_⟩
    intro e he hoff
    rcases List.mem_cons.mp he with rfl | he
    · simp [hfirst] at hoff
    · exact hrec.2.2.2 e he hoff
  · have hdone : s.collect (m.payload.length + 1) = [] := by
      simp only [Splitter.collect, next_done hss (by rw [hsm, hsi]; omega)]
    have hr : rest = [] := by
      rcases hrl : rest.getLast? with _ | e
      · simpa using hrl
      · exfalso
        have h1 := hlast e (by cases rest <;> simp_all)
        have h2 : e ∈ rest := List.mem_of_getLast? hrl
        have h3 : e.2 ∈ s.collect (m.payload.length + 1) := by
          rw [← hrest]; exact List.mem_map.mpr ⟨e, List.mem_filter.mpr ⟨h2, h1⟩, rfl⟩
        rw [hdone] at h3
        simp at h3
    subst hr
    have happ : ({ a with cid := m.cid, timer := some (t0 + 100), cmd := m.cmd.toNat, seq := 0, remaining := m.payload.length } : Asm).appendPayload
        (m.payload.take 57 ++ List.replicate (57 - m.payload.length) 0) =
        ({ a with cid := m.cid, timer := some (t0 + 100), cmd := m.cmd.toNat, seq := 0, remaining := m.payload.length, payload := [], idle := true }, some m) := by
      unfold Asm.appendPayload
      have h1 : ¬ (m.payload.length + (57 - m.payload.length) < m.payload.length) := by omega
      have h2 : m.payload.take 57 = m.payload := List.take_of_length_le (by omega)
      simp only [h2, List.length_append, List.length_replicate, h1, if_false, hap, cmd_ofByte_toNat, List.nil_append]
      rw [List.take_append_of_le_length (Nat.le_refl _), List.take_length]
    rw [happ] at hst
    simp only [withLock, List.map_cons, List.map_nil, log, runAsm, hst, delivered]
    refine ⟨by simp, trivial, trivial, ?_⟩
    intro e he hoff
    simp at he
    subst he
    simp [hfirst] at hoff

/-! ### Whole transports -/

theorem parse_ok_cid {maxMsg now : Nat} {a : Asm} {p : Bytes} {l : Option Bytes} {m : Message} (hp : p.length = 64)
    (ha : a.idle = true → a.payload = []) (h : (a.parsePacket maxMsg now p l).2 = .ok (some m)) : m.cid = p.take 4 := by
  have k := parse_kind (maxMsg := maxMsg) (now := now) (l := l) hp ha
  generalize (a.parsePacket maxMsg now p l).1 = a' at *
  generalize (a.parsePacket maxMsg now p l).2 = r at *
  cases k with
  | same e => simp at h
  | reset e => simp at h
  | start b cmd len data hi hl hb hc ht hcmd hs hr =>
    unfold Asm.appendPayload at h
    split at h
    · simp at h
    · simp at h; subst h; exact hc
  | more data hidle hi hc ht =>
    unfold Asm.appendPayload at h
    split at h
    · simp at h
    · simp at h; subst h; exact hc

theorem parseInit_idle {maxMsg now : Nat} {b : Asm} {cid : Bytes} {cmd len : Nat} {data : Bytes}
    (hb : b.idle = true → b.payload = []) :
    (b.parseInit maxMsg now cid cmd len data).1.idle = true → (b.parseInit maxMsg now cid cmd len data).1.payload = [] := by
  unfold Asm.parseInit Asm.appendPayload
  split
  · exact hb
  · simp only
    split <;> simp

theorem parse_idle {maxMsg now : Nat} {a : Asm} {p : Bytes} {l : Option Bytes} (ha : a.idle = true → a.payload = []) :
    (a.parsePacket maxMsg now p l).1.idle = true → (a.parsePacket maxMsg now p l).1.payload = [] := by
  have hd : Asm.default.idle = true → Asm.default.payload = [] := fun _ => rfl
  have ha' : (if (!a.idle && a.timer.isElapsed now) = true then Asm.default else a).idle = true →
      (if (!a.idle && a.timer.isElapsed now) = true then Asm.default else a).payload = [] := by
    split
    · exact hd
    · exact ha
  unfold Asm.parsePacket
  dsimp only
  generalize (if (!a.idle && a.timer.isElapsed now) = true then Asm.default else a) = b at *
  split
  · exact ha
  split
  · exact ha'
  split
  · split
    · exact parseInit_idle ha'
    · exact ha'
  split
  · exact ha'
  split
  · split
    · exact parseInit_idle hd
    · exact hd
  · split
    · exact hd
    · unfold Asm.appendPayload
      dsimp only
      split <;> simp_all

theorem parse_err_cid {maxMsg now : Nat} {a : Asm} {p c : Bytes} {e : Err} {l : Option Bytes}
    (h : (a.parsePacket maxMsg now p l).2 = .error (c, e)) : c = p.take 4 := by
  unfold Asm.parsePacket Asm.parseInit at h
  simp only [psp_fst] at h
  repeat' split at h
  all_goals first | (simp at h; done) | (simp at h; exact h.1.symm)

theorem natToCid_toNat {n : Nat} (h : n < 2 ^ 32) : cidToNat (natToCid n) = n := by
  simp [cidToNat, natToCid]
  omega

theorem cid_natToCid {c : Bytes} (h : c.length = 4) : natToCid (cidToNat c) = c := by
  rcases c with _ | ⟨c0, _ | ⟨c1, _ | ⟨c2, _ | ⟨c3, _ | ⟨c4, cs⟩⟩⟩⟩⟩ <;> simp at h
  have h0 := c0.toNat_lt; have h1 := c1.toNat_lt; have h2 := c2.toNat_lt; have h3 := c3.toNat_lt
  simp only [cidToNat, natToCid, List.foldl_cons, List.foldl_nil, List.cons.injEq, and_true]
  refine ⟨?_, ?_, ?_, ?_⟩ <;> apply UInt8.toNat.inj <;> rw [toNat_ofNat _ (by omega)] <;> omega

theorem natToCid_length (n : Nat) : (natToCid n).length = 4 := rfl

/-- Effect of `preprocess` on the channel counter. -/
theorem preprocess_alloc (now : Nat) (h : Hid) (m : Message) :
    ((h.preprocess now m).1.allocated = h.allocated ∧ handedOut [(h.preprocess now m).2] = []) ∨
    ((h.preprocess now m).1.allocated = h.allocated + 1 ∧
      handedOut [(h.preprocess now m).2] = [natToCid (h.allocated + 1)]) := by
  by_cases hv : h.hasValidChannel m = true
  rotate_left
  · left; simp [Hid.preprocess, hv, handedOut, errorMessage]
  cases hc : m.cmd with
  | init =>
    by_cases h8 : m.payload.length = 8
    · by_cases hb : m.cid = channelBroadcast
      · right
        simp [Hid.preprocess, hv, hc, h8, hb, handedOut, channelBroadcast, natToCid]
      · left
        have : m.cid ≠ [255, 255, 255, 255] := hb
        simp [Hid.preprocess, hv, hc, h8, hb, handedOut, this]
    · left; simp [Hid.preprocess, hv, hc, h8, handedOut, errorMessage]
  | lock =>
    left
    simp only [Hid.preprocess, hv, hc]
    split
    · simp_all
    · split
      · split <;> (try split) <;> simp [handedOut, errorMessage]
      · simp [handedOut, errorMessage]
  | _ => left; simp [Hid.preprocess, hv, hc, handedOut, errorMessage]

theorem preprocess_asm (now : Nat) (h : Hid) (m : Message) : (h.preprocess now m).1.asm = h.asm := by
  unfold Hid.preprocess
  repeat' split
  all_goals (try rfl)
  all_goals (dsimp only; split <;> rfl)

theorem lockedChannel_fields (now : Nat) (h : Hid) :
    (h.lockedChannel now).1.asm = h.asm ∧ (h.lockedChannel now).1.allocated = h.allocated ∧
    (h.lockedChannel now).1.lockTimer = h.lockTimer ∧ (h.lockedChannel now).1.locked = (h.lockedChannel now).2 := by
  unfold Hid.lockedChannel
  dsimp only
  split <;> simp

/-- The state with which the assembler is called. -/
def Hid.pre (now : Nat) (h : Hid) (disabled : Bool) : Hid × Option Bytes :=
  if disabled then (h, some channelReserved) else h.lockedChannel now

theorem pre_fields (now : Nat) (h : Hid) (d : Bool) :
    (h.pre now d).1.asm = h.asm ∧ (h.pre now d).1.allocated = h.allocated ∧ (h.pre now d).1.lockTimer = h.lockTimer := by
  unfold Hid.pre
  split
  · simp
  · have := lockedChannel_fields now h; exact ⟨this.1, this.2.1, this.2.2.1⟩

/-- Shape of `parsePacket`. -/
theorem hid_parse_cases (maxMsg now : Nat) (h : Hid) (p : Bytes) (d : Bool) :
    ∃ h2 : Hid, h2.allocated = h.allocated ∧ h2.asm = (h.asm.parsePacket maxMsg now p (h.pre now d).2).1 ∧
      h2.locked = (h.pre now d).1.locked ∧ h2.lockTimer = h.lockTimer ∧
      ((∃ m, (h.asm.parsePacket maxMsg now p (h.pre now d).2).2 = .ok (some m) ∧
          h.parsePacket maxMsg now p d = h2.preprocess now m) ∨
       ((∀ m, (h.asm.parsePacket maxMsg now p (h.pre now d).2).2 ≠ .ok (some m)) ∧ (h.parsePacket maxMsg now p d).1 = h2 ∧
          ((h.parsePacket maxMsg now p d).2 = none ∨ ∃ c e, (h.parsePacket maxMsg now p d).2 = some (errorMessage c e)))) := by
  have hf := pre_fields now h d
  unfold Hid.parsePacket
  change ∃ h2 : Hid, _ ∧ _ ∧ _ ∧ _ ∧ _
  have hpre : (if d = true then (h, some channelReserved) else h.lockedChannel now) = h.pre now d := rfl
  dsimp only
  rw [hpre]
  refine ⟨{ (h.pre now d).1 with asm := ((h.pre now d).1.asm.parsePacket maxMsg now p (h.pre now d).2).1 }, hf.2.1, by rw [hf.1], rfl, hf.2.2, ?_⟩
  rw [hf.1]
  cases hr : (h.asm.parsePacket maxMsg now p (h.pre now d).2).2 with
  | ok o =>
    cases o with
    | none => right; simp
    | some m => left; exact ⟨m, rfl, rfl⟩
  | error ce =>
    right
    obtain ⟨c, e⟩ := ce
    dsimp only
    refine ⟨by simp, ?_⟩
    split
    · simp
    · split
      · exact ⟨rfl, .inr ⟨_, _, rfl⟩⟩
      · exact ⟨rfl, .inr ⟨_, _, rfl⟩⟩

theorem handedOut_cons (o : Option Message) (os : List (Option Message)) :
    handedOut (o :: os) = handedOut [o] ++ handedOut os := by
  simp only [handedOut, List.filterMap_cons, List.filterMap_nil]
  split <;> simp

theorem handedOut_none : handedOut [none] = [] := rfl
theorem handedOut_err (c : Bytes) (e : Err) : handedOut [some (errorMessage c e)] = [] := by
  simp [handedOut, errorMessage]

theorem hid_step_alloc (maxMsg now : Nat) (h : Hid) (p : Bytes) (d : Bool) :
    ((h.parsePacket maxMsg now p d).1.allocated = h.allocated ∧ handedOut [(h.parsePacket maxMsg now p d).2] = []) ∨
    ((h.parsePacket maxMsg now p d).1.allocated = h.allocated + 1 ∧
      handedOut [(h.parsePacket maxMsg now p d).2] = [natToCid (h.allocated + 1)]) := by
  obtain ⟨h2, ha, _, _, _, ⟨m, _, hm⟩ | ⟨_, h1, h3⟩⟩ := hid_parse_cases maxMsg now h p d
  · rw [hm, ← ha]; exact preprocess_alloc now h2 m
  · left
    refine ⟨by rw [h1, ha], ?_⟩
    rcases h3 with h3 | ⟨c, e, h3⟩ <;> rw [h3]
    · rfl
    · exact handedOut_err c e

theorem handedOut_log (maxMsg : Nat) (h : Hid) (xs : List (Nat × Bytes × Bool)) :
    ∃ n, handedOut (hidLog maxMsg h xs) = (List.range' (h.allocated + 1) n).map natToCid ∧
      (hidRun maxMsg h xs).allocated = h.allocated + n := by
  induction xs generalizing h with
  | nil => exact ⟨0, rfl, rfl⟩
  | cons x xs ih =>
    obtain ⟨t, p, d⟩ := x
    obtain ⟨n, h1, h2⟩ := ih (h.parsePacket maxMsg t p d).1
    simp only [hidLog, hidRun]
    rw [handedOut_cons]
    rcases hid_step_alloc maxMsg t h p d with ⟨h3, h4⟩ | ⟨h3, h4⟩
    · exact ⟨n, by rw [h4, h1, h3]; rfl, by rw [h2, h3]⟩
    · refine ⟨n + 1, ?_, by rw [h2, h3]; omega⟩
      rw [h4, h1, h3]
      simp [List.range'_succ]

theorem hidLog_append (maxMsg : Nat) (h : Hid) (xs ys : List (Nat × Bytes × Bool)) :
    hidLog maxMsg h (xs ++ ys) = hidLog maxMsg h xs ++ hidLog maxMsg (hidRun maxMsg h xs) ys := by
  induction xs generalizing h with
  | nil => rfl
  | cons x xs ih => obtain ⟨t, p, d⟩ := x; simp [hidLog, hidRun, ih]

/-- Only valid channels are served. -/
theorem preprocess_served {now : Nat} {h : Hid} {m m' : Message} (hm : (h.preprocess now m).2 = some m') (he : m'.cmd ≠ .error) :
    m'.cid = m.cid ∧ h.hasValidChannel m = true ∧ (m'.cmd = m.cmd) := by
  by_cases hv : h.hasValidChannel m = true
  rotate_left
  · simp [Hid.preprocess, hv] at hm; subst hm; simp [errorMessage] at he
  refine ⟨?_, hv, ?_⟩
  all_goals
    unfold Hid.preprocess at hm
    simp only [hv, Bool.not_true, Bool.false_eq_true, if_false] at hm
    repeat' split at hm
    all_goals first
      | (simp at hm; done)
      | (simp only [Option.some.injEq] at hm; subst hm; first | rfl | (simp [errorMessage] at he; done) | (simp_all; done))

theorem hidRun_idle {maxMsg : Nat} {h : Hid} (ha : h.asm.idle = true → h.asm.payload = []) (xs : List (Nat × Bytes × Bool)) :
    (hidRun maxMsg h xs).asm.idle = true → (hidRun maxMsg h xs).asm.payload = [] := by
  induction xs generalizing h with
  | nil => exact ha
  | cons x xs ih =>
    obtain ⟨t, p, d⟩ := x
    apply ih
    obtain ⟨h2, _, has, _, _, ⟨m, _, hm⟩ | ⟨_, h1, _⟩⟩ := hid_parse_cases maxMsg t h p d
    · rw [hm, preprocess_asm, has]; exact parse_idle ha
    · rw [h1, has]; exact parse_idle ha

end Verif.Hid
