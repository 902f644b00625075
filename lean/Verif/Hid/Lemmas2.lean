import Verif.Hid.Lemmas
namespace Verif.Hid
open Verif.Utf8 (toNat_ofNat)

/-! ### Splitting -/

theorem consumeData_eq (n : Nat) (data : Bytes) :
    consumeData n data = (data.take n ++ List.replicate (n - data.length) 0, min n data.length) := by
  unfold consumeData
  split
  · rw [List.take_of_length_le (by omega)]; simp; omega
  · have : n - data.length = 0 := by omega
    simp [this]; omega

theorem cmd_toNat_or (c : Cmd) : (UInt8.ofNat (c.toNat ||| 0x80)).toNat = 128 + c.toNat := by
  cases c <;> rfl

theorem cmd_ofByte_toNat (c : Cmd) : Cmd.ofByte c.toNat = c := by cases c <;> rfl

theorem byte_mod (n : Nat) : (UInt8.ofNat (n % 256)).toNat = n % 256 := toNat_ofNat _ (by omega)

/-- The data field of continuation packet at offset `i`. -/
def chunk (payload : Bytes) (i : Nat) : Bytes :=
  (payload.drop i).take 59 ++ List.replicate (59 - (payload.length - i)) 0

theorem chunk_length (payload : Bytes) (i : Nat) : (chunk payload i).length = 59 := by simp [chunk]; omega

theorem next_cont {s : Splitter} {k : Nat} (hs : s.seq = some k) (hp : s.packet.take 4 = s.msg.cid)
    (hc : s.msg.cid.length = 4) (hi : s.i < s.msg.payload.length) :
    ∃ s', s.next = some (s.msg.cid ++ [UInt8.ofNat k] ++ chunk s.msg.payload s.i, s') ∧
      s'.msg = s.msg ∧ s'.seq = some (k + 1) ∧ s'.packet.take 4 = s.msg.cid ∧
      s'.i = s.i + min 59 (s.msg.payload.length - s.i) := by
  unfold Splitter.next
  simp only [hs, hi, if_true, hp, consumeData_eq, List.length_drop, chunk, Option.some.injEq, Prod.mk.injEq]
  refine ⟨_, ⟨by simp, rfl⟩, rfl, rfl, ?_, ?_⟩
  · simp [hc]
  · simp

theorem next_done {s : Splitter} {k : Nat} (hs : s.seq = some k) (hi : ¬ s.i < s.msg.payload.length) : s.next = none := by
  simp [Splitter.next, hs, hi]

/-- The continuation packets. -/
theorem collect_cont (n : Nat) (s : Splitter) (k : Nat) (hs : s.seq = some k) (hp : s.packet.take 4 = s.msg.cid)
    (hc : s.msg.cid.length = 4) (hn : s.msg.payload.length - s.i < n) :
    (s.collect n).length = (s.msg.payload.length - s.i + 58) / 59 ∧
    ∀ j (h : j < (s.collect n).length),
      (s.collect n)[j] = s.msg.cid ++ [UInt8.ofNat (k + j)] ++ chunk s.msg.payload (s.i + 59 * j) := by
  induction n generalizing s k with
  | zero => omega
  | succ n ih =>
    by_cases hi : s.i < s.msg.payload.length
    · obtain ⟨s', hnx, hm, hs', hp', hi'⟩ := next_cont hs hp hc hi
      have hcol : s.collect (n + 1) = (s.msg.cid ++ [UInt8.ofNat k] ++ chunk s.msg.payload s.i) :: s'.collect n := by
        simp only [Splitter.collect, hnx]
      have := ih s' (k + 1) hs' (by rw [hp', hm]) (by rw [hm]; exact hc) (by rw [hm]; omega)
      rw [hcol]
      rw [hm, hi'] at this
      refine ⟨by simp only [List.length_cons]; omega, ?_⟩
      intro j h
      rcases j with _ | j
      · simp
      · simp only [List.getElem_cons_succ]
        rw [this.2 j (by simp at h; omega)]
        have h58 : 59 ≤ s.msg.payload.length - s.i := by
          simp only [List.length_cons] at h; omega
        rw [show k + 1 + j = k + (j + 1) by omega, show s.i + min 59 (s.msg.payload.length - s.i) + 59 * j = s.i + 59 * (j + 1) by omega]
    · have : s.collect (n + 1) = [] := by simp only [Splitter.collect, next_done hs hi]
      rw [this]
      simp
      omega

/-- The initialisation packet. -/
def initPacket (m : Message) : Bytes :=
  m.cid ++ [UInt8.ofNat (m.cmd.toNat ||| 0x80), UInt8.ofNat (m.payload.length / 256 % 256), UInt8.ofNat (m.payload.length % 256)] ++
    (m.payload.take 57 ++ List.replicate (57 - m.payload.length) 0)

theorem split_eq {m : Message} (hc : m.cid.length = 4) (hl : m.payload.length ≤ 7609) :
    ∃ s : Splitter, s.msg = m ∧ s.seq = some 0 ∧ s.packet.take 4 = m.cid ∧ s.i = min 57 m.payload.length ∧
      split m = some (initPacket m :: s.collect (m.payload.length + 1)) := by
  have h4 : (m.cid ++ List.replicate 60 (0 : UInt8)).take 4 = m.cid := by
    rw [List.take_append_of_le_length (by omega), List.take_of_length_le (by omega)]
  refine ⟨{ msg := m, packet := initPacket m, seq := some 0, i := min 57 m.payload.length }, rfl, rfl, ?_, rfl, ?_⟩
  · simp [initPacket, hc]
  · unfold split Splitter.new
    simp only [show ¬ m.payload.length > 7609 by omega, if_false, Option.map_some]
    rw [Splitter.collect]
    simp only [Splitter.next, consumeData_eq, h4]
    rfl

theorem isInit_initPacket {m : Message} (hc : m.cid.length = 4) (hl : m.payload.length ≤ 7609) :
    IsInit (initPacket m) m.cid m.cmd.toNat m.payload.length
      (m.payload.take 57 ++ List.replicate (57 - m.payload.length) 0) := by
  refine ⟨_, _, _, rfl, hc, by simp; omega, cmd_toNat_or _, ?_⟩
  rw [byte_mod, byte_mod]; omega

theorem psp_of_isInit {p cid data : Bytes} {cmd len : Nat} (h : IsInit p cid cmd len data) (hcmd : cmd < 128) :
    processSinglePacket p = (cid, .init cmd len data) := by
  obtain ⟨b0, b1, b2, rfl, hc, _, h0, rfl⟩ := h
  rw [psp_init hc (by omega)]
  rw [h0]; simp; omega

theorem psp_of_isCont {p cid data : Bytes} {seq : Nat} (h : IsCont p cid seq data) :
    processSinglePacket p = (cid, .cont seq data) := by
  obtain ⟨b, rfl, hc, _, h0, h1⟩ := h
  rw [psp_cont hc (by omega), h0]

theorem IsInit.take4 {p cid data : Bytes} {cmd len : Nat} (h : IsInit p cid cmd len data) : p.take 4 = cid := by
  obtain ⟨b0, b1, b2, rfl, hc, _⟩ := h
  simp [hc]

theorem IsCont.take4 {p cid data : Bytes} {seq : Nat} (h : IsCont p cid seq data) : p.take 4 = cid := by
  obtain ⟨b, rfl, hc, _⟩ := h
  simp [hc]

theorem psp_fst {p : Bytes} : (processSinglePacket p).1 = p.take 4 := by
  unfold processSinglePacket; simp only; split <;> rfl

/-! ### Sending and receiving -/

/-- A packet of another channel does not touch a live transaction. -/
theorem parse_foreign {maxMsg t : Nat} {a : Asm} {p : Bytes} {l : Option Bytes} (hb : a.idle = false)
    (hc : p.take 4 ≠ a.cid) (ht : a.timer.isElapsed t = false) :
    a.parsePacket maxMsg t p l = (a, .error (p.take 4, .channelBusy)) := by
  unfold Asm.parsePacket
  simp only [psp_fst]
  by_cases hlk : lockedOut l (p.take 4) = true
  · simp only [hlk, if_true]
  · simp [hlk, hb, ht, hc]

/-- The next continuation packet of the own channel. -/
theorem parse_own_cont {maxMsg t k : Nat} {a : Asm} {p data : Bytes} {l : Option Bytes} (hb : a.idle = false)
    (hp : IsCont p a.cid k data) (hk : a.seq = k) (ht : a.timer.isElapsed t = false)
    (hl : lockedOut l a.cid = false) :
    a.parsePacket maxMsg t p l =
      (({ a with timer := some (t + 100), seq := k + 1 }.appendPayload data).1,
        .ok ({ a with timer := some (t + 100), seq := k + 1 }.appendPayload data).2) := by
  unfold Asm.parsePacket
  simp [psp_of_isCont hp, hb, ht, hl, hk, makeTimer, timeoutMs]

/-- The initialisation packet on an idle assembler. -/
theorem parse_own_init {maxMsg t cmd len : Nat} {a : Asm} {p cid data : Bytes} {l : Option Bytes} (hb : a.idle = true)
    (hp : IsInit p cid cmd len data) (hcmd : cmd < 128) (hm : len ≤ maxMsg) (hl : lockedOut l cid = false) :
    a.parsePacket maxMsg t p l =
      (({ a with cid := cid, timer := some (t + 100), cmd := cmd, seq := 0, remaining := len }.appendPayload data).1,
        .ok ({ a with cid := cid, timer := some (t + 100), cmd := cmd, seq := 0, remaining := len }.appendPayload data).2) := by
  unfold Asm.parsePacket
  simp [psp_of_isInit hp hcmd, hb, hl, Asm.parseInit, makeTimer, timeoutMs, show ¬ len > maxMsg by omega]

/-- The inputs of the assembler for events with a constant lock state. -/
def withLock (l : Option Bytes) (evs : List (Nat × Bytes)) : List (Nat × Bytes × Option Bytes) :=
  evs.map (fun e => (e.1, e.2, l))

theorem feed_cont {maxMsg : Nat} {l : Option Bytes} {m : Message} (hc : m.cid.length = 4) (hlen : m.payload.length ≤ 7609)
    (hl : lockedOut l m.cid = false) (evs : List (Nat × Bytes)) (n : Nat) (s : Splitter) (k last : Nat) (a : Asm)
    (hsm : s.msg = m) (hss : s.seq = some k) (hsp : s.packet.take 4 = m.cid) (hsi : s.i = 57 + 59 * k)
    (hi : s.i < m.payload.length)
    (hn : m.payload.length - s.i < n)
    (ha : a = { idle := false, cid := m.cid, timer := some (last + 100), cmd := m.cmd.toNat, seq := k,
                remaining := m.payload.length - s.i, payload := m.payload.take s.i })
    (hown : (evs.filter (fun e => onChannel m.cid e.2)).map (·.2) = s.collect n)
    (hlast : ∀ e, evs.getLast? = some e → onChannel m.cid e.2 = true)
    (hin : inTime m.cid last evs) :
    delivered (log maxMsg a (withLock l evs)) = [m] ∧
    (runAsm maxMsg a (withLock l evs)).idle = true ∧ (runAsm maxMsg a (withLock l evs)).payload = [] ∧
    ∀ e ∈ log maxMsg a (withLock l evs), onChannel m.cid e.packet = false →
      e.result = .error (e.packet.take 4, .channelBusy) := by
  induction evs generalizing n s k last a with
  | nil =>
    exfalso
    have := (collect_cont n s k hss (by rw [hsp, hsm]) (by rw [hsm]; exact hc) (by rw [hsm]; exact hn)).1
    rw [hsm] at this
    rw [← hown] at this
    simp at this
    omega
  | cons e rest ih =>
    obtain ⟨t, p⟩ := e
    obtain ⟨ht, hin⟩ := hin
    have hel : a.timer.isElapsed t = false := by subst ha; simp [Timer.isElapsed]; omega
    cases hon : onChannel m.cid p
    · -- another channel
      have hpc : p.take 4 ≠ a.cid := by subst ha; simpa [onChannel] using hon
      have hst := parse_foreign (maxMsg := maxMsg) (l := l) (by subst ha; rfl) hpc hel
      have hrec := ih n s k last a hsm hss hsp hsi hi hn ha (by simpa [List.filter_cons, hon] using hown)
        (fun e he => hlast e (by cases rest <;> simp_all)) (by simpa [hon] using hin)
      simp only [withLock, List.map_cons, log, runAsm, hst, delivered] at hrec ⊢
      refine ⟨by simpa using hrec.1, hrec.2.1, hrec.2.2.1, ?_⟩
      intro e he hoff
      rcases List.mem_cons.mp he with rfl | he
      · rfl
      · exact hrec.2.2.2 e he hoff
    · -- own packet
      rcases n with _ | n
      · omega
      obtain ⟨s', hnx, hm', hs', hp', hi'⟩ := next_cont hss (by rw [hsp, hsm]) (by rw [hsm]; exact hc) (by rw [hsm]; exact hi)
      rw [hsm] at hnx hp' hi' hm'
      have hcol : s.collect (n + 1) = (m.cid ++ [UInt8.ofNat k] ++ chunk m.payload s.i) :: s'.collect n := by
        simp only [Splitter.collect, hnx]
      rw [hcol] at hown
      simp only [List.filter_cons, hon, if_true, List.map_cons, List.cons.injEq] at hown
      obtain ⟨hpk, hrest⟩ := hown
      have hk : k < 128 := by omega
      have hcont : IsCont p a.cid k (chunk m.payload s.i) := by
        refine ⟨UInt8.ofNat k, by subst ha; exact hpk, by subst ha; exact hc, chunk_length _ _, toNat_ofNat _ (by omega), hk⟩
      have hst := parse_own_cont (maxMsg := maxMsg) (t := t) (l := l) (by subst ha; rfl) hcont (by subst ha; rfl) hel (by subst ha; exact hl)
      simp only [hon, if_true] at hin
      by_cases hmore : 59 < m.payload.length - s.i
      · have happ : ({ a with timer := some (t + 100), seq := k + 1 } : Asm).appendPayload (chunk m.payload s.i) =
            ({ idle := false, cid := m.cid, timer := some (t + 100), cmd := m.cmd.toNat, seq := k + 1,
               remaining := m.payload.length - s'.i, payload := m.payload.take s'.i }, none) := by
          subst ha
          unfold Asm.appendPayload
          simp only [chunk_length, hmore, if_true]
          have h59 : min 59 (m.payload.length - s.i) = 59 := by omega
          rw [hi', h59]
          have : m.payload.take s.i ++ chunk m.payload s.i = m.payload.take (s.i + 59) := by
            rw [chunk, show 59 - (m.payload.length - s.i) = 0 by omega, List.take_add]; simp
          rw [this, show m.payload.length - s.i - 59 = m.payload.length - (s.i + 59) by omega]
        rw [happ] at hst
        have hrec := ih n s' (k + 1) t _ hm' hs' hp' (by rw [hi', hsi]; omega) (by omega) (by omega) rfl hrest
          (fun e he => hlast e (by cases rest <;> simp_all)) hin
        simp only [withLock, List.map_cons, log, runAsm, hst, delivered] at hrec ⊢
        refine ⟨by simpa using hrec.1, hrec.2.1, hrec.2.2.1, ?_⟩
        intro e he hoff
        rcases List.mem_cons.mp he with rfl | he
        · simp [hon] at hoff
        · exact hrec.2.2.2 e he hoff
      · have hdone : s'.collect n = [] := by
          rcases n with _ | n
          · rfl
          · simp only [Splitter.collect, next_done hs' (by rw [hm', hi']; omega)]
        have hr : rest = [] := by
          rcases hrl : rest.getLast? with _ | e
          · simpa using hrl
          · exfalso
            have h1 := hlast e (by cases rest <;> simp_all)
            have h2 : e ∈ rest := List.mem_of_getLast? hrl
            have h3 : e.2 ∈ s'.collect n := by
              rw [← hrest]; exact List.mem_map.mpr ⟨e, List.mem_filter.mpr ⟨h2, h1⟩, rfl⟩
            rw [hdone] at h3
            simp at h3
        subst hr
        have happ : ({ a with timer := some (t + 100), seq := k + 1 } : Asm).appendPayload (chunk m.payload s.i) =
            ({ a with timer := some (t + 100), seq := k + 1, payload := [], idle := true }, some m) := by
          subst ha
          unfold Asm.appendPayload
          simp only [chunk_length, hmore, if_false, cmd_ofByte_toNat]
          have : m.payload.take s.i ++ ((m.payload.drop s.i).take 59 ++ List.replicate (59 - (m.payload.length - s.i)) 0).take
              (m.payload.length - s.i) = m.payload := by
            rw [List.take_of_length_le (l := List.drop s.i m.payload) (by simp; omega),
              List.take_append_of_le_length (by simp), List.take_of_length_le (l := List.drop s.i m.payload) (by simp)]
            exact List.take_append_drop _ _
          rw [chunk, this]
        rw [happ] at hst
        simp only [withLock, List.map_cons, List.map_nil, log, runAsm, hst, delivered]
        refine ⟨by simp, trivial, trivial, ?_⟩
        intro e he hoff
        simp at he
        subst he
        simp [hon] at hoff

end Verif.Hid
