import Verif.Hid.Lemmas4
/-!
# C06–C09: CTAP HID framing, channels and locks
-/
namespace Verif.Hid
open Verif.Utf8 (toNat_ofNat)

/-! ## C06 fragmentation round trip -/

/-- Messages of up to 7609 bytes are split; longer ones are refused. The packets are one initialisation packet and the
continuation packets `0, 1, 2, …` (never more than 128), each 64 bytes, whose data fields spell the payload
followed by zero padding. -/
theorem C06_split_shape (m : Message) (hc : m.cid.length = 4) :
    (m.payload.length > 7609 → split m = none) ∧
    (m.payload.length ≤ 7609 → ∃ p0 ps data0, split m = some (p0 :: ps) ∧
      IsInit p0 m.cid m.cmd.toNat m.payload.length data0 ∧
      ps.length = (m.payload.length - 57 + 58) / 59 ∧ ps.length ≤ 128 ∧
      data0 = m.payload.take 57 ++ List.replicate (57 - m.payload.length) 0 ∧
      (∀ i (h : i < ps.length), ∃ data, IsCont ps[i] m.cid i data ∧
        data = (m.payload.drop (57 + 59 * i)).take 59 ++ List.replicate (59 - (m.payload.length - (57 + 59 * i))) 0)) := by
  constructor
  · intro h; simp [split, Splitter.new, h]
  · intro h
    obtain ⟨s, hsm, hss, hsp, hsi, hsplit⟩ := split_eq hc h
    obtain ⟨c1, c2⟩ := collect_cont (m.payload.length + 1) s 0 hss (by rw [hsp, hsm]) (by rw [hsm]; exact hc) (by rw [hsm]; omega)
    rw [hsm, hsi] at c1 c2
    refine ⟨_, _, _, hsplit, isInit_initPacket hc h, by omega, by omega, rfl, ?_⟩
    intro i hi
    have h57 : min 57 m.payload.length = 57 := by omega
    rw [h57] at c2
    refine ⟨_, ⟨UInt8.ofNat (0 + i), c2 i hi, hc, chunk_length _ _, ?_, by omega⟩, rfl⟩
    rw [toNat_ofNat _ (by omega)]; omega

/-- Receiving the packets of a message on an idle assembler delivers exactly that message, once, with the last packet —
also when packets of other channels arrive in between (they are all answered "channel busy"). -/
theorem C06_roundtrip (maxMsg : Nat) (l : Option Bytes) (m : Message) (a : Asm) (ps : List Bytes) (hc : m.cid.length = 4)
    (hmax : m.payload.length ≤ maxMsg) (hs : split m = some ps) (ha : a.idle = true) (hap : a.payload = [])
    (hl : l = none ∨ l = some m.cid) (t0 : Nat) (p0 : Bytes) (rest : List (Nat × Bytes))
    (hfirst : onChannel m.cid p0 = true)
    (hown : (((t0, p0) :: rest).filter (fun e => onChannel m.cid e.2)).map (·.2) = ps)
    (hlast : ∀ e, ((t0, p0) :: rest).getLast? = some e → onChannel m.cid e.2 = true)
    (hin : inTime m.cid t0 rest) :
    delivered (log maxMsg a (withLock l ((t0, p0) :: rest))) = [m] ∧
    (runAsm maxMsg a (withLock l ((t0, p0) :: rest))).idle = true ∧
    (runAsm maxMsg a (withLock l ((t0, p0) :: rest))).payload = [] ∧
    ∀ e ∈ log maxMsg a (withLock l ((t0, p0) :: rest)), onChannel m.cid e.packet = false →
      e.result = .error (e.packet.take 4, .channelBusy) :=
  feed_all hc hmax hs ha hap (by rcases hl with rfl | rfl <;> simp [lockedOut]) t0 p0 rest hfirst hown hlast hin

/-- The sequence counter (`u8` in the code) never exceeds 128, whatever is received: `self.seq += 1` cannot overflow. -/
theorem C06_seq_no_overflow (maxMsg : Nat) (hm : maxMsg ≤ 7609) (xs : List (Nat × Bytes × Option Bytes))
    (hp : ∀ x ∈ xs, x.2.1.length = 64) (hb : (runAsm maxMsg Asm.default xs).idle = false) :
    (runAsm maxMsg Asm.default xs).seq < 128 := by
  have g := ghost_run maxMsg xs (Ghost.init maxMsg) hp
  obtain ⟨pre, mid, len, _, ⟨⟨e0, es, data0, datas, h1, h2, h3, h4, h5⟩, _⟩, h7, h8, h9, h10, _⟩ := g.busy hb
  obtain ⟨_, _, _, _, _, hd0, _⟩ := h2
  have hfl : ∀ (ds : List Bytes), (∀ i (h : i < ds.length), ds[i].length = 59) → ds.flatten.length = 59 * ds.length := by
    intro ds
    induction ds with
    | nil => simp
    | cons d ds ih =>
      intro h
      have h0 := h 0 (by simp)
      have := ih (fun i hi => h (i + 1) (by simp; omega))
      simp at h0
      simp [h0, this]; omega
  have := hfl datas (fun i hi => by
    obtain ⟨_, _, _, hl, _⟩ := h4 i (by omega) hi
    exact hl)
  rw [h1] at h7
  rw [h5] at h8
  simp only [List.length_append, List.length_cons] at h7 h8
  omega

/-! Non-vacuity: a 60-byte ping needs two packets; a foreign packet arrives in between. -/
example : (split ⟨[0, 0, 0, 1], .ping, List.replicate 60 7⟩).map (fun ps => ps.map List.length) = some [64, 64] := by decide

example : ∃ p0 p1, split ⟨[0, 0, 0, 1], .ping, List.replicate 60 7⟩ = some [p0, p1] ∧
    delivered (log 7609 Asm.default (withLock none [(0, p0), (50, [0, 0, 0, 2, 0x81, 0, 1, 5] ++ List.replicate 56 0), (99, p1)]))
      = [⟨[0, 0, 0, 1], .ping, List.replicate 60 7⟩] := by
  refine ⟨[0, 0, 0, 1, 0x81, 0, 60] ++ List.replicate 57 7, [0, 0, 0, 1, 0] ++ List.replicate 3 7 ++ List.replicate 56 0, rfl, ?_⟩
  refine (C06_roundtrip 7609 none ⟨[0, 0, 0, 1], .ping, List.replicate 60 7⟩ Asm.default _ rfl (by decide) rfl rfl rfl (.inl rfl) _ _ _
    (by decide) (by decide) ?_ ?_).1
  · intro e he; simp at he; subst he; decide
  · simp [inTime, onChannel]

/-! ## C07 channel isolation -/

/-- Whatever packets arrive, on whatever channels, at whatever times and lock states: a delivered message consists exactly
of the packets accepted since some initialisation packet of its own channel, namely that packet and continuation
packets `0, 1, 2, …` of the same channel, each within the timeout; every other packet in between was
refused with an error. -/
theorem C07_isolation (maxMsg : Nat) (xs : List (Nat × Bytes × Option Bytes)) (hp : ∀ x ∈ xs, x.2.1.length = 64)
    (before after : List Ev) (e : Ev) (m : Message) (hlog : log maxMsg Asm.default xs = before ++ e :: after)
    (he : e.result = .ok (some m)) :
    ∃ pre mid cmd bytes, before ++ [e] = pre ++ mid ∧
      Sequence (mid.filter Ev.accepted) m.cid cmd m.payload.length bytes ∧
      m.cmd = Cmd.ofByte cmd ∧ m.payload = bytes.take m.payload.length ∧ m.payload.length ≤ bytes.length ∧
      m.payload.length ≤ maxMsg ∧
      (mid.filter Ev.accepted).getLast? = some e := by
  -- split the inputs at `e`
  have hlen : ∀ (a : Asm) (ys : List (Nat × Bytes × Option Bytes)), (log maxMsg a ys).length = ys.length := by
    intro a ys
    induction ys generalizing a with
    | nil => rfl
    | cons y ys ih => obtain ⟨t, p, l⟩ := y; simp [log, ih]
  have hl : before.length < xs.length := by
    have := congrArg List.length hlog
    rw [hlen] at this
    simp at this; omega
  have hx : xs = xs.take before.length ++ xs[before.length] :: xs.drop (before.length + 1) := by
    rw [← List.drop_eq_getElem_cons hl, List.take_append_drop]
  generalize hys : xs.take before.length = ys at hx
  generalize hz : xs[before.length] = z at hx
  obtain ⟨t, p, l⟩ := z
  have hyl : ys.length = before.length := by rw [← hys, List.length_take]; omega
  rw [hx, log_append] at hlog
  simp only [log] at hlog
  have hb := List.append_inj hlog (by rw [hlen, hyl])
  obtain ⟨hb1, hb2⟩ := hb
  simp only [List.cons.injEq] at hb2
  have g := ghost_run maxMsg ys (Ghost.init maxMsg) (fun x hx' => hp x (by rw [hx]; simp [hx']))
  have hp' : p.length = 64 := hp (t, p, l) (by rw [hx]; simp)
  have hs := (g.step t l hp').2 m (by rw [← hb2.1] at he; exact he)
  obtain ⟨pre, mid, cmd, bytes, q1, q2, q3, q4, q5, q6, _⟩ := hs
  rw [List.nil_append, hb1, hb2.1] at q1
  refine ⟨pre, mid, cmd, bytes, q1, q2, q3, q4, q5, q6, ?_⟩
  -- the last accepted packet is `e`
  have hne : mid ≠ [] := by
    intro h0
    obtain ⟨⟨e0, es, _, _, h1, _⟩, _⟩ := q2
    rw [h0] at h1; simp at h1
  have hlast : mid.getLast? = some e := by
    have := congrArg List.getLast? q1
    rw [List.getLast?_append, List.getLast?_append] at this
    cases hm : mid.getLast? with
    | none => rw [List.getLast?_eq_none_iff] at hm; exact absurd hm hne
    | some y => rw [hm] at this; simpa using this.symm
  obtain ⟨mid', hmid⟩ : ∃ mid', mid = mid' ++ [e] := by
    obtain ⟨ys', hh⟩ := List.getLast?_eq_some_iff.mp hlast
    exact ⟨ys', hh⟩
  subst hmid
  rw [List.filter_append]
  have : [e].filter Ev.accepted = [e] := by simp [Ev.accepted, he]
  rw [this]; simp

/-- A packet of another channel never disturbs a transaction in progress: it is answered "channel busy" and changes nothing. -/
theorem C07_foreign_no_effect (maxMsg t : Nat) (a : Asm) (p : Bytes) (l : Option Bytes) (hb : a.idle = false)
    (hc : p.take 4 ≠ a.cid) (ht : a.timer.isElapsed t = false) :
    a.parsePacket maxMsg t p l = (a, .error (p.take 4, .channelBusy)) :=
  parse_foreign hb hc ht

/-! Non-vacuity: a run that delivers a message after refusing a foreign packet. -/
example : ∃ before e after m, log 7609 Asm.default
    [(0, [0, 0, 0, 1, 0x81, 0, 60] ++ List.replicate 57 7, none),
     (10, [0, 0, 0, 2, 0x81, 0, 1] ++ List.replicate 57 8, none),
     (20, [0, 0, 0, 1, 0] ++ List.replicate 59 7, none)] = before ++ e :: after ∧
    e.result = .ok (some m) ∧ m.payload = List.replicate 60 7 ∧ before.length = 2 :=
  ⟨[_, _], _, [], _, rfl, rfl, by decide, rfl⟩

/-! ## C08 channel allocation -/

theorem natToCid_inj {a b : Nat} (ha : a < 2 ^ 32) (hb : b < 2 ^ 32) (h : natToCid a = natToCid b) : a = b := by
  rw [← natToCid_toNat ha, h, natToCid_toNat hb]

/-- As long as fewer than `2^32 - 1` channels were handed out since power-up, all ids handed out are distinct and none is
the reserved or the broadcast id. -/
theorem C08_unique_ids (maxMsg : Nat) (caps : UInt8) (xs : List (Nat × Bytes × Bool))
    (hn : (handedOut (hidLog maxMsg (Hid.new caps) xs)).length < 2 ^ 32 - 1) :
    (handedOut (hidLog maxMsg (Hid.new caps) xs)).Nodup ∧
    [0, 0, 0, 0] ∉ handedOut (hidLog maxMsg (Hid.new caps) xs) ∧
    [0xFF, 0xFF, 0xFF, 0xFF] ∉ handedOut (hidLog maxMsg (Hid.new caps) xs) := by
  obtain ⟨n, h1, _⟩ := handedOut_log maxMsg (Hid.new caps) xs
  rw [h1] at hn ⊢
  simp [Hid.new] at hn
  simp only [Hid.new, Nat.zero_add]
  refine ⟨?_, ?_, ?_⟩
  · rw [List.nodup_iff_pairwise_ne, List.pairwise_map]
    have hr : (List.range' 1 n).Pairwise (· ≠ ·) := List.nodup_range'
    refine List.Pairwise.imp_of_mem ?_ hr
    intro a b ha hb hab he
    rw [List.mem_range'_1] at ha hb
    exact hab (natToCid_inj (by omega) (by omega) he)
  · intro hm
    obtain ⟨a, ha, he⟩ := List.mem_map.mp hm
    rw [List.mem_range'_1] at ha
    have h0 : natToCid a = natToCid 0 := by rw [he]; rfl
    have := natToCid_inj (by omega) (by omega) h0
    omega
  · intro hm
    obtain ⟨a, ha, he⟩ := List.mem_map.mp hm
    rw [List.mem_range'_1] at ha
    have h0 : natToCid a = natToCid (2 ^ 32 - 1) := by rw [he]; rfl
    have := natToCid_inj (by omega) (by omega) h0
    omega

/-- Nothing is served on a channel that was not handed out before: any non-error answer, other than INIT on the broadcast
channel, is for a channel id handed out earlier. -/
theorem C08_only_allocated (maxMsg : Nat) (caps : UInt8) (xs : List (Nat × Bytes × Bool)) (t : Nat) (p : Bytes) (d : Bool)
    (hp : p.length = 64) (m : Message)
    (hm : ((hidRun maxMsg (Hid.new caps) xs).parsePacket maxMsg t p d).2 = some m) (he : m.cmd ≠ .error) :
    m.cid = p.take 4 ∧
    ((m.cid = [0xFF, 0xFF, 0xFF, 0xFF] ∧ m.cmd = .init) ∨ m.cid ∈ handedOut (hidLog maxMsg (Hid.new caps) xs)) := by
  have hidle := hidRun_idle (maxMsg := maxMsg) (h := Hid.new caps) (fun _ => rfl) xs
  obtain ⟨n, h1, h2⟩ := handedOut_log maxMsg (Hid.new caps) xs
  generalize hidRun maxMsg (Hid.new caps) xs = h at *
  obtain ⟨h', hal, _, _, _, ⟨m0, hok, hpre⟩ | ⟨_, _, h3⟩⟩ := hid_parse_cases maxMsg t h p d
  · rw [hpre] at hm
    obtain ⟨q1, q2, q3⟩ := preprocess_served hm he
    have hcid := parse_ok_cid hp hidle hok
    have hl4 : m0.cid.length = 4 := by rw [hcid]; simp [hp]
    refine ⟨by rw [q1, hcid], ?_⟩
    rw [q1, q3]
    unfold Hid.hasValidChannel at q2
    split at q2
    · left; exact ⟨‹_›, by simpa using q2⟩
    · right
      simp only [Hid.isAllocated, Bool.and_eq_true, bne_iff_ne, ne_eq, decide_eq_true_eq] at q2
      rw [hal, h2] at q2
      simp only [Hid.new, Nat.zero_add] at q2
      rw [h1]
      refine List.mem_map.mpr ⟨cidToNat m0.cid, ?_, cid_natToCid hl4⟩
      rw [List.mem_range'_1]
      simp only [Hid.new, Nat.zero_add]
      have : cidToNat m0.cid ≠ 0 := by
        intro h0
        apply q2.1
        rw [← cid_natToCid hl4, h0]; rfl
      omega
  · rcases h3 with h3 | ⟨c, e, h3⟩ <;> rw [h3] at hm
    · simp at hm
    · simp at hm; subst hm; simp [errorMessage] at he

/-- An INIT packet on the broadcast channel. -/
def initBroadcast : Bytes := [0xFF, 0xFF, 0xFF, 0xFF, 0x86, 0, 8] ++ List.replicate 57 0

theorem initBroadcast_step (h : Hid) (ha : h.asm.idle = true) (hp : h.asm.payload = []) (hl : h.locked = none) :
    (h.parsePacket 7609 0 initBroadcast false).1.allocated = h.allocated + 1 ∧
    (h.parsePacket 7609 0 initBroadcast false).1.asm.idle = true ∧
    (h.parsePacket 7609 0 initBroadcast false).1.asm.payload = [] ∧
    (h.parsePacket 7609 0 initBroadcast false).1.locked = none := by
  obtain ⟨⟨i, c, t, cm, s, r, pl⟩, al, cap, lk, tm⟩ := h
  simp only at ha hp hl
  subst ha hp hl
  have : (({ asm := ⟨true, c, t, cm, s, r, []⟩, allocated := al, capabilities := cap, locked := none, lockTimer := tm } : Hid).lockedChannel 0)
      = (⟨⟨true, c, t, cm, s, r, []⟩, al, cap, none, tm⟩, none) := by
    unfold Hid.lockedChannel; dsimp only; split <;> rfl
  simp [Hid.parsePacket, this, Asm.parsePacket, lockedOut, processSinglePacket, initBroadcast, Asm.parseInit, Asm.appendPayload,
    Hid.preprocess, Hid.hasValidChannel, channelBroadcast, Cmd.ofByte]

theorem many_inits (n : Nat) (h : Hid) (ha : h.asm.idle = true) (hp : h.asm.payload = []) (hl : h.locked = none) :
    (hidRun 7609 h (List.replicate n (0, initBroadcast, false))).allocated = h.allocated + n := by
  induction n generalizing h with
  | zero => rfl
  | succ n ih =>
    obtain ⟨h1, h2, h3, h4⟩ := initBroadcast_step h ha hp hl
    rw [List.replicate_succ, hidRun, ih _ h2 h3 h4, h1]; omega

/-- The bound is needed: after `2^32 + 1` INITs the same id was handed out twice (and the broadcast id once). -/
theorem C08_wraps_after_2_32 : ∃ xs : List (Nat × Bytes × Bool),
    ¬ (handedOut (hidLog 7609 (Hid.new 0) xs)).Nodup ∧
    [0xFF, 0xFF, 0xFF, 0xFF] ∈ handedOut (hidLog 7609 (Hid.new 0) xs) := by
  refine ⟨List.replicate (2 ^ 32 + 1) (0, initBroadcast, false), ?_⟩
  obtain ⟨n, h1, h2⟩ := handedOut_log 7609 (Hid.new 0) (List.replicate (2 ^ 32 + 1) (0, initBroadcast, false))
  rw [many_inits _ _ rfl rfl rfl] at h2
  have hn : n = 2 ^ 32 + 1 := by omega
  rw [h1, hn]
  constructor
  · rw [List.nodup_iff_pairwise_ne, List.pairwise_map, List.pairwise_iff_getElem]
    intro h
    have := h 0 (2 ^ 32) (by simp) (by simp) (by omega)
    rw [List.getElem_range', List.getElem_range'] at this
    apply this
    simp [natToCid, Hid.new]
  · refine List.mem_map.mpr ⟨2 ^ 32 - 1, ?_, rfl⟩
    rw [List.mem_range'_1]; simp [Hid.new]

/-! Non-vacuity: two INITs hand out channels 1 and 2. -/
example : handedOut (hidLog 7609 (Hid.new 0) [(0, initBroadcast, false), (1, initBroadcast, false)]) =
    [[0, 0, 0, 1], [0, 0, 0, 2]] := by decide

/-! ## C09 channel lock -/

/-- From any state the device can reach: while channel `c` of transport `tr` holds the lock (until its deadline `d`), no packet of any
other channel, nor of any channel of the other transport, is served; the locking transport does not change at all and no channel is allocated. -/
theorem C09_exclusive (maxMsg : Nat) (c1 c2 : UInt8) (past future : List (Nat × Transport × Bytes)) (tr : Transport) (c : Bytes) (d : Nat)
    (hp : ∀ x ∈ past, x.2.2.length = 64) (ho : Ordered 0 (past ++ future))
    (hl : ((bothRun maxMsg (Both.new c1 c2) past).get tr).locked = some c)
    (hd : ((bothRun maxMsg (Both.new c1 c2) past).get tr).lockTimer = some d)
    (hf : ∀ x ∈ future, x.1 < d ∧ x.2.2.length = 64 ∧ ¬ (x.2.1 = tr ∧ x.2.2.take 4 = c)) :
    (∀ o ∈ bothLog maxMsg (bothRun maxMsg (Both.new c1 c2) past) future, ¬ served o) ∧
    (bothRun maxMsg (Both.new c1 c2) (past ++ future)).get tr = (bothRun maxMsg (Both.new c1 c2) past).get tr ∧
    ((bothRun maxMsg (Both.new c1 c2) (past ++ future)).get tr.other).allocated =
      ((bothRun maxMsg (Both.new c1 c2) past).get tr.other).allocated := by
  have hord : ∀ (xs ys : List (Nat × Transport × Bytes)) (t : Nat), Ordered t (xs ++ ys) → Ordered t xs ∧ Ordered (lastTime t xs) ys := by
    intro xs
    induction xs with
    | nil => intro ys t h; exact ⟨trivial, h⟩
    | cons x xs ih => intro ys t h; exact ⟨⟨h.1, (ih ys x.1 h.2).1⟩, (ih ys x.1 h.2).2⟩
  have happ : ∀ (xs ys : List (Nat × Transport × Bytes)) (b : Both), bothRun maxMsg b (xs ++ ys) = bothRun maxMsg (bothRun maxMsg b xs) ys := by
    intro xs
    induction xs with
    | nil => intros; rfl
    | cons x xs ih => intro ys b; obtain ⟨t, tr, p⟩ := x; exact ih ys _
  obtain ⟨ho1, ho2⟩ := hord _ _ _ ho
  have hinv := (BothInv.new c1 c2 0).run (maxMsg := maxMsg) past ho1 hp
  have := excl_run (maxMsg := maxMsg) future tr c hinv hl hd hf ho2
  rw [happ]
  exact this

/-- At most one transport holds an unexpired lock at any time. -/
theorem C09_mutual_exclusion (maxMsg : Nat) (c1 c2 : UInt8) (past : List (Nat × Transport × Bytes))
    (hp : ∀ x ∈ past, x.2.2.length = 64) (ho : Ordered 0 past) (c c' : Bytes) (now : Nat) (hnow : lastTime 0 past ≤ now) :
    ¬ (((bothRun maxMsg (Both.new c1 c2) past).get .main).HoldsLock c now ∧
       ((bothRun maxMsg (Both.new c1 c2) past).get .vendor).HoldsLock c' now) := by
  have hinv := ((BothInv.new c1 c2 0).run (maxMsg := maxMsg) past ho hp).mono hnow
  rintro ⟨h1, h2⟩
  exact hinv.excl .main ⟨c, h1⟩ ⟨c', h2⟩

/-- A lock was always requested by its holder, on a channel handed out before, and expires at most 10 seconds after that request. -/
theorem C09_origin_and_expiry (maxMsg : Nat) (c1 c2 : UInt8) (past : List (Nat × Transport × Bytes)) (tr : Transport) (c : Bytes)
    (hl : ((bothRun maxMsg (Both.new c1 c2) past).get tr).locked = some c) :
    ∃ x n, x ∈ past.zip (bothLog maxMsg (Both.new c1 c2) past) ∧ x.1.2.1 = tr ∧ x.2 = some ⟨c, .lock, []⟩ ∧ 1 ≤ n ∧ n ≤ 10 ∧
      (∀ now, ((bothRun maxMsg (Both.new c1 c2) past).get tr).HoldsLock c now ↔ now < x.1.1 + 1000 * n) ∧
      ((bothRun maxMsg (Both.new c1 c2) past).get tr).isAllocated c = true := by
  have h0 : LockOrigin [] (Both.new c1 c2) := by
    intro tr c h; cases tr <;> simp [Both.get, Both.new, Hid.new] at h
  obtain ⟨x, n, q1, q2, q3, q4, q5, q6, q7⟩ := lockOrigin_run (maxMsg := maxMsg) past h0 tr c hl
  refine ⟨x, n, by simpa [history] using q1, q2, q3, q4, q5, ?_, q7⟩
  intro now
  constructor
  · rintro ⟨_, d, hd, hlt⟩
    rw [q6] at hd; simp at hd; omega
  · intro h; exact ⟨hl, _, q6, h⟩

/-- Once the deadline passed, the transport behaves exactly as if it had never been locked. -/
theorem C09_released_after_expiry (maxMsg now d : Nat) (h : Hid) (p : Bytes) (hd : h.lockTimer = some d) (hle : d ≤ now) :
    h.parsePacket maxMsg now p false = ({ h with locked := none } : Hid).parsePacket maxMsg now p false := by
  have h1 : h.lockedChannel now = ({ h with locked := none }, none) := by
    simp [Hid.lockedChannel, hd, isElapsed_some, hle]
  have h2 : ({ h with locked := none } : Hid).lockedChannel now = ({ h with locked := none }, none) := by
    simp [Hid.lockedChannel, hd, isElapsed_some, hle]
  simp only [Hid.parsePacket, h1, h2, Bool.false_eq_true, if_false]

/-! Non-vacuity: channel 1 of the main transport locks for 2 s at time 5; a ping of channel 2 and an INIT on the other
transport are refused at 1000, the owner's ping is served, and channel 2 is served after expiry. -/
example :
    let past := [(0, Transport.main, initBroadcast), (1, .main, initBroadcast),
      (5, .main, [0, 0, 0, 1, 0x84, 0, 1, 2] ++ List.replicate 56 0)]
    let b := bothRun 7609 (Both.new 0 0) past
    (b.get .main).locked = some [0, 0, 0, 1] ∧ (b.get .main).lockTimer = some 2005 ∧
    (bothLog 7609 b [(1000, .main, [0, 0, 0, 2, 0x81, 0, 1, 2] ++ List.replicate 56 0), (1001, .vendor, initBroadcast),
      (1002, .main, [0, 0, 0, 1, 0x81, 0, 1, 2] ++ List.replicate 56 0),
      (2005, .main, [0, 0, 0, 2, 0x81, 0, 1, 2] ++ List.replicate 56 0)]) =
      [some ⟨[0, 0, 0, 2], .error, [6]⟩, some ⟨[255, 255, 255, 255], .error, [11]⟩, some ⟨[0, 0, 0, 1], .ping, [2]⟩,
       some ⟨[0, 0, 0, 2], .ping, [2]⟩] := by decide

end Verif.Hid
