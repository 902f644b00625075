import Verif.Hid.Lemmas3
namespace Verif.Hid

theorem not_served_none : ¬ served none := by rintro ⟨m, h, _⟩; simp at h
theorem not_served_err (c : Bytes) (e : Err) : ¬ served (some (errorMessage c e)) := by
  rintro ⟨m, h, h2⟩; simp at h; subst h; simp [errorMessage] at h2

theorem isElapsed_some (d now : Nat) : (Timer.isElapsed (some d) now) = decide (d ≤ now) := rfl

theorem lockedChannel_holds {h : Hid} {c : Bytes} {now : Nat} (hl : h.HoldsLock c now) : h.lockedChannel now = (h, some c) := by
  obtain ⟨h1, d, h2, h3⟩ := hl
  simp [Hid.lockedChannel, h2, isElapsed_some, show ¬ d ≤ now by omega, h1]

theorem parse_locked {maxMsg now : Nat} {a : Asm} {p c : Bytes} (hc : p.take 4 ≠ c) :
    a.parsePacket maxMsg now p (some c) = (a, .error (p.take 4, .channelBusy)) := by
  unfold Asm.parsePacket
  have : lockedOut (some c) (p.take 4) = true := by simpa [lockedOut] using Ne.symm hc
  simp [psp_fst, this]

/-- A packet of another channel while the lock is held: no effect. -/
theorem hid_locked {maxMsg now : Nat} {h : Hid} {c p : Bytes} (hl : h.HoldsLock c now) (hc : p.take 4 ≠ c) :
    (h.parsePacket maxMsg now p false).1 = h ∧ ¬ served (h.parsePacket maxMsg now p false).2 := by
  unfold Hid.parsePacket
  simp only [lockedChannel_holds hl, parse_locked hc]
  simp only [Bool.false_eq_true, if_false, parse_locked hc]
  split
  · exact ⟨rfl, not_served_none⟩
  · split <;> exact ⟨rfl, not_served_err _ _⟩

/-- A packet on a disabled transport. -/
theorem hid_disabled {maxMsg now : Nat} {h : Hid} {p : Bytes} (hp : p.length = 64) (ha : h.asm.idle = true → h.asm.payload = []) :
    (∃ a, (h.parsePacket maxMsg now p true).1 = { h with asm := a } ∧ (a.idle = true → a.payload = [])) ∧
    ¬ served (h.parsePacket maxMsg now p true).2 := by
  unfold Hid.parsePacket
  simp only [if_true]
  have hidl := parse_idle (maxMsg := maxMsg) (now := now) (p := p) (l := some channelReserved) ha
  cases hr : (h.asm.parsePacket maxMsg now p (some channelReserved)).2 with
  | ok o =>
    cases o with
    | none => exact ⟨⟨_, rfl, hidl⟩, not_served_none⟩
    | some m =>
      have hcid := parse_ok_cid hp ha hr
      have hres : m.cid = channelReserved := by
        rw [hcid]
        by_cases h4 : p.take 4 = channelReserved
        · exact h4
        · rw [parse_locked h4] at hr; simp at hr
      dsimp only
      have hv : ({ h with asm := (Asm.parsePacket maxMsg now h.asm p (some channelReserved)).1 } : Hid).hasValidChannel m = false := by
        simp [Hid.hasValidChannel, Hid.isAllocated, hres, channelReserved, channelBroadcast]
      simp only [Hid.preprocess, hv, Bool.not_false, if_true]
      exact ⟨⟨_, rfl, hidl⟩, not_served_err _ _⟩
  | error ce =>
    obtain ⟨c, e⟩ := ce
    dsimp only
    split
    · exact ⟨⟨_, rfl, hidl⟩, not_served_none⟩
    · split <;> exact ⟨⟨_, rfl, hidl⟩, not_served_err _ _⟩

theorem preprocess_lock (now : Nat) (h : Hid) (m : Message) :
    ((h.preprocess now m).1.locked = h.locked ∧ (h.preprocess now m).1.lockTimer = h.lockTimer) ∨
    ((h.preprocess now m).1.locked = none) ∨
    (∃ n, 1 ≤ n ∧ n ≤ 10 ∧ (h.preprocess now m).1.locked = some m.cid ∧
      (h.preprocess now m).1.lockTimer = some (now + 1000 * n) ∧
      (h.preprocess now m).2 = some ⟨m.cid, .lock, []⟩ ∧ h.isAllocated m.cid = true) := by
  by_cases hv : h.hasValidChannel m = true
  rotate_left
  · left; simp [Hid.preprocess, hv]
  cases hc : m.cmd with
  | init =>
    left
    simp only [Hid.preprocess, hv, hc]
    split
    · simp_all
    · split
      · simp
      · dsimp only; split <;> simp
  | lock =>
    have hal : h.isAllocated m.cid = true := by
      simp only [Hid.hasValidChannel, hc] at hv
      split at hv
      · simp at hv
      · exact hv
    simp only [Hid.preprocess, hv, hc]
    split
    · simp_all
    · split
      · rename_i n _
        split
        · simp
        · by_cases h0 : n.toNat = 0
          · right; left; simp [h0]
          · right; right
            refine ⟨n.toNat, by omega, by omega, ?_⟩
            simp [h0, makeTimer, hal]
      · simp
  | _ => left; simp [Hid.preprocess, hv, hc]

/-- Active lock. -/
def Hid.Active (h : Hid) (now : Nat) : Prop := ∃ c, h.HoldsLock c now

theorem Hid.Active.mono {h : Hid} {t t' : Nat} (ht : t ≤ t') (ha : h.Active t') : h.Active t := by
  obtain ⟨c, h1, d, h2, h3⟩ := ha
  exact ⟨c, h1, d, h2, by omega⟩

theorem hasChannelLock_iff {h : Hid} {now : Nat} (_hd : True) :
    (h.hasChannelLock now).2 = true → h.Active now := by
  unfold Hid.hasChannelLock Hid.lockedChannel
  cases ht : h.lockTimer with
  | none => simp [Timer.isElapsed]
  | some d =>
    by_cases hd : d ≤ now
    · simp [isElapsed_some, hd]
    · cases hl : h.locked with
      | none => simp [isElapsed_some, hd, hl]
      | some c => intro _; exact ⟨c, hl, d, ht, by omega⟩

theorem hasChannelLock_active {h : Hid} {now : Nat} (ha : h.Active now) : h.hasChannelLock now = (h, true) := by
  obtain ⟨c, hc⟩ := ha
  simp [Hid.hasChannelLock, lockedChannel_holds hc]

theorem hasChannelLock_not {h : Hid} {now : Nat} (hn : ¬ h.Active now) :
    (h.hasChannelLock now).2 = false ∧ ∀ t, now ≤ t → ¬ (h.hasChannelLock now).1.Active t := by
  have h2 : (h.hasChannelLock now).2 = false := by
    cases hh : (h.hasChannelLock now).2
    · rfl
    · exact absurd (hasChannelLock_iff trivial hh) hn
  refine ⟨h2, ?_⟩
  rintro t ht ⟨c, h3, d, h4, h5⟩
  simp only [Hid.hasChannelLock] at h2
  have hf := lockedChannel_fields now h
  simp only [Hid.hasChannelLock] at h3 h4
  rw [hf.2.2.2] at h3
  rw [h3] at h2
  simp at h2

theorem hasChannelLock_asm {h : Hid} {now : Nat} : (h.hasChannelLock now).1.asm = h.asm := (lockedChannel_fields now h).1

theorem hasChannelLock_alloc {h : Hid} {now : Nat} : (h.hasChannelLock now).1.allocated = h.allocated := (lockedChannel_fields now h).2.1

/-- Uniform view of `Both.parsePacket`. -/
theorem both_step (maxMsg now : Nat) (b : Both) (tr : Transport) (p : Bytes) :
    (b.parsePacket maxMsg now tr p).1.get tr = ((b.get tr).parsePacket maxMsg now p ((b.get tr.other).hasChannelLock now).2).1 ∧
    (b.parsePacket maxMsg now tr p).1.get tr.other = ((b.get tr.other).hasChannelLock now).1 ∧
    (b.parsePacket maxMsg now tr p).2 = ((b.get tr).parsePacket maxMsg now p ((b.get tr.other).hasChannelLock now).2).2 := by
  cases tr <;> exact ⟨rfl, rfl, rfl⟩

theorem other_other (tr : Transport) : tr.other.other = tr := by cases tr <;> rfl
theorem tr_cases (tr tr' : Transport) : tr' = tr ∨ tr' = tr.other := by cases tr <;> cases tr' <;> simp [Transport.other]

/-- Bookkeeping invariant of both transports. -/
structure BothInv (b : Both) (now : Nat) : Prop where
  idle : ∀ tr, (b.get tr).asm.idle = true → (b.get tr).asm.payload = []
  excl : ∀ tr, (b.get tr).Active now → ¬ (b.get tr.other).Active now

theorem hid_parse_idle {maxMsg now : Nat} {h : Hid} {p : Bytes} {d : Bool} (ha : h.asm.idle = true → h.asm.payload = []) :
    (h.parsePacket maxMsg now p d).1.asm.idle = true → (h.parsePacket maxMsg now p d).1.asm.payload = [] :=
  hidRun_idle (maxMsg := maxMsg) ha [(now, p, d)]

theorem BothInv.mono {b : Both} {t t' : Nat} (h : BothInv b t) (ht : t ≤ t') : BothInv b t' :=
  ⟨h.idle, fun tr h1 h2 => h.excl tr (h1.mono ht) (h2.mono ht)⟩

theorem BothInv.step {maxMsg now : Nat} {b : Both} (h : BothInv b now) (tr : Transport) {p : Bytes} (hp : p.length = 64) :
    BothInv (b.parsePacket maxMsg now tr p).1 now := by
  obtain ⟨h1, h2, _⟩ := both_step maxMsg now b tr p
  constructor
  · intro tr'
    rcases tr_cases tr tr' with rfl | rfl
    · rw [h1]; exact hid_parse_idle (h.idle _)
    · rw [h2, hasChannelLock_asm]; exact h.idle _
  · -- it suffices to consider `tr`
    have key : (b.parsePacket maxMsg now tr p).1.get tr |>.Active now → ¬ ((b.parsePacket maxMsg now tr p).1.get tr.other).Active now := by
      by_cases ha : (b.get tr.other).Active now
      · have hn : ¬ (b.get tr).Active now := by
          intro hh; exact h.excl tr hh ha
        rw [h1, hasChannelLock_active ha]
        obtain ⟨⟨a, hs, _⟩, _⟩ := hid_disabled (maxMsg := maxMsg) (now := now) hp (h.idle tr)
        rw [hs]
        intro hh
        exact absurd hh hn
      · rw [h2]
        intro _
        exact (hasChannelLock_not ha).2 now (Nat.le_refl _)
    intro tr'
    rcases tr_cases tr tr' with rfl | rfl
    · exact key
    · rw [other_other]; exact fun h3 h4 => key h4 h3

theorem BothInv.run {maxMsg : Nat} (xs : List (Nat × Transport × Bytes)) {b : Both} {t : Nat} (h : BothInv b t)
    (ho : Ordered t xs) (hp : ∀ x ∈ xs, x.2.2.length = 64) : BothInv (bothRun maxMsg b xs) (lastTime t xs) := by
  induction xs generalizing b t with
  | nil => exact h
  | cons x xs ih =>
    obtain ⟨t', tr, p⟩ := x
    exact ih ((h.mono ho.1).step tr (hp (t', tr, p) (by simp))) ho.2 (fun x hx => hp x (by simp [hx]))

theorem BothInv.new (c1 c2 : UInt8) (t : Nat) : BothInv (Both.new c1 c2) t :=
  ⟨fun tr => by cases tr <;> simp [Both.get, Both.new, Hid.new, Asm.default],
   fun tr => by
    rintro ⟨c, h, _⟩
    cases tr <;> simp [Both.get, Both.new, Hid.new] at h⟩

/-- Nothing but the lock holder is served while the lock is held. -/
theorem excl_run {maxMsg : Nat} (xs : List (Nat × Transport × Bytes)) {b : Both} {t d : Nat} (tr : Transport) (c : Bytes)
    (h : BothInv b t) (hl : (b.get tr).locked = some c) (hd : (b.get tr).lockTimer = some d)
    (hx : ∀ x ∈ xs, x.1 < d ∧ x.2.2.length = 64 ∧ ¬ (x.2.1 = tr ∧ x.2.2.take 4 = c)) (ho : Ordered t xs) :
    (∀ o ∈ bothLog maxMsg b xs, ¬ served o) ∧ (bothRun maxMsg b xs).get tr = b.get tr ∧
    ((bothRun maxMsg b xs).get tr.other).allocated = (b.get tr.other).allocated := by
  induction xs generalizing b t with
  | nil => exact ⟨by simp [bothLog], rfl, rfl⟩
  | cons x xs ih =>
    obtain ⟨t', tr', p⟩ := x
    obtain ⟨h1, h2, h3⟩ := hx (t', tr', p) (by simp)
    have hinv := h.mono ho.1
    have hold : (b.get tr).HoldsLock c t' := ⟨hl, d, hd, h1⟩
    have hinv' := hinv.step (maxMsg := maxMsg) tr' h2
    obtain ⟨g1, g2, g3⟩ := both_step maxMsg t' b tr' p
    have key : (b.parsePacket maxMsg t' tr' p).1.get tr = b.get tr ∧ ¬ served (b.parsePacket maxMsg t' tr' p).2 ∧
        ((b.parsePacket maxMsg t' tr' p).1.get tr.other).allocated = (b.get tr.other).allocated := by
      rcases tr_cases tr tr' with rfl | rfl
      · have hna : ¬ (b.get tr'.other).Active t' := hinv.excl _ ⟨c, hold⟩
        have hf := (hasChannelLock_not hna).1
        rw [g1, g2, g3, hf]
        have := hid_locked (maxMsg := maxMsg) hold (p := p) (fun he => h3 ⟨rfl, he⟩)
        exact ⟨this.1, this.2, hasChannelLock_alloc⟩
      · rw [other_other] at g1 g2 g3
        have hact := hasChannelLock_active ⟨c, hold⟩
        rw [hact] at g1 g2 g3
        obtain ⟨⟨a, hs, _⟩, hns⟩ := hid_disabled (maxMsg := maxMsg) (now := t') h2 (hinv.idle tr.other)
        exact ⟨g2, by rw [g3]; exact hns, by rw [g1, hs]⟩
    obtain ⟨k1, k2, k3⟩ := key
    have hrec := ih hinv' (by rw [k1]; exact hl) (by rw [k1]; exact hd) (fun x hx' => hx x (by simp [hx'])) ho.2
    refine ⟨?_, by rw [bothRun, hrec.2.1, k1], by rw [bothRun, hrec.2.2, k3]⟩
    intro o hm
    simp only [bothLog, List.mem_cons] at hm
    rcases hm with rfl | hm
    · exact k2
    · exact hrec.1 o hm

/-- Where a lock comes from. -/
def LockOrigin (hist : List ((Nat × Transport × Bytes) × Option Message)) (b : Both) : Prop :=
  ∀ tr c, (b.get tr).locked = some c →
    ∃ x n, x ∈ hist ∧ x.1.2.1 = tr ∧ x.2 = some ⟨c, .lock, []⟩ ∧ 1 ≤ n ∧ n ≤ 10 ∧
      (b.get tr).lockTimer = some (x.1.1 + 1000 * n) ∧ (b.get tr).isAllocated c = true

theorem isAllocated_mono {h h' : Hid} {c : Bytes} (ha : h.allocated ≤ h'.allocated) (hh : h.isAllocated c = true) : h'.isAllocated c = true := by
  simp [Hid.isAllocated] at hh ⊢
  exact ⟨hh.1, by omega⟩

theorem hid_step_lock (maxMsg now : Nat) (h : Hid) (p : Bytes) (d : Bool) (c : Bytes)
    (hc : (h.parsePacket maxMsg now p d).1.locked = some c) :
    (h.locked = some c ∧ (h.parsePacket maxMsg now p d).1.lockTimer = h.lockTimer) ∨
    (∃ n, 1 ≤ n ∧ n ≤ 10 ∧ (h.parsePacket maxMsg now p d).1.lockTimer = some (now + 1000 * n) ∧
      (h.parsePacket maxMsg now p d).2 = some ⟨c, .lock, []⟩ ∧ h.isAllocated c = true) := by
  obtain ⟨h2, hal, _, hlk, htm, hcase⟩ := hid_parse_cases maxMsg now h p d
  have hpl : h2.locked = some c → h.locked = some c := by
    rw [hlk]
    unfold Hid.pre
    split
    · exact id
    · unfold Hid.lockedChannel; dsimp only; split <;> simp
  rcases hcase with ⟨m, _, hm⟩ | ⟨_, h1, _⟩
  · rw [hm] at hc ⊢
    rcases preprocess_lock now h2 m with ⟨q1, q2⟩ | q | ⟨n, q1, q2, q3, q4, q5, q6⟩
    · left; rw [q1] at hc; exact ⟨hpl hc, by rw [q2, htm]⟩
    · rw [q] at hc; simp at hc
    · right
      rw [q3] at hc
      simp only [Option.some.injEq] at hc
      subst hc
      exact ⟨n, q1, q2, q4, q5, isAllocated_mono (by omega) q6⟩
  · left
    rw [h1] at hc ⊢
    exact ⟨hpl hc, htm⟩

theorem hid_step_alloc_le (maxMsg now : Nat) (h : Hid) (p : Bytes) (d : Bool) :
    h.allocated ≤ (h.parsePacket maxMsg now p d).1.allocated := by
  rcases hid_step_alloc maxMsg now h p d with h | h <;> omega

/-- The packets with the answers they got. -/
def history (maxMsg : Nat) (b : Both) (xs : List (Nat × Transport × Bytes)) : List ((Nat × Transport × Bytes) × Option Message) :=
  xs.zip (bothLog maxMsg b xs)

theorem lockOrigin_run {maxMsg : Nat} (xs : List (Nat × Transport × Bytes)) {b : Both}
    {hist : List ((Nat × Transport × Bytes) × Option Message)} (h : LockOrigin hist b) :
    LockOrigin (hist ++ history maxMsg b xs) (bothRun maxMsg b xs) := by
  induction xs generalizing b hist with
  | nil => simpa [history, bothRun] using h
  | cons x xs ih =>
    obtain ⟨t, tr, p⟩ := x
    obtain ⟨g1, g2, g3⟩ := both_step maxMsg t b tr p
    have hstep : LockOrigin (hist ++ [((t, tr, p), (b.parsePacket maxMsg t tr p).2)]) (b.parsePacket maxMsg t tr p).1 := by
      intro tr' c hc
      rcases tr_cases tr tr' with rfl | rfl
      · rw [g1] at hc ⊢
        rcases hid_step_lock _ _ _ _ _ _ hc with ⟨q1, q2⟩ | ⟨n, q1, q2, q3, q4, q5⟩
        · obtain ⟨x, n, m1, m2, m3, m4, m5, m6, m7⟩ := h tr' c q1
          exact ⟨x, n, by simp [m1], m2, m3, m4, m5, by rw [q2, m6], isAllocated_mono (hid_step_alloc_le ..) m7⟩
        · exact ⟨_, n, List.mem_append_right _ (List.mem_singleton.mpr rfl), rfl, by rw [g3]; exact q4, q1, q2, q3,
            isAllocated_mono (hid_step_alloc_le ..) q5⟩
      · rw [g2] at hc ⊢
        have hl : (b.get tr.other).locked = some c := by
          unfold Hid.hasChannelLock Hid.lockedChannel at hc
          dsimp only at hc
          split at hc
          · simp at hc
          · exact hc
        obtain ⟨x, n, m1, m2, m3, m4, m5, m6, m7⟩ := h tr.other c hl
        exact ⟨x, n, by simp [m1], m2, m3, m4, m5, by rw [← m6]; exact (lockedChannel_fields t _).2.2.1,
          isAllocated_mono (by rw [hasChannelLock_alloc]; exact Nat.le_refl _) m7⟩
    have := ih hstep
    simpa [history, bothRun, bothLog] using this

end Verif.Hid
