import Verif.Tock.SpecClock

/-!
# C52: timers across wrap-arounds
-/
namespace Verif.Tock

theorem tickle_spec {time t : Nat} {now : Timestamp} (h : now = ⟨time / 2 ^ 24, time % 2 ^ 24⟩) (h1 : time ≤ t)
    (h2 : t < time + 2 ^ 24) (h3 : t < 2 ^ 55) : tickle now (shown t) = ⟨t / 2 ^ 24, t % 2 ^ 24⟩ := by
  subst h
  unfold tickle shown u32Size
  dsimp only
  split
  · have : (time / 2 ^ 24 + 1) % 2 ^ 32 = t / 2 ^ 24 := by omega
    rw [this]
  · have : time / 2 ^ 24 = t / 2 ^ 24 := by omega
    rw [this]

theorem clockAfter_spec {last : Nat} {times : List Nat} (h : Regular last times) (now : Timestamp)
    (hn : now = ⟨last / 2 ^ 24, last % 2 ^ 24⟩) :
    times.foldl (fun now t => tickle now (shown t)) now
      = ⟨(times.getLast?.getD last) / 2 ^ 24, (times.getLast?.getD last) % 2 ^ 24⟩ := by
  induction times generalizing last now with
  | nil => exact hn
  | cons t ts ih =>
    obtain ⟨h1, h2, h3, h4⟩ := h
    rw [List.foldl_cons, ih h4 _ (tickle_spec hn h1 h2 h3)]
    cases ts <;> simp [List.getLast?_cons]

theorem addTicks_spec {time d : Nat} (h : time % 2 ^ 24 + d < 2 ^ 32) (h2 : time + d < 2 ^ 56) :
    Timestamp.addTicks ⟨time / 2 ^ 24, time % 2 ^ 24⟩ d = ⟨(time + d) / 2 ^ 24, (time + d) % 2 ^ 24⟩ := by
  unfold Timestamp.addTicks u32Size
  dsimp only
  have hm : min (time % 2 ^ 24 + d) (2 ^ 32 - 1) = time % 2 ^ 24 + d := by omega
  rw [hm, Nat.shiftRight_eq_div_pow]
  have ha : (time % 2 ^ 24 + d) &&& 0xffffff = (time % 2 ^ 24 + d) % 2 ^ 24 :=
    Nat.and_two_pow_sub_one_eq_mod _ 24
  rw [ha]
  have e1 : (time / 2 ^ 24 + (time % 2 ^ 24 + d) / 2 ^ 24) % 2 ^ 32 = (time + d) / 2 ^ 24 := by omega
  have e2 : (time % 2 ^ 24 + d) % 2 ^ 24 = (time + d) % 2 ^ 24 := by omega
  rw [e1, e2]

theorem ge_spec (t d : Nat) :
    Timestamp.ge ⟨t / 2 ^ 24, t % 2 ^ 24⟩ ⟨d / 2 ^ 24, d % 2 ^ 24⟩ = decide (d ≤ t) := by
  unfold Timestamp.ge
  rw [Bool.eq_iff_iff]
  simp only [Bool.or_eq_true, Bool.and_eq_true, decide_eq_true_eq, beq_iff_eq]
  omega

/-- The clock tells the time: after every history of regular uses it shows the true number of ticks. -/
theorem C52_time (times : List Nat) (h : Regular 0 times) :
    clockAfter times = ⟨(times.getLast?.getD 0) / 2 ^ 24, (times.getLast?.getD 0) % 2 ^ 24⟩ :=
  clockAfter_spec h ⟨0, 0⟩ rfl

theorem regular_append {last : Nat} {xs ys : List Nat} :
    Regular last (xs ++ ys) ↔ Regular last xs ∧ Regular (xs.getLast?.getD last) ys := by
  induction xs generalizing last with
  | nil => simp [Regular]
  | cons x xs ih =>
    rw [List.cons_append, Regular, Regular, ih]
    cases xs with
    | nil => simp [and_assoc]
    | cons y ys => simp [List.getLast?_cons, and_assoc]

/-- A timer fires exactly when its number of ticks has passed: for every history of uses of the clock before and after the
timer is made, across any number of wrap-arounds. -/
theorem C52_ticks (before between : List Nat) (t0 t : Nat) (h : Regular 0 (before ++ t0 :: between ++ [t]))
    (frequency milliseconds : Nat) (hd : deltaTick (milliseconds % 2 ^ 32) frequency < 2 ^ 32 - 2 ^ 24) :
    let made := makeTimer (clockAfter before) (shown t0) frequency milliseconds
    (isElapsed (between.foldl (fun now t => tickle now (shown t)) made.2) (shown t) made.1).1
      = decide (t0 + deltaTick (milliseconds % 2 ^ 32) frequency ≤ t) := by
  intro made
  rw [List.append_assoc] at h
  obtain ⟨h1, h2⟩ := regular_append.1 h
  obtain ⟨h3, h4, h5, h6⟩ := h2
  obtain ⟨h7, h8⟩ := regular_append.1 h6
  obtain ⟨h9, h10, h11, -⟩ := h8
  have hb := C52_time before h1
  have e0 : tickle (clockAfter before) (shown t0) = ⟨t0 / 2 ^ 24, t0 % 2 ^ 24⟩ := tickle_spec hb h3 h4 h5
  have e1 : made.2 = ⟨t0 / 2 ^ 24, t0 % 2 ^ 24⟩ := e0
  have e2 : made.1 = ⟨(t0 + deltaTick (milliseconds % 2 ^ 32) frequency) / 2 ^ 24,
      (t0 + deltaTick (milliseconds % 2 ^ 32) frequency) % 2 ^ 24⟩ := by
    show Timestamp.addTicks (tickle (clockAfter before) (shown t0)) _ = _
    rw [e0, show u32Size = 2 ^ 32 from rfl]
    exact addTicks_spec (by omega) (by omega)
  have e3 := clockAfter_spec h7 made.2 e1
  unfold isElapsed
  dsimp only
  rw [e3, tickle_spec rfl h9 h10 h11, e2, ge_spec]

/-- A timer fires never before its duration has passed, up to the length of one tick, and at the first check after it, if the
product of duration and frequency fits 32 bits: at 32768 Hz, up to 131071 ms. `t - t0` ticks are at least `milliseconds`, rounded
down to whole ticks.

What is missing: longer durations, see `C52_early`. -/
theorem C52_timer_partial (before between : List Nat) (t0 t : Nat) (h : Regular 0 (before ++ t0 :: between ++ [t]))
    (frequency milliseconds : Nat) (hm : milliseconds * frequency < 2 ^ 32) (hf : 0 < frequency) :
    let made := makeTimer (clockAfter before) (shown t0) frequency milliseconds
    (isElapsed (between.foldl (fun now t => tickle now (shown t)) made.2) (shown t) made.1).1 = true ↔
      milliseconds * frequency < (t - t0 + 1) * 1000 ∧ t0 ≤ t := by
  have hms : milliseconds % 2 ^ 32 = milliseconds := by
    apply Nat.mod_eq_of_lt
    exact Nat.lt_of_le_of_lt (Nat.le_mul_of_pos_right _ hf) hm
  have hdt : deltaTick (milliseconds % 2 ^ 32) frequency = milliseconds * frequency / 1000 := by
    rw [hms]
    unfold deltaTick u32Size
    rw [if_pos hm]
  have := C52_ticks before between t0 t h frequency milliseconds (by rw [hdt]; omega)
  intro made
  rw [this, hdt, decide_eq_true_iff]
  generalize milliseconds * frequency = x
  omega

/-- Longer timers never fire late either: at the first check after the duration, they have fired. Here the duration is any
number of milliseconds that the timer can represent. -/
theorem C52_not_late (before between : List Nat) (t0 t : Nat) (h : Regular 0 (before ++ t0 :: between ++ [t]))
    (frequency milliseconds : Nat) (hms : milliseconds < 2 ^ 32)
    (hd : deltaTick milliseconds frequency < 2 ^ 32 - 2 ^ 24) (hlate : milliseconds * frequency ≤ (t - t0) * 1000)
    (hle : t0 ≤ t) :
    let made := makeTimer (clockAfter before) (shown t0) frequency milliseconds
    (isElapsed (between.foldl (fun now t => tickle now (shown t)) made.2) (shown t) made.1).1 = true := by
  have hm : milliseconds % 2 ^ 32 = milliseconds := Nat.mod_eq_of_lt hms
  have := C52_ticks before between t0 t h frequency milliseconds (by rw [hm]; exact hd)
  intro made
  rw [this, hm, decide_eq_true_iff]
  have hdt : deltaTick milliseconds frequency * 1000 ≤ milliseconds * frequency := by
    unfold deltaTick
    split
    · exact Nat.div_mul_le_self _ _
    · have h1 : milliseconds / 100 * 100 ≤ milliseconds := Nat.div_mul_le_self _ _
      have h2 : frequency / 10 * 10 ≤ frequency := Nat.div_mul_le_self _ _
      have h3 := Nat.mul_le_mul h1 h2
      have h4 : milliseconds / 100 * 100 * (frequency / 10 * 10) = milliseconds / 100 * (frequency / 10) * 1000 := by
        rw [Nat.mul_mul_mul_comm]
      rw [h4] at h3
      have h5 : min (milliseconds / 100 * (frequency / 10)) (u32Size - 1) ≤ milliseconds / 100 * (frequency / 10) :=
        Nat.min_le_left _ _
      exact Nat.le_trans (Nat.mul_le_mul_right _ h5) h3
  generalize deltaTick milliseconds frequency = x at hdt
  generalize milliseconds * frequency = y at hdt hlate
  omega

/-- The timer of ten minutes fires about 0.15 s early at 32768 Hz: 4800 ticks are missing. -/
theorem C52_early : ∃ (before between : List Nat) (t0 t : Nat), Regular 0 (before ++ t0 :: between ++ [t]) ∧
    (t - t0 + 1) * 1000 < 600000 * 32768 ∧
    (isElapsed (between.foldl (fun now t => tickle now (shown t))
        (makeTimer (clockAfter before) (shown t0) 32768 600000).2) (shown t)
      (makeTimer (clockAfter before) (shown t0) 32768 600000).1).1 = true :=
  ⟨[], [5000000, 12000000], 0, 19656000, by simp [Regular], by decide, by decide⟩

/-- How early: for 32768 Hz and durations that are multiples of 100 ms, less than 0.025 % of the duration. -/
theorem C52_early_bound (milliseconds : Nat) (h100 : 100 ∣ milliseconds) (hms : milliseconds < 2 ^ 32)
    (hd : milliseconds / 100 * 3276 < 2 ^ 32) :
    milliseconds * 32768 * 99975 ≤ deltaTick milliseconds 32768 * 1000 * 100000 + 1000 * 100000 := by
  obtain ⟨k, rfl⟩ := h100
  unfold deltaTick u32Size
  split
  · omega
  · omega

/-! ### Examples -/

/-- Uses of the clock across three wrap-arounds. -/
def uses : List Nat := [10000000, 20000000, 30000000, 45000000]

example : Regular 0 (uses ++ 50000000 :: [50500000] ++ [50983040]) := by simp [uses, Regular]

/-- A timer of 30 s at 32768 Hz is 983040 ticks. -/
example : (isElapsed ([50500000].foldl (fun now t => tickle now (shown t))
      (makeTimer (clockAfter uses) (shown 50000000) 32768 30000).2) (shown 50983039)
      (makeTimer (clockAfter uses) (shown 50000000) 32768 30000).1).1 = false ∧
    (isElapsed ([50500000].foldl (fun now t => tickle now (shown t))
      (makeTimer (clockAfter uses) (shown 50000000) 32768 30000).2) (shown 50983040)
      (makeTimer (clockAfter uses) (shown 50000000) 32768 30000).1).1 = true := by decide

end Verif.Tock
