import Verif.Tock.Presence

/-!
# C85: user presence is a button that is pressed
-/
namespace Verif.Tock.Presence

/-! ## Specification -/

/-- The first thing that ends the wait. -/
inductive First : List Upcall → Upcall → Prop
  | here (n : Nat) (us : List Upcall) : First (.button n true :: us) (.button n true)
  | alarm (us : List Upcall) : First (.alarm :: us) .alarm
  | released (n : Nat) {us : List Upcall} {u : Upcall} (h : First us u) : First (.button n false :: us) u
  | other {us : List Upcall} {u : Upcall} (h : First us u) : First (.other :: us) u

/-- All drivers do what they are asked to. -/
structure Works (k : Kernel) : Prop where
  count : ∃ n, k.count = some n ∧ ∀ i < n, k.enable i = true ∧ k.disable i = true
  register : k.register = true
  init : k.init = true
  subscribe : k.subscribe = true
  set : k.set = true
  stop : k.stop ≠ .fail

/-! ## Lemmas -/

theorem yieldFor_done (t e : Bool) (us : List Upcall) (h : (t || e) = true) : yieldFor t e us = some (t, e) := by
  cases us <;> simp [yieldFor, h]

theorem yieldFor_spec (us : List Upcall) :
    (yieldFor false false us = none ∧ ∀ u, ¬ First us u) ∨
    (yieldFor false false us = some (true, false) ∧ ∃ n, First us (.button n true)) ∨
    (yieldFor false false us = some (false, true) ∧ First us .alarm) := by
  induction us with
  | nil => exact .inl ⟨rfl, fun u h => by cases h⟩
  | cons u us ih =>
    cases u with
    | button n b =>
      cases b
      · rcases ih with ⟨h1, h2⟩ | ⟨h1, n', h2⟩ | ⟨h1, h2⟩
        · exact .inl ⟨by simpa [yieldFor, isPress, isAlarm] using h1, fun u h => by cases h with | released _ h => exact h2 u h⟩
        · exact .inr (.inl ⟨by simpa [yieldFor, isPress, isAlarm] using h1, n', .released n h2⟩)
        · exact .inr (.inr ⟨by simpa [yieldFor, isPress, isAlarm] using h1, .released n h2⟩)
      · exact .inr (.inl ⟨by simp [yieldFor, isPress, isAlarm, yieldFor_done], n, .here n us⟩)
    | alarm => exact .inr (.inr ⟨by simp [yieldFor, isPress, isAlarm, yieldFor_done], .alarm us⟩)
    | other =>
      rcases ih with ⟨h1, h2⟩ | ⟨h1, n', h2⟩ | ⟨h1, h2⟩
      · exact .inl ⟨by simpa [yieldFor, isPress, isAlarm] using h1, fun u h => by cases h with | other h => exact h2 u h⟩
      · exact .inr (.inl ⟨by simpa [yieldFor, isPress, isAlarm] using h1, n', .other h2⟩)
      · exact .inr (.inr ⟨by simpa [yieldFor, isPress, isAlarm] using h1, .other h2⟩)

theorem first_unique {us : List Upcall} {u v : Upcall} (h : First us u) (h' : First us v) : u = v := by
  induction h with
  | here => cases h'; rfl
  | alarm => cases h'; rfl
  | released n _ ih => cases h' with | released _ h' => exact ih h'
  | other _ ih => cases h' with | other h' => exact ih h'

/-! ## C85 -/

/-- Whatever the kernel does: the user counts as present only if a button was pressed during the wait, before the time was up. -/
theorem C85_pressed {ms : Nat} {k : Kernel} (h : wait ms k = .touched) : 0 < ms ∧ ∃ n, First k.upcalls (.button n true) := by
  unfold wait at h
  split at h
  · cases h
  · refine ⟨by omega, ?_⟩
    split at h
    · cases h
    · rcases yieldFor_spec k.upcalls with ⟨h1, _⟩ | ⟨_, h2⟩ | ⟨h1, _⟩
      · rw [h1] at h; simp at h; (repeat' split at h) <;> simp at h
      · exact h2
      · rw [h1] at h; simp at h; (repeat' split at h) <;> simp at h

/-- Whatever the kernel does: a timeout means that there was no time to wait, or that the alarm fired and no button was pressed
before. -/
theorem C85_timeout {ms : Nat} {k : Kernel} (h : wait ms k = .timeout) : ms = 0 ∨ First k.upcalls .alarm := by
  unfold wait at h
  split at h
  · rename_i h0; exact .inl h0
  · right
    split at h
    · cases h
    · rcases yieldFor_spec k.upcalls with ⟨h1, _⟩ | ⟨h1, _⟩ | ⟨_, h2⟩
      · rw [h1] at h; simp at h; (repeat' split at h) <;> simp at h
      · rw [h1] at h; simp at h; (repeat' split at h) <;> simp at h
      · exact h2

/-- When the drivers work, the outcome is what happens first; a press is confirmed if the alarm can still be stopped. -/
theorem C85_outcome_partial {ms : Nat} {k : Kernel} (hm : 0 < ms) (hk : Works k) :
    (∀ n, First k.upcalls (.button n true) → k.stop = .ok → wait ms k = .touched) ∧
    (First k.upcalls .alarm → wait ms k = .timeout) ∧
    ((∀ u, ¬ First k.upcalls u) → wait ms k = .waiting) := by
  obtain ⟨n, hn, hb⟩ := hk.count
  have he : (List.range n).all k.enable = true := by
    rw [List.all_eq_true]; intro i hi; exact (hb i (List.mem_range.1 hi)).1
  have hd : (List.range n).all k.disable = true := by
    rw [List.all_eq_true]; intro i hi; exact (hb i (List.mem_range.1 hi)).2
  have hw : wait ms k = match yieldFor false false k.upcalls with
      | none => .waiting
      | some (touched, expired) =>
        if k.stop = .fail || (k.stop = .already && !expired) then .panic else
        if touched then .touched else if expired then .timeout else .panic := by
    unfold wait
    rw [if_neg (by omega), hn]
    simp only [he, hk.register, hk.init, hk.subscribe, hk.set, hd, Bool.not_true, Bool.false_eq_true, if_false]
    rfl
  rw [hw]
  have hs := hk.stop
  rcases yieldFor_spec k.upcalls with ⟨h1, h2⟩ | ⟨h1, n', h2⟩ | ⟨h1, h2⟩
  · rw [h1]
    exact ⟨fun n h => absurd h (h2 _), fun h => absurd h (h2 _), fun _ => rfl⟩
  · rw [h1]
    refine ⟨fun n h ho => ?_, fun h => ?_, fun h => absurd h2 (h _)⟩
    · simp [ho]
    · have := first_unique h2 h
      cases this
  · rw [h1]
    refine ⟨fun n h ho => ?_, fun h => ?_, fun h => absurd h2 (h _)⟩
    · have := first_unique h2 h
      cases this
    · simp [hs]

/-- What is missing: a press ends in a panic if the alarm fires between the press and the attempt to stop it. Every driver works,
and the kernel answers that there is no alarm to stop; the code asserts that it knows already. -/
theorem C85_race : ∃ k : Kernel, Works k ∧ First k.upcalls (.button 0 true) ∧ k.stop = .already ∧ wait 100 k = .panic :=
  ⟨{ count := some 1, enable := fun _ => true, register := true, init := true, subscribe := true, set := true,
     upcalls := [.other, .button 0 true, .alarm], disable := fun _ => true, stop := .already },
   ⟨⟨1, rfl, fun _ _ => ⟨rfl, rfl⟩⟩, rfl, rfl, rfl, rfl, by decide⟩, .other (.here 0 _), rfl, by decide⟩

/-- A panic means that a timer call failed, or that the race happened. -/
theorem C85_panic {ms : Nat} {k : Kernel} (h : wait ms k = .panic) :
    k.init = false ∨ k.set = false ∨ k.stop = .fail ∨ (k.stop = .already ∧ ∃ n, First k.upcalls (.button n true)) := by
  unfold wait at h
  split at h
  · cases h
  · split at h
    · cases h
    · cases hi : k.init
      · exact .inl rfl
      · cases hs : k.set
        · exact .inr (.inl rfl)
        · right; right
          simp only [hi, hs] at h
          rcases yieldFor_spec k.upcalls with ⟨h1, _⟩ | ⟨h1, h2⟩ | ⟨h1, h2⟩
          · rw [h1] at h; simp at h; (repeat' split at h) <;> simp at h
          · rw [h1] at h
            cases ho : k.stop with
            | ok => simp [ho] at h; (repeat' split at h) <;> simp at h
            | already => exact .inr ⟨rfl, h2⟩
            | fail => exact .inl rfl
          · rw [h1] at h
            cases ho : k.stop with
            | ok => simp [ho] at h; (repeat' split at h) <;> simp at h
            | already => simp [ho] at h; (repeat' split at h) <;> simp at h
            | fail => exact .inl rfl

/-- A kernel with two buttons. -/
def two (us : List Upcall) : Kernel :=
  { count := some 2, enable := fun _ => true, register := true, init := true, subscribe := true, set := true, upcalls := us,
    disable := fun _ => true, stop := .ok }

example : Works (two [.button 1 false, .other, .button 1 true]) ∧ First (two [.button 1 false, .other, .button 1 true]).upcalls (.button 1 true) ∧
    wait 100 (two [.button 1 false, .other, .button 1 true]) = .touched ∧
    wait 100 (two [.button 1 false, .alarm, .button 1 true]) = .timeout ∧
    wait 100 (two [.button 1 false]) = .waiting ∧ wait 0 (two [.button 1 true]) = .timeout :=
  ⟨⟨⟨2, rfl, fun _ _ => ⟨rfl, rfl⟩⟩, rfl, rfl, rfl, rfl, by decide⟩, .released 1 (.other (.here 1 [])), by decide⟩

end Verif.Tock.Presence
