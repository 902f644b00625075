import Verif.Ctap.VeilLemmas
import Verif.Ctap.VeilGuess

/-!
# C89: the device tells nothing about the PIN except whether a guess is right
-/
namespace Verif.Ctap
variable [Dev]

theorem AlikeButPin.rel {s1 s2 : St} (h : AlikeButPin s1 s2) (o : Oracle) : PRel (s1.withOracle o) (s2.withOracle o) := by
  refine ⟨?_, h.volatile, ?_, h.pin⟩
  · show ({ s2.env with o := o, k := 0 } : Env) = { s1.env with o := o, k := 0 }
    rw [h.env]
  · show s2.p = { s1.p with pin := s2.p.pin }
    exact h.data s2.p.pin

theorem PRel.alike {s1 s2 : St} (h : PRel s1 s2) : AlikeButPin s1 s2 :=
  ⟨h.env, h.vol, fun pin => by rw [h.data], h.pin⟩

theorem after_grows : ∀ (l : List (Oracle × Option Input)) (s : St), s.log <:+ (after l s).log
  | [], _ => List.suffix_refl _
  | (o, none) :: l, s =>
    ((inferInstance : PSame bootM).grows (s.withOracle o)).trans (after_grows l (bootM (s.withOracle o)).2)
  | (o, some i) :: l, s =>
    ((inferInstance : PSame (stepM i)).grows (s.withOracle o)).trans (after_grows l (stepM i (s.withOracle o)).2)

/-- **C89**: on two devices that differ only in the hash of the PIN, any input gets the same answer and the devices
again differ at most in the hash, unless the input guesses the PIN of one of them. -/
theorem C89_step {s1 s2 : St} (h : AlikeButPin s1 s2) (o : Oracle) (i : Input)
    (h1 : ¬ HappenedSince s1.log Ev.isRightGuess (stepM i (s1.withOracle o)).2.log)
    (h2 : ¬ HappenedSince s2.log Ev.isRightGuess (stepM i (s2.withOracle o)).2.log) :
    (stepM i (s1.withOracle o)).1 = (stepM i (s2.withOracle o)).1 ∧
    AlikeButPin (stepM i (s1.withOracle o)).2 (stepM i (s2.withOracle o)).2 := by
  rcases (inferInstance : PSame (stepM i)).out _ _ (h.rel o) with h3 | h3 | h3
  · exact ⟨h3.1.eq, h3.2.alike⟩
  · exact absurd h3 h1
  · exact absurd h3 h2

theorem boot_alikeButPin {s1 s2 : St} (h : AlikeButPin s1 s2) (o : Oracle)
    (h1 : ¬ HappenedSince s1.log Ev.isRightGuess (bootM (s1.withOracle o)).2.log)
    (h2 : ¬ HappenedSince s2.log Ev.isRightGuess (bootM (s2.withOracle o)).2.log) :
    AlikeButPin (bootM (s1.withOracle o)).2 (bootM (s2.withOracle o)).2 := by
  rcases (inferInstance : PSame bootM).out _ _ (h.rel o) with h3 | h3 | h3
  · exact h3.2.alike
  · exact absurd h3 h1
  · exact absurd h3 h2

/-- **C89**: whatever clients send, in whatever order, with whatever storage failures and power losses: all answers of
the two devices are equal, unless a client guesses the PIN of one of them. -/
theorem C89_session : ∀ (l : List (Oracle × Option Input)) {s1 s2 : St}, AlikeButPin s1 s2 → ¬ GuessedIn l s1 →
    ¬ GuessedIn l s2 → session l s1 = session l s2 ∧ AlikeButPin (after l s1) (after l s2)
  | [], _, _, h, _, _ => ⟨rfl, h⟩
  | (o, none) :: l, s1, s2, h, h1, h2 => by
    have g (s : St) : s.log <:+ (bootM (s.withOracle o)).2.log := (inferInstance : PSame bootM).grows (s.withOracle o)
    have k (s : St) (hn : ¬ GuessedIn ((o, none) :: l) s) : ¬ HappenedSince s.log Ev.isRightGuess (bootM (s.withOracle o)).2.log :=
      fun h3 => hn (Guessed.more (s := s) (t := (bootM (s.withOracle o)).2) (u := after l (bootM (s.withOracle o)).2) h3 (after_grows l _))
    have h3 := boot_alikeButPin h o (k s1 h1) (k s2 h2)
    exact C89_session l h3 (fun h4 => h1 (Guessed.before (g s1) h4)) fun h4 => h2 (Guessed.before (g s2) h4)
  | (o, some i) :: l, s1, s2, h, h1, h2 => by
    have g (s : St) : s.log <:+ (stepM i (s.withOracle o)).2.log := (inferInstance : PSame (stepM i)).grows (s.withOracle o)
    have k (s : St) (hn : ¬ GuessedIn ((o, some i) :: l) s) :
        ¬ HappenedSince s.log Ev.isRightGuess (stepM i (s.withOracle o)).2.log :=
      fun h3 => hn (Guessed.more (s := s) (t := (stepM i (s.withOracle o)).2) (u := after l (stepM i (s.withOracle o)).2) h3
        (after_grows l _))
    obtain ⟨h3, h4⟩ := C89_step h o i (k s1 h1) (k s2 h2)
    obtain ⟨h5, h6⟩ := C89_session l h4 (fun h4 => h1 (Guessed.before (g s1) h4)) fun h4 => h2 (Guessed.before (g s2) h4)
    refine ⟨?_, h6⟩
    show (i, _) :: session l _ = (i, _) :: session l _
    rw [h3, h5]

/-- **C89**, the other way around: who can tell the devices apart has guessed the PIN of one of them. -/
theorem C89_told_apart (l : List (Oracle × Option Input)) {s1 s2 : St} (h : AlikeButPin s1 s2)
    (hd : session l s1 ≠ session l s2) : GuessedIn l s1 ∨ GuessedIn l s2 := by
  by_cases h1 : GuessedIn l s1
  · exact .inl h1
  · by_cases h2 : GuessedIn l s2
    · exact .inr h2
    · exact absurd (C89_session l h h1 h2).1 hd

/-- **C89**: a comparison of the device succeeds only for an input that carries an encryption of the stored hash. -/
theorem C89_right_guess {s : St} {o : Oracle} {i : Input}
    (h : HappenedSince s.log Ev.isRightGuess (stepM i (s.withOracle o)).2.log) :
    ∃ hash n, s.p.pin = some (hash, n) ∧ i.GuessOf hash s := by
  refine Classical.byContradiction fun hn => ?_
  have hn' : ∀ hash n, (s.withOracle o).p.pin = some (hash, n) → ¬ i.GuessOf hash (s.withOracle o) := by
    intro hash n h1 h2
    refine hn ⟨hash, n, h1, ?_⟩
    cases i <;> exact h2
  obtain ⟨p, h4, h5⟩ := noGuess_step hn'
  obtain ⟨n, h1, e, h2, h3⟩ := h
  have : n = p := List.append_cancel_right (h1.symm.trans h4)
  subst this
  rw [h5 e h2] at h3
  cases h3

theorem boot_no_guess {s : St} (o : Oracle) : ¬ HappenedSince s.log Ev.isRightGuess (bootM (s.withOracle o)).2.log := by
  rintro ⟨n, h1, e, h2, h3⟩
  have h0 : NoGuess s.log (s.withOracle o) := ⟨[], rfl, by simp⟩
  obtain ⟨p, h4, h5⟩ := (inferInstance : Pres (NoGuess s.log) bootM).out _ h0
  have : n = p := List.append_cancel_right (h1.symm.trans h4)
  subst this
  rw [h5 e h2] at h3
  cases h3

/-- A right guess within a history is one before or one after a point in between. -/
theorem happened_split {l m n : List Ev} {q : Ev → Bool} (h1 : l <:+ m) (h2 : m <:+ n) (h : HappenedSince l q n) :
    HappenedSince l q m ∨ HappenedSince m q n := by
  obtain ⟨a, rfl⟩ := h1
  obtain ⟨b, rfl⟩ := h2
  obtain ⟨c, h3, e, h4, h5⟩ := h
  rw [← List.append_assoc] at h3
  have := List.append_cancel_right h3
  subst this
  rcases List.mem_append.1 h4 with h4 | h4
  · exact .inr ⟨b, rfl, e, h4, h5⟩
  · exact .inl ⟨a, rfl, e, h4, h5⟩

theorem guessedIn_carries : ∀ (l : List (Oracle × Option Input)) {s : St}, GuessedIn l s → RightGuessIn l s
  | [], s, h => by
    obtain ⟨n, h1, e, h2, _⟩ := h
    have : n = [] := List.append_cancel_right (h1.symm.trans (List.nil_append s.log).symm)
    subst this
    cases h2
  | (o, none) :: l, s, h =>
    have g : s.log <:+ (bootM (s.withOracle o)).2.log := (inferInstance : PSame bootM).grows (s.withOracle o)
    (happened_split g (after_grows l (bootM (s.withOracle o)).2) h).elim (fun h1 => absurd h1 (boot_no_guess o))
      fun h1 => guessedIn_carries l h1
  | (o, some i) :: l, s, h =>
    have g : s.log <:+ (stepM i (s.withOracle o)).2.log := (inferInstance : PSame (stepM i)).grows (s.withOracle o)
    (happened_split g (after_grows l (stepM i (s.withOracle o)).2) h).imp (fun h1 => C89_right_guess h1)
      fun h1 => guessedIn_carries l h1

/-- **C89**, in terms of what clients send: as long as no input carries the hash of the PIN of one of the devices, all
their answers are equal. -/
theorem C89_secret (l : List (Oracle × Option Input)) {s1 s2 : St} (h : AlikeButPin s1 s2) (h1 : ¬ RightGuessIn l s1)
    (h2 : ¬ RightGuessIn l s2) : session l s1 = session l s2 :=
  (C89_session l h (fun h3 => h1 (guessedIn_carries l h3)) fun h3 => h2 (guessedIn_carries l h3)).1

end Verif.Ctap

namespace Verif.Ctap.Toy

def rePin (s : St) (hash : Bytes) (n : Nat) : St := { s with p := { s.p with pin := some (hash, n) } }

theorem alike_rePin {s : St} {n : Nat} (h : s.p.pin.map (·.2) = some n) (hash : Bytes) : AlikeButPin s (rePin s hash n) :=
  ⟨rfl, rfl, fun _ => rfl, h.symm⟩

/-- The device with a PIN, and the same device with another one. -/
def otherPin : St := rePin withPin ((Dev.sha256 (b! "9999")).take 16) 4

theorem alike_pin : AlikeButPin withPin otherPin := alike_rePin (by decide +kernel) _

/-- Wrong guesses, a power loss and a registration: no guess is right on either device, so that the answers are equal;
the PIN of the first device tells them apart. -/
example :
    let l := [(good, some (getToken (b! "1111"))), (good, some (register rpA [1] true none)), (good, none),
      (good, some (changePin (b! "2222") (b! "3333")))]
    session l withPin = session l otherPin ∧
    ((after l withPin).log.filter Ev.isGuess).length = 2 ∧
    bytes good (getToken pin) withPin ≠ bytes good (getToken pin) otherPin := by
  refine ⟨(C89_session _ alike_pin ?_ ?_).1, by decide +kernel, by decide +kernel⟩
  · rintro ⟨n, h1, e, h2, h3⟩
    have h4 : (newEvents withPin.log (after [(good, some (getToken (b! "1111"))), (good, some (register rpA [1] true none)),
      (good, none), (good, some (changePin (b! "2222") (b! "3333")))] withPin).log).any Ev.isRightGuess = false := by decide +kernel
    rw [h1, newEvents_append, List.any_eq_false] at h4
    exact h4 e h2 h3
  · rintro ⟨n, h1, e, h2, h3⟩
    have h4 : (newEvents otherPin.log (after [(good, some (getToken (b! "1111"))), (good, some (register rpA [1] true none)),
      (good, none), (good, some (changePin (b! "2222") (b! "3333")))] otherPin).log).any Ev.isRightGuess = false := by decide +kernel
    rw [h1, newEvents_append, List.any_eq_false] at h4
    exact h4 e h2 h3

end Verif.Ctap.Toy
