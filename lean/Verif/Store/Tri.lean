import Verif.Store.Model
import Verif.Store.FormatLemmas
import Verif.Store.Geometry

/-!
# Reasoning about computations of the store
-/
namespace Verif.Store

/-- What holds after a computation: on success, after an error, and for the flash after loss of power. -/
def Tri {α : Type} (m : M α) (s : St) (P : α → St → Prop) (E : Err → St → Prop) (C : Flash → Prop) : Prop :=
  match m s with
  | (.ok a, s') => P a s'
  | (.err e, s') => E e s'
  | (.crash, s') => C s'.fl

section
variable {α β : Type}

theorem tri_bind {m : M α} {f : α → M β} {s : St} {P : β → St → Prop} {E : Err → St → Prop} {C : Flash → Prop}
    (h : Tri m s (fun a s' => Tri (f a) s' P E C) E C) : Tri (m >>= f) s P E C := by
  show Tri (M.bind m f) s P E C
  simp only [Tri, M.bind] at h ⊢
  rcases hm : m s with ⟨r, s'⟩
  rw [hm] at h
  cases r <;> simpa using h

theorem tri_mono {m : M α} {s : St} {P P' : α → St → Prop} {E E' : Err → St → Prop} {C C' : Flash → Prop}
    (h : Tri m s P E C) (hP : ∀ a s', P a s' → P' a s') (hE : ∀ e s', E e s' → E' e s') (hC : ∀ fl, C fl → C' fl) :
    Tri m s P' E' C' := by
  simp only [Tri] at h ⊢
  rcases hm : m s with ⟨r, s'⟩
  rw [hm] at h
  cases r
  · exact hP _ _ h
  · exact hE _ _ h
  · exact hC _ h

theorem tri_pure {a : α} {s : St} {P : α → St → Prop} {E : Err → St → Prop} {C : Flash → Prop} (h : P a s) :
    Tri (M.pure a) s P E C := h

theorem tri_fail {e : Err} {s : St} {P : α → St → Prop} {E : Err → St → Prop} {C : Flash → Prop} (h : E e s) :
    Tri (fail e) s P E C := h

theorem tri_liftE {x : Except Err α} {a : α} {s : St} {P : α → St → Prop} {E : Err → St → Prop} {C : Flash → Prop}
    (hx : x = .ok a) (h : P a s) : Tri (liftE x) s P E C := by
  subst hx; exact h

theorem tri_getFl {s : St} {P : Flash → St → Prop} {E : Err → St → Prop} {C : Flash → Prop} (h : P s.fl s) :
    Tri getFl s P E C := h

theorem tri_getHead {s : St} {x : Nat} {P : Nat → St → Prop} {E : Err → St → Prop} {C : Flash → Prop} (hx : s.head = some x)
    (h : P x s) : Tri getHead s P E C := by
  simp only [Tri, getHead, hx]; exact h

theorem tri_getEntries {s : St} {x : List Nat} {P : List Nat → St → Prop} {E : Err → St → Prop} {C : Flash → Prop}
    (hx : s.entries = some x) (h : P x s) : Tri getEntries s P E C := by
  simp only [Tri, getEntries, hx]; exact h

theorem tri_setHead {s : St} {x : Nat} {P : Unit → St → Prop} {E : Err → St → Prop} {C : Flash → Prop}
    (h : P () { s with head := some x }) : Tri (setHead x) s P E C := h

theorem tri_setEntries {s : St} {x : Option (List Nat)} {P : Unit → St → Prop} {E : Err → St → Prop} {C : Flash → Prop}
    (h : P () { s with entries := x }) : Tri (setEntries x) s P E C := h

end

/-- A computation that only changes the flash and does not fail: `P` relates the result and the new flash. -/
def Fls {α : Type} (m : M α) (fl : Flash) (P : α → Flash → Prop) (C : Flash → Prop) : Prop :=
  ∀ s, s.fl = fl → Tri m s (fun a s' => s'.head = s.head ∧ s'.entries = s.entries ∧ P a s'.fl) (fun _ _ => False) C

section
variable {α β : Type}

theorem fls_bind {m : M α} {f : α → M β} {fl : Flash} {P : β → Flash → Prop} {C : Flash → Prop}
    (h : Fls m fl (fun a fl' => Fls (f a) fl' P C) C) : Fls (m >>= f) fl P C := by
  intro s hs
  apply tri_bind
  refine tri_mono (h s hs) ?_ (fun _ _ h => h.elim) (fun _ h => h)
  rintro a s' ⟨h1, h2, h3⟩
  refine tri_mono (h3 s' rfl) ?_ (fun _ _ h => h.elim) (fun _ h => h)
  rintro b s'' ⟨h4, h5, h6⟩
  exact ⟨by rw [h4, h1], by rw [h5, h2], h6⟩

theorem fls_mono {m : M α} {fl : Flash} {P P' : α → Flash → Prop} {C C' : Flash → Prop} (h : Fls m fl P C)
    (hP : ∀ a fl', P a fl' → P' a fl') (hC : ∀ fl', C fl' → C' fl') : Fls m fl P' C' := fun s hs =>
  tri_mono (h s hs) (fun a s' h => ⟨h.1, h.2.1, hP _ _ h.2.2⟩) (fun _ _ h => h) hC

theorem fls_pure {a : α} {fl : Flash} {P : α → Flash → Prop} {C : Flash → Prop} (h : P a fl) : Fls (M.pure a) fl P C := by
  rintro s rfl
  exact ⟨rfl, rfl, h⟩

theorem fls_liftE {x : Except Err α} {a : α} {fl : Flash} {P : α → Flash → Prop} {C : Flash → Prop} (hx : x = .ok a)
    (h : P a fl) : Fls (liftE x) fl P C := by
  subst hx; exact fls_pure h

theorem fls_getFl {fl : Flash} {P : Flash → Flash → Prop} {C : Flash → Prop} (h : P fl fl) : Fls getFl fl P C := by
  rintro s rfl
  exact ⟨rfl, rfl, h⟩

/-- Using a computation on the flash in a proof about the whole state. -/
theorem tri_fls {m : M α} {s : St} {P : α → Flash → Prop} {P' : α → St → Prop} {E : Err → St → Prop} {C C' : Flash → Prop}
    (h : Fls m s.fl P C) (hP : ∀ a s', s'.head = s.head → s'.entries = s.entries → P a s'.fl → P' a s')
    (hC : ∀ fl', C fl' → C' fl') : Tri m s P' E C' :=
  tri_mono (h s rfl) (fun a s' h => hP a s' h.1 h.2.1 h.2.2) (fun _ _ h => h.elim) hC

end

/-! ## Physical writes -/

/-- The words of a slice of a page are replaced. -/
structure Wrote (fl : Flash) (page idx : Nat) (ws : List Word) (fl' : Flash) : Prop where
  other : ∀ p i, (p ≠ page ∨ i < idx ∨ idx + ws.length ≤ i) → fl' p i = fl p i
  here : ∀ i (h : i < ws.length), fl' page (idx + i) = ws[i]

/-- Some of the bits of the words of a slice of a page are cleared. -/
structure WrotePartly (fl : Flash) (page idx : Nat) (ws : List Word) (fl' : Flash) : Prop where
  other : ∀ p i, (p ≠ page ∨ i < idx ∨ idx + ws.length ≤ i) → fl' p i = fl p i
  above : ∀ i (h : i < ws.length), Le ws[i] (fl' page (idx + i))
  below : ∀ i, i < ws.length → Le (fl' page (idx + i)) (fl page (idx + i))

theorem Wrote.nil (fl : Flash) (page idx : Nat) : Wrote fl page idx [] fl :=
  ⟨fun _ _ _ => rfl, fun i h => absurd h (by simp)⟩

theorem writeNeededBytes_le : (xs ys : Bytes) → xs.length = ys.length →
    (∀ (i : Nat) (h1 : i < xs.length) (h2 : i < ys.length), xs[i] &&& ys[i] = ys[i]) →
    writeNeededBytes xs ys = .ok (decide (xs ≠ ys))
  | [], [], _, _ => rfl
  | x :: xs, y :: ys, hl, h => by
    have h0 := h 0 (by simp) (by simp)
    simp only [List.getElem_cons_zero] at h0
    simp only [writeNeededBytes]
    rw [if_neg (by simpa using h0)]
    by_cases e : x = y
    · subst e
      rw [if_neg (by simp), writeNeededBytes_le xs ys (by simpa using hl) (fun i h1 h2 => by
        have := h (i + 1) (by simpa using h1) (by simpa using h2)
        simpa using this)]
      simp
    · rw [if_pos (by simpa using e)]
      simp [e]

theorem wordBytes_inj {w w' : Word} (h : wordBytes w = wordBytes w') : w = w' := by
  simp only [wordBytes, List.cons.injEq, and_true] at h
  obtain ⟨h1, h2, h3, h4⟩ := h
  apply BitVec.eq_of_getLsbD_eq
  intro i hi
  have key : ∀ k, w.extractLsb' k 8 = w'.extractLsb' k 8 → k ≤ i → i < k + 8 → w.getLsbD i = w'.getLsbD i := by
    intro k hk h5 h6
    have := congrArg (·.getLsbD (i - k)) hk
    simp only [BitVec.getLsbD_extractLsb'] at this
    have e : k + (i - k) = i := by omega
    have e2 : i - k < 8 := by omega
    simpa [e, e2] using this
  rcases Nat.lt_or_ge i 8 with h5 | h5
  · exact key 0 (congrArg UInt8.toBitVec h1) (by omega) (by omega)
  rcases Nat.lt_or_ge i 16 with h6 | h6
  · exact key 8 (congrArg UInt8.toBitVec h2) (by omega) (by omega)
  rcases Nat.lt_or_ge i 24 with h7 | h7
  · exact key 16 (congrArg UInt8.toBitVec h3) (by omega) (by omega)
  · exact key 24 (congrArg UInt8.toBitVec h4) (by omega) (by omega)

theorem extract_and (w w' : Word) (k : Nat) : (⟨w.extractLsb' k 8⟩ : UInt8) &&& ⟨w'.extractLsb' k 8⟩ = ⟨(w &&& w').extractLsb' k 8⟩ := by
  apply UInt8.toBitVec_inj.1
  show w.extractLsb' k 8 &&& w'.extractLsb' k 8 = (w &&& w').extractLsb' k 8
  apply BitVec.eq_of_getLsbD_eq
  intro i hi
  simp only [BitVec.getLsbD_and, BitVec.getLsbD_extractLsb']
  cases decide (i < 8) <;> simp

theorem writeNeeded_le {cur w : Word} (h : Le w cur) : writeNeeded cur w = .ok (decide (cur ≠ w)) := by
  have ha := le_and h
  rw [writeNeeded, writeNeededBytes_le (wordBytes cur) (wordBytes w) rfl]
  · congr 1
    by_cases e : cur = w
    · subst e; simp
    · have : ¬ wordBytes cur = wordBytes w := fun h => e (wordBytes_inj h)
      simp [e, this]
  · intro i h1 h2
    have h3 : i < 4 := by simpa [wordBytes] using h1
    match i, h3 with
    | 0, _ => simp only [wordBytes, List.getElem_cons_zero]; rw [extract_and, ha]
    | 1, _ => simp only [wordBytes, List.getElem_cons_zero, List.getElem_cons_succ]; rw [extract_and, ha]
    | 2, _ => simp only [wordBytes, List.getElem_cons_zero, List.getElem_cons_succ]; rw [extract_and, ha]
    | 3, _ => simp only [wordBytes, List.getElem_cons_zero, List.getElem_cons_succ]; rw [extract_and, ha]

theorem flashWrite_fls {fl : Flash} {page idx : Nat} {ws : List Word}
    (h : ∀ i (hi : i < ws.length), Le ws[i] (fl page (idx + i))) :
    Fls (flashWrite page idx ws) fl (fun _ fl' => Wrote fl page idx ws fl') (fun fl' => WrotePartly fl page idx ws fl') := by
  rintro s rfl
  simp only [Tri, flashWrite]
  have hg : ∀ i (hi : i < ws.length), ws.getD i erasedWord = ws[i] := fun i hi => by simp [List.getD, hi]
  cases s.o s.k with
  | none =>
    refine ⟨rfl, rfl, ?_, ?_⟩
    · intro p i hp
      simp only [Flash.write]
      rw [if_neg (by omega)]
    · intro i hi
      simp only [Flash.write]
      rw [if_pos ⟨trivial, by omega, by omega⟩, show idx + i - idx = i by omega, hg i hi, le_and (h i hi)]
  | some keep =>
    refine ⟨?_, ?_, ?_⟩
    · intro p i hp
      simp only [Flash.writePartly]
      rw [if_neg (by omega)]
    · intro i hi j hj hb
      simp only [Flash.writePartly]
      rw [if_pos ⟨trivial, by omega, by omega⟩, show idx + i - idx = i by omega, hg i hi]
      simp [hb, h i hi j hj hb]
    · intro i hi
      simp only [Flash.writePartly]
      rw [if_pos ⟨trivial, by omega, by omega⟩]
      exact and_le_left _ _

/-- `storage_write_slice` when only bits need to be cleared. -/
theorem storageWrite_fls {page : Nat} : (ws : List Word) → (idx : Nat) → (fl : Flash) →
    (∀ i (hi : i < ws.length), Le ws[i] (fl page (idx + i))) →
    Fls (storageWrite page idx ws) fl (fun _ fl' => Wrote fl page idx ws fl') (fun fl' => WrotePartly fl page idx ws fl')
  | [], idx, fl, _ => fls_pure (Wrote.nil fl page idx)
  | w :: ws, idx, fl, h => by
    have h0 : Le w (fl page idx) := h 0 (by simp)
    apply fls_bind
    apply fls_getFl
    apply fls_bind
    apply fls_liftE (writeNeeded_le h0)
    by_cases e : fl page idx = w
    · rw [if_neg (by simp [e])]
      refine fls_mono (storageWrite_fls ws (idx + 1) fl (fun i hi => ?_)) ?_ ?_
      · have := h (i + 1) (by simpa using hi)
        rw [show idx + 1 + i = idx + (i + 1) by omega]
        simpa using this
      · intro _ fl' hw
        refine ⟨fun p i hp => ?_, fun i hi => ?_⟩
        · by_cases hi : p = page ∧ i = idx
          · obtain ⟨rfl, rfl⟩ := hi
            exact hw.other _ _ (by omega)
          · apply hw.other
            simp only [List.length_cons] at hp
            omega
        · cases i with
          | zero => rw [Nat.add_zero, hw.other _ _ (by omega), e]; rfl
          | succ i =>
            have := hw.here i (by simpa using hi)
            rw [show idx + (i + 1) = idx + 1 + i by omega, this]; rfl
      · intro fl' hw
        refine ⟨fun p i hp => ?_, fun i hi => ?_, fun i hi => ?_⟩
        · by_cases hi : p = page ∧ i = idx
          · obtain ⟨rfl, rfl⟩ := hi
            exact hw.other _ _ (by omega)
          · apply hw.other
            simp only [List.length_cons] at hp
            omega
        · cases i with
          | zero => rw [Nat.add_zero, hw.other _ _ (by omega), e]; exact Le.refl _
          | succ i =>
            have := hw.above i (by simpa using hi)
            rw [show idx + (i + 1) = idx + 1 + i by omega]; exact this
        · cases i with
          | zero => rw [Nat.add_zero, hw.other _ _ (by omega)]; exact Le.refl _
          | succ i =>
            have := hw.below i (by simpa using hi)
            rw [show idx + (i + 1) = idx + 1 + i by omega]; exact this
    · rw [if_pos (by simp [e])]
      exact flashWrite_fls h

/-- `storage_erase_page`. -/
theorem storageErase_fls (F : Format) (page : Nat) (fl : Flash) :
    Fls (storageErase F page) fl
      (fun _ fl' => (∀ p i, p ≠ page → fl' p i = fl p i) ∧ ∀ i, i < F.pageWords → fl' page i = erasedWord)
      (fun fl' => (∀ p i, p ≠ page → fl' p i = fl p i) ∧ ∀ i, Le (fl page i) (fl' page i)) := by
  apply fls_bind
  apply fls_getFl
  split
  · rename_i h
    apply fls_pure
    refine ⟨fun _ _ _ => rfl, fun i hi => ?_⟩
    have := List.all_eq_true.1 h i (by simpa using hi)
    simpa using this
  · rintro s rfl
    simp only [Tri, flashErase]
    cases s.o s.k with
    | none =>
      refine ⟨rfl, rfl, fun p i hp => ?_, fun i _ => ?_⟩
      · simp [Flash.erase, hp]
      · simp [Flash.erase]
    | some set =>
      refine ⟨fun p i hp => ?_, fun i => ?_⟩
      · simp [Flash.erasePartly, hp]
      · simp only [Flash.erasePartly, if_true]
        exact le_or_left _ _

end Verif.Store
