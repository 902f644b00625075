import Verif.Tock.Nvmc
import Verif.Tock.PropsStorage

/-!
# C96: the flash driver of the kernel
-/
namespace Verif.Tock

/-- The driver waits for a command, and has a buffer of `n` bytes. -/
structure Nvmc.Idle (d : Nvmc) (n : Nat) : Prop where
  buffer : d.buffer = some n
  waiting : d.waiting = false
  deferred : d.deferred = false

/-- A word has four bytes. -/
theorem read_four (m : Mem) (a : Nat) : m.read a 4 = [m a, m (a + 1), m (a + 2), m (a + 3)] := rfl

/-- Four bytes are written whether or not the driver thinks that it is needed. -/
theorem writeWord_mem (f : Flash) (a : Nat) (b0 b1 b2 b3 : UInt8) :
    (f.writeWord a [b0, b1, b2, b3]).mem = f.mem.write a [b0, b1, b2, b3] .ok := by
  unfold Flash.writeWord
  split
  · rfl
  · rename_i h
    simp only [isWriteNeeded, read_four, List.zipWith_cons_cons, List.zipWith_nil_left, ne_eq, decide_not, Bool.not_eq_true',
      decide_eq_false_iff_not, Decidable.not_not, List.cons.injEq, and_true] at h
    funext x
    simp only [Mem.write, List.length_cons, List.length_nil]
    split
    · rename_i hx
      obtain rfl | rfl | rfl | rfl : x = a ∨ x = a + 1 ∨ x = a + 2 ∨ x = a + 3 := by omega
      · simp [h.1]
      · simp [h.2.1]
      · simp [h.2.2.1]
      · simp [h.2.2.2]
    · rfl

theorem writeWords_mem : (v : List UInt8) → (f : Flash) → (a : Nat) → v.length % 4 = 0 →
    (f.writeWords a v).mem = f.mem.write a v .ok
  | [], f, a, _ => by
    funext x
    simp only [Flash.writeWords, Mem.write, List.length_nil]
    rw [if_neg (by omega)]
  | [_], _, _, h => by simp at h
  | [_, _], _, _, h => by simp at h
  | [_, _, _], _, _, h => by simp at h
  | b0 :: b1 :: b2 :: b3 :: v, f, a, h => by
    have ih := writeWords_mem v (f.writeWord a [b0, b1, b2, b3]) (a + 4) (by simp only [List.length_cons] at h; omega)
    simp only [Flash.writeWords]
    rw [ih, writeWord_mem]
    funext x
    simp only [Mem.write, List.length_cons, List.length_nil]
    by_cases h1 : a ≤ x ∧ x < a + 4
    · rw [if_neg (by omega), if_pos (by omega), if_pos (by omega)]
      obtain rfl | rfl | rfl | rfl : x = a ∨ x = a + 1 ∨ x = a + 2 ∨ x = a + 3 := by omega
      · simp
      · simp
      · simp
      · simp
    · by_cases h2 : a + 4 ≤ x ∧ x < a + 4 + v.length
      · rw [if_pos h2, if_neg (by omega), if_pos (by omega)]
        obtain ⟨k, rfl⟩ : ∃ k, x = a + 4 + k := ⟨x - (a + 4), by omega⟩
        have e1 : a + 4 + k - (a + 4) = k := by omega
        have e2 : a + 4 + k - a = k + 4 := by omega
        rw [e1, e2]
        simp
      · rw [if_neg h2, if_neg (by omega), if_neg (by omega)]

/-- The bytes of a word. -/
def Mem.word (m : Mem) (i : Nat) : List UInt8 := [m (4 * i), m (4 * i + 1), m (4 * i + 2), m (4 * i + 3)]

theorem writeWord_writes (f : Flash) (i : Nat) (b0 b1 b2 b3 : UInt8) (j : Nat) :
    (f.writeWord (4 * i) [b0, b1, b2, b3]).writes j =
      f.writes j + if (f.mem.write (4 * i) [b0, b1, b2, b3] .ok).word j ≠ f.mem.word j then 1 else 0 := by
  by_cases hj : j = i
  · subst hj
    have e : (f.mem.write (4 * j) [b0, b1, b2, b3] .ok).word j =
        [f.mem (4 * j) &&& b0, f.mem (4 * j + 1) &&& b1, f.mem (4 * j + 2) &&& b2, f.mem (4 * j + 3) &&& b3] := by
      simp [Mem.word, Mem.write]
    rw [e]
    have hn : isWriteNeeded (f.mem.read (4 * j) 4) [b0, b1, b2, b3] = true ↔
        [f.mem (4 * j) &&& b0, f.mem (4 * j + 1) &&& b1, f.mem (4 * j + 2) &&& b2, f.mem (4 * j + 3) &&& b3] ≠ f.mem.word j := by
      exact decide_eq_true_iff
    unfold Flash.writeWord
    by_cases h : [f.mem (4 * j) &&& b0, f.mem (4 * j + 1) &&& b1, f.mem (4 * j + 2) &&& b2, f.mem (4 * j + 3) &&& b3] ≠ f.mem.word j
    · rw [if_pos (hn.2 h), if_pos h]
      simp only [show 4 * j / 4 = j by omega, if_true]
    · rw [if_neg (fun x => h (hn.1 x)), if_neg h]
      rfl
  · have e : (f.mem.write (4 * i) [b0, b1, b2, b3] .ok).word j = f.mem.word j := by
      simp only [Mem.word, Mem.write, List.length_cons, List.length_nil]
      rw [if_neg (by omega), if_neg (by omega), if_neg (by omega), if_neg (by omega)]
    rw [e, if_neg (by simp)]
    unfold Flash.writeWord
    split
    · simp only
      rw [if_neg (by omega)]
      rfl
    · rfl

/-- A word before the slice is not written. -/
theorem writeWords_before : (v : List UInt8) → (f : Flash) → (i j : Nat) → j < i →
    (f.writeWords (4 * i) v).writes j = f.writes j ∧ (f.writeWords (4 * i) v).mem.word j = f.mem.word j
  | [], _, _, _, _ => ⟨rfl, rfl⟩
  | [_], _, _, _, _ => ⟨rfl, rfl⟩
  | [_, _], _, _, _, _ => ⟨rfl, rfl⟩
  | [_, _, _], _, _, _, _ => ⟨rfl, rfl⟩
  | b0 :: b1 :: b2 :: b3 :: v, f, i, j, h => by
    obtain ⟨h1, h2⟩ := writeWords_before v (f.writeWord (4 * i) [b0, b1, b2, b3]) (i + 1) j (by omega)
    have e : (f.mem.write (4 * i) [b0, b1, b2, b3] .ok).word j = f.mem.word j := by
      simp only [Mem.word, Mem.write, List.length_cons, List.length_nil]
      rw [if_neg (by omega), if_neg (by omega), if_neg (by omega), if_neg (by omega)]
    simp only [Flash.writeWords]
    rw [show 4 * i + 4 = 4 * (i + 1) by omega, h1, h2, writeWord_writes, writeWord_mem, e]
    simp

theorem writeWords_writes : (v : List UInt8) → (f : Flash) → (i j : Nat) →
    (f.writeWords (4 * i) v).writes j = f.writes j + if (f.writeWords (4 * i) v).mem.word j ≠ f.mem.word j then 1 else 0
  | [], _, _, _ => by simp [Flash.writeWords]
  | [_], _, _, _ => by simp [Flash.writeWords]
  | [_, _], _, _, _ => by simp [Flash.writeWords]
  | [_, _, _], _, _, _ => by simp [Flash.writeWords]
  | b0 :: b1 :: b2 :: b3 :: v, f, i, j => by
    have e0 : f.writeWords (4 * i) (b0 :: b1 :: b2 :: b3 :: v) = (f.writeWord (4 * i) [b0, b1, b2, b3]).writeWords (4 * (i + 1)) v := rfl
    rw [e0]
    by_cases hj : j ≤ i
    · obtain ⟨h1, h2⟩ := writeWords_before v (f.writeWord (4 * i) [b0, b1, b2, b3]) (i + 1) j (by omega)
      rw [h1, h2, writeWord_writes, writeWord_mem]
    · have ih := writeWords_writes v (f.writeWord (4 * i) [b0, b1, b2, b3]) (i + 1) j
      have e : (f.mem.write (4 * i) [b0, b1, b2, b3] .ok).word j = f.mem.word j := by
        simp only [Mem.word, Mem.write, List.length_cons, List.length_nil]
        rw [if_neg (by omega), if_neg (by omega), if_neg (by omega), if_neg (by omega)]
      rw [ih, writeWord_mem, e, writeWord_writes, e]
      simp

/-- A driver that waits for a command writes a slice to aligned addresses of the storage, if the slice is not longer than its buffer: the call
succeeds, exactly the bits that are zero in the slice are cleared, a word is written once if this changes it and not at all otherwise, and
the driver waits for the next command. -/
theorem C96_write (locs : List Location) (d : Nvmc) (n ptr : Nat) (v : List UInt8) (hd : d.Idle n) (h1 : ptr % 4 = 0)
    (h2 : v.length % 4 = 0) (h3 : v.length ≤ n) (h4 : fitsInStorage locs ptr v.length = true) :
    ∃ d', d.call locs (writeReq ptr v) = some (true, d') ∧ d'.Idle n ∧
      (∀ a, d'.flash.mem a = if ptr ≤ a ∧ a < ptr + v.length then d.flash.mem a &&& v.getD (a - ptr) 0xff else d.flash.mem a) ∧
      ∀ i, d'.flash.writes i = d.flash.writes i + if d'.flash.mem.word i ≠ d.flash.mem.word i then 1 else 0 := by
  obtain ⟨e1, e2, e3⟩ := hd
  refine ⟨{ flash := d.flash.writeWords ptr v, buffer := some n, waiting := false, deferred := false, upcalls := d.upcalls + 1 },
    ?_, ⟨rfl, rfl, rfl⟩, fun a => ?_, fun i => ?_⟩
  · simp [Nvmc.call, writeReq, Nvmc.command, h4, Nvmc.commandWrite, e1, e2, Nvmc.writeSlice, h1, h2, Nvmc.deferredCall,
      Nat.not_lt.2 h3]
  · simp only [writeWords_mem v d.flash ptr h2]
    rfl
  · have := writeWords_writes v d.flash (ptr / 4) i
    rw [show 4 * (ptr / 4) = ptr by omega] at this
    exact this

/-- The same for a page: it is erased, and nothing else. -/
theorem C96_erase (locs : List Location) (d : Nvmc) (n ptr : Nat) (hd : d.Idle n) (h1 : ptr % 4096 = 0)
    (h4 : fitsInStorage locs ptr 4096 = true) :
    ∃ d', d.call locs (eraseReq ptr 4096) = some (true, d') ∧ d'.Idle n ∧
      (∀ a, d'.flash.mem a = if ptr ≤ a ∧ a < ptr + 4096 then 0xff else d.flash.mem a) ∧
      ∀ i, d'.flash.writes i = if ptr ≤ 4 * i ∧ 4 * i < ptr + 4096 then 0 else d.flash.writes i := by
  obtain ⟨e1, e2, e3⟩ := hd
  refine ⟨{ flash := d.flash.erase (ptr / 4096), buffer := some n, waiting := false, deferred := false, upcalls := d.upcalls + 1 },
    ?_, ⟨rfl, rfl, rfl⟩, fun a => ?_, fun i => ?_⟩
  · simp [Nvmc.call, eraseReq, Nvmc.command, h4, Nvmc.commandErase, e1, e2, Nvmc.erasePage, h1, Nvmc.deferredCall]
  · simp only [Flash.erase, Mem.erase]
    rw [show ptr / 4096 * 4096 = ptr by omega]
  · simp only [Flash.erase]
    by_cases h : ptr ≤ 4 * i ∧ 4 * i < ptr + 4096
    · rw [if_pos h, if_pos (by omega)]
    · rw [if_neg h, if_neg (by omega)]

/-- Whatever the state of the driver and the command: the flash does not change if the command fails. -/
theorem C96_fail (locs : List Location) (d d' : Nvmc) (q : FlashReq) (h : d.call locs q = some (false, d')) : d'.flash = d.flash := by
  have key : (d.command locs q).1 ≠ .success → (d.command locs q).2.flash = d.flash := by
    cases q with
    | write ptr len buf =>
      simp only [Nvmc.command]
      split
      · unfold Nvmc.commandWrite
        split
        · simp
        · split
          · simp
          · split
            · simp
            · unfold Nvmc.writeSlice
              split <;> simp
      · simp
    | erase ptr len =>
      simp only [Nvmc.command]
      split
      · unfold Nvmc.commandErase
        split
        · simp
        · split
          · simp
          · unfold Nvmc.erasePage
            split <;> simp
      · simp
  unfold Nvmc.call at h
  dsimp only at h
  split at h
  · rename_i hn
    cases h
    exact key hn
  · split at h <;> cases h

theorem fits_iff {locs : List Location} {ptr len : Nat} :
    fitsInStorage locs ptr len = true ↔ ∃ l ∈ locs, l.address ≤ ptr ∧ ptr + len ≤ l.address + l.size := by
  simp only [fitsInStorage, List.any_eq_true, Bool.and_eq_true, decide_eq_true_eq]
  constructor
  · rintro ⟨l, h, h1, h2⟩
    exact ⟨l, h, h1.1, by omega⟩
  · rintro ⟨l, h, h1, h2⟩
    exact ⟨l, h, ⟨h1, by omega⟩, by omega⟩

/-- Whatever the state of the driver: an application that passes the length of its buffer, as the library does, changes only
bytes of the storage locations. -/
theorem C96_confined_partial (locs : List Location) (d d' : Nvmc) (q : FlashReq) (b : Bool) (h : d.call locs q = some (b, d'))
    (hq : ∀ ptr len buf, q = .write ptr len buf → len = buf.length) (a : Nat) (ha : d'.flash.mem a ≠ d.flash.mem a) :
    ∃ l ∈ locs, l.address ≤ a ∧ a < l.address + l.size := by
  cases b with
  | false => exact absurd (congrFun (congrArg Flash.mem (C96_fail locs d d' q h)) a) ha
  | true =>
    have key : (d.command locs q).1 = .success ∧ d' = (d.command locs q).2.deferredCall := by
      unfold Nvmc.call at h
      dsimp only at h
      split at h
      · cases h
      · rename_i hs
        split at h
        · cases h
        · cases h
          exact ⟨Decidable.not_not.1 hs, rfl⟩
    have hf : d'.flash = (d.command locs q).2.flash := by
      rw [key.2]
      unfold Nvmc.deferredCall
      split <;> rfl
    rw [hf] at ha
    have hs := key.1
    cases q with
    | write ptr len buf =>
      have hlen := hq ptr len buf rfl
      subst hlen
      simp only [Nvmc.command] at ha hs
      split at hs
      · rename_i hfit
        rw [if_pos hfit] at ha
        obtain ⟨l, hl, h1, h2⟩ := fits_iff.1 hfit
        unfold Nvmc.commandWrite at ha hs
        split at hs
        · cases hs
        · split at hs
          · cases hs
          · split at hs
            · cases hs
            · unfold Nvmc.writeSlice at ha hs
              dsimp only at ha hs
              split at hs
              · cases hs
              · rename_i n hb hn hwt hal
                simp only [hb] at ha
                rw [if_neg hn, if_neg hwt] at ha
                dsimp only at ha
                rw [if_neg hal] at ha
                dsimp only at ha
                · simp only [writeWords_mem buf d.flash ptr (by omega), Mem.write] at ha
                  split at ha
                  · exact ⟨l, hl, by omega, by omega⟩
                  · exact absurd rfl ha
      · cases hs
    | erase ptr len =>
      simp only [Nvmc.command] at ha hs
      split at hs
      · rename_i hfit
        rw [if_pos hfit] at ha
        obtain ⟨l, hl, h1, h2⟩ := fits_iff.1 hfit
        unfold Nvmc.commandErase at ha hs
        split at hs
        · cases hs
        · split at hs
          · cases hs
          · rename_i hlen hw
            rw [if_neg hlen, if_neg hw] at ha
            unfold Nvmc.erasePage at ha hs
            split at hs
            · cases hs
            · rename_i hal
              rw [if_neg hal] at ha
              simp only [Flash.erase, Mem.erase] at ha
              split at ha
              · exact ⟨l, hl, by omega, by omega⟩
              · exact absurd rfl ha
      · cases hs

theorem write_take (m : Mem) (a n x : Nat) (v : List UInt8) :
    (x < a + n → (m.write a v .ok) x = (m.write a (v.take n) .ok) x) ∧ (a + n ≤ x → (m.write a (v.take n) .ok) x = m x) ∧
      ((m.write a (v.take n) .ok).write a v .ok) x = (m.write a v .ok) x := by
  simp only [Mem.write, List.length_take]
  refine ⟨fun hx => ?_, fun hx => ?_, ?_⟩
  · by_cases h : a ≤ x ∧ x < a + v.length
    · rw [if_pos h, if_pos (by omega)]
      simp only [List.getD_eq_getElem?_getD]
      rw [List.getElem?_take_of_lt (by omega)]
    · rw [if_neg h, if_neg (by omega)]
  · rw [if_neg (by omega)]
  · by_cases h : a ≤ x ∧ x < a + v.length
    · rw [if_pos h]
      by_cases h2 : x < a + n
      · rw [if_pos (by omega)]
        simp only [List.getD_eq_getElem?_getD]
        rw [List.getElem?_take_of_lt (by omega), if_pos h, UInt8.and_assoc, UInt8.and_self]
      · rw [if_neg (by omega), if_pos h]
    · rw [if_neg h, if_neg (by omega), if_neg h]

/-- A write that was interrupted after some words can be repeated: the flash, and the number of times that each word was written, are as if
the write had not been interrupted. -/
theorem C96_resume (f : Flash) (ptr k : Nat) (v : List UInt8) (h1 : ptr % 4 = 0) (h2 : v.length % 4 = 0) :
    (f.writeWords ptr (v.take (4 * k))).writeWords ptr v = f.writeWords ptr v := by
  obtain ⟨i, rfl⟩ : ∃ i, ptr = 4 * i := ⟨ptr / 4, by omega⟩
  have e1 := writeWords_mem (v.take (4 * k)) f (4 * i) (by rw [List.length_take]; omega)
  have e2 := writeWords_mem v f (4 * i) h2
  have e3 := writeWords_mem v (f.writeWords (4 * i) (v.take (4 * k))) (4 * i) h2
  have w1 := writeWords_writes (v.take (4 * k)) f i
  have w2 := writeWords_writes v f i
  have w3 := writeWords_writes v (f.writeWords (4 * i) (v.take (4 * k))) i
  have hm : ((f.writeWords (4 * i) (v.take (4 * k))).writeWords (4 * i) v).mem = (f.writeWords (4 * i) v).mem := by
    rw [e3, e2, e1]
    funext x
    exact (write_take f.mem (4 * i) (4 * k) x v).2.2
  have hw : ((f.writeWords (4 * i) (v.take (4 * k))).writeWords (4 * i) v).writes = (f.writeWords (4 * i) v).writes := by
    funext j
    rw [w3, w2, w1, hm, e1, e2]
    have hx := fun x => write_take f.mem (4 * i) (4 * k) x v
    by_cases hj : j < i + k
    · have : (f.mem.write (4 * i) v .ok).word j = (f.mem.write (4 * i) (v.take (4 * k)) .ok).word j := by
        simp only [Mem.word]
        rw [(hx (4 * j)).1 (by omega), (hx (4 * j + 1)).1 (by omega), (hx (4 * j + 2)).1 (by omega), (hx (4 * j + 3)).1 (by omega)]
      rw [this]
      simp
    · have : (f.mem.write (4 * i) (v.take (4 * k)) .ok).word j = f.mem.word j := by
        simp only [Mem.word]
        rw [(hx (4 * j)).2.1 (by omega), (hx (4 * j + 1)).2.1 (by omega), (hx (4 * j + 2)).2.1 (by omega), (hx (4 * j + 3)).2.1 (by omega)]
      rw [this]
      simp
  cases hA : (f.writeWords (4 * i) (v.take (4 * k))).writeWords (4 * i) v
  cases hB : f.writeWords (4 * i) v
  rw [hA, hB] at hm hw
  cases hm
  cases hw
  rfl

/-- A request that the driver serves: a slice that is aligned, not longer than the buffer and in the storage, or a page of the storage. -/
def FlashReq.Valid (locs : List Location) (n : Nat) : FlashReq → Prop
  | .write ptr len buf => ptr % 4 = 0 ∧ buf.length % 4 = 0 ∧ buf.length ≤ n ∧ len = buf.length ∧
      ∃ l ∈ locs, l.address ≤ ptr ∧ ptr + len ≤ l.address + l.size
  | .erase ptr len => ptr % 4096 = 0 ∧ len = 4096 ∧ ∃ l ∈ locs, l.address ≤ ptr ∧ ptr + len ≤ l.address + l.size

/-- The calls of an application, one after the other; whether each succeeded. -/
def Nvmc.calls (locs : List Location) : Nvmc → List FlashReq → Option (List Bool × Nvmc)
  | d, [] => some ([], d)
  | d, q :: qs =>
    match d.call locs q with
    | none => none
    | some (b, d') => (Nvmc.calls locs d' qs).map fun r => (b :: r.1, r.2)

/-- From boot, every history of such requests succeeds; none of them is left without an answer. -/
theorem C96_served (locs : List Location) (f : Flash) (qs : List FlashReq) (h : ∀ q ∈ qs, q.Valid locs 4096) :
    ∃ d', (Nvmc.boot f).calls locs qs = some (qs.map fun _ => true, d') ∧ d'.Idle 4096 := by
  have key : ∀ d : Nvmc, d.Idle 4096 → ∃ d', d.calls locs qs = some (qs.map fun _ => true, d') ∧ d'.Idle 4096 := by
    induction qs with
    | nil => exact fun d hd => ⟨d, rfl, hd⟩
    | cons q qs ih =>
      intro d hd
      have hq := h q (by simp)
      have : ∃ d', d.call locs q = some (true, d') ∧ d'.Idle 4096 := by
        cases q with
        | write ptr len buf =>
          obtain ⟨h1, h2, h3, rfl, h4⟩ := hq
          obtain ⟨d', e1, e2, -⟩ := C96_write locs d 4096 ptr buf hd h1 h2 h3 (fits_iff.2 h4)
          exact ⟨d', e1, e2⟩
        | erase ptr len =>
          obtain ⟨h1, rfl, h4⟩ := hq
          obtain ⟨d', e1, e2, -⟩ := C96_erase locs d 4096 ptr hd h1 (fits_iff.2 h4)
          exact ⟨d', e1, e2⟩
      obtain ⟨d1, e1, i1⟩ := this
      obtain ⟨d2, e2, i2⟩ := ih (fun q hq => h q (by simp [hq])) d1 i1
      exact ⟨d2, by simp [Nvmc.calls, e1, e2], i2⟩
  exact key _ ⟨rfl, rfl, rfl⟩

/-- The storage of the board. -/
theorem board_new {side : Side} {s : TockStorage} (h : TockStorage.new 4 0x1000 (locations side) = .ok s) : s = boardStorage := by
  have e : TockStorage.new 4 0x1000 (locations side) = .ok boardStorage := by cases side <;> rfl
  rw [e] at h
  cases h
  rfl

theorem board_ptr {page byte len p : Nat} (h : boardStorage.ptr page byte len = .ok p) (side : Side) :
    p % 4096 = byte % 4096 ∧ len ≤ 4096 ∧ ∃ l ∈ locations side, l.address ≤ p ∧ p + len ≤ l.address + l.size := by
  unfold TockStorage.ptr TockStorage.rangeStart boardStorage at h
  dsimp only at h
  split at h
  · cases h
  · rename_i start hs
    split at hs
    · rename_i hb
      cases hs
      simp only [findPtr] at h
      split at h
      · split at h
        · cases h
        · split at h
          · cases h
          · split at h
            · cases h
            · have h := Except.ok.inj h
              refine ⟨by omega, hb.2.1, ⟨false, 0xD0000, 0x4000⟩, by cases side <;> simp [locations], ?_, ?_⟩ <;> dsimp only <;> omega
      · split at h
        · cases h
        · split at h
          · cases h
          · have h := Except.ok.inj h
            refine ⟨by omega, hb.2.1, ⟨false, 0xC0000, 0x10000⟩, by cases side <;> simp [locations], ?_, ?_⟩ <;> dsimp only <;> omega
    · cases hs

/-- The storage layer on the driver: on the board, a write of the storage that is in bounds and aligned gives a request that the driver
serves, and the flash is then as the storage layer promises. -/
theorem C96_storage_write (side : Side) (s : TockStorage) (h : TockStorage.new 4 0x1000 (locations side) = .ok s) (d : Nvmc)
    (hd : d.Idle 4096) (page byte : Nat) (value : List UInt8) (m : Mem)
    (hw : s.writeSlice d.flash.mem .ok page byte value = (.ok (), m)) :
    ∃ p d', s.ptr page byte value.length = .ok p ∧ d.call (locations side) (writeReq p value) = some (true, d') ∧ d'.Idle 4096 ∧
      d'.flash.mem = m := by
  have hs := board_new h
  subst hs
  unfold TockStorage.writeSlice at hw
  split at hw
  · cases hw
  · rename_i hal
    simp only [boardStorage, Bool.or_eq_true, Bool.not_eq_true', not_or, Bool.not_eq_false] at hal
    have a1 := (C49_aligned 2 byte).1 hal.1
    have a2 := (C49_aligned 2 value.length).1 hal.2
    split at hw
    · cases hw
    · rename_i p hp
      obtain ⟨b1, b2, b3⟩ := board_ptr hp side
      obtain ⟨d', e1, e2, e3, -⟩ := C96_write (locations side) d 4096 p value hd (by omega) (by omega) b2 (fits_iff.2 b3)
      refine ⟨p, d', hp, e1, e2, ?_⟩
      have := (Prod.mk.injEq .. ▸ hw : _ ∧ _).2
      rw [← this]
      funext a
      rw [e3]
      rfl

/-- The same for a page. -/
theorem C96_storage_erase (side : Side) (s : TockStorage) (h : TockStorage.new 4 0x1000 (locations side) = .ok s) (d : Nvmc)
    (hd : d.Idle 4096) (page : Nat) (m : Mem) (hw : s.erasePage d.flash.mem .ok page = (.ok (), m)) :
    ∃ p d', s.ptr page 0 s.pageSize = .ok p ∧ d.call (locations side) (eraseReq p s.pageSize) = some (true, d') ∧ d'.Idle 4096 ∧
      d'.flash.mem = m := by
  have hs := board_new h
  subst hs
  unfold TockStorage.erasePage at hw
  split at hw
  · cases hw
  · rename_i p hp
    obtain ⟨b1, b2, b3⟩ := board_ptr hp side
    obtain ⟨d', e1, e2, e3, -⟩ := C96_erase (locations side) d 4096 p hd (by omega) (fits_iff.2 b3)
    refine ⟨p, d', hp, e1, e2, ?_⟩
    have := (Prod.mk.injEq .. ▸ hw : _ ∧ _).2
    rw [← this]
    funext a
    rw [e3]
    rfl

/-- A driver that waits for a deferred call that is not set. -/
def Nvmc.Stuck (d : Nvmc) : Prop := d.waiting = true ∧ d.deferred = false

theorem stuck_call (locs : List Location) (d : Nvmc) (hd : d.Stuck) (q : FlashReq) :
    ∃ d', d.call locs q = some (false, d') ∧ d'.Stuck ∧ d'.flash = d.flash := by
  obtain ⟨h1, h2⟩ := hd
  cases q with
  | write ptr len buf =>
    unfold Nvmc.call Nvmc.command Nvmc.commandWrite
    simp only [h1, if_true]
    split
    · split
      · exact ⟨d, by simp, ⟨h1, h2⟩, rfl⟩
      · split
        · exact ⟨{ d with buffer := none }, by simp [h1], ⟨h1, h2⟩, rfl⟩
        · exact ⟨{ d with buffer := none }, by simp [h1], ⟨h1, h2⟩, rfl⟩
    · exact ⟨d, by simp, ⟨h1, h2⟩, rfl⟩
  | erase ptr len =>
    unfold Nvmc.call Nvmc.command Nvmc.commandErase
    simp only [h1, if_true]
    split
    · split
      · exact ⟨d, by simp, ⟨h1, h2⟩, rfl⟩
      · exact ⟨d, by simp, ⟨h1, h2⟩, rfl⟩
    · exact ⟨d, by simp, ⟨h1, h2⟩, rfl⟩

/-- **Not every history is served.** After one write to the storage whose length is not a multiple of 4, every later request fails, and the
flash does not change any more until the device restarts. -/
theorem C96_stuck (locs : List Location) (d : Nvmc) (n ptr : Nat) (v : List UInt8) (hd : d.Idle n) (h2 : v.length % 4 ≠ 0)
    (h3 : v.length ≤ n) (h4 : ∃ l ∈ locs, l.address ≤ ptr ∧ ptr + v.length ≤ l.address + l.size) (qs : List FlashReq) :
    ∃ d', d.calls locs (writeReq ptr v :: qs) = some (false :: qs.map fun _ => false, d') ∧ d'.flash = d.flash := by
  have key : ∀ d : Nvmc, d.Stuck → ∃ d', d.calls locs qs = some (qs.map fun _ => false, d') ∧ d'.flash = d.flash := by
    induction qs with
    | nil => exact fun d _ => ⟨d, rfl, rfl⟩
    | cons q qs ih =>
      intro d hd
      obtain ⟨d1, e1, i1, f1⟩ := stuck_call locs d hd q
      obtain ⟨d2, e2, f2⟩ := ih d1 i1
      exact ⟨d2, by simp [Nvmc.calls, e1, e2], f2.trans f1⟩
  obtain ⟨e1, e2, e3⟩ := hd
  have e : d.call locs (writeReq ptr v) = some (false, { d with waiting := true }) := by
    simp [Nvmc.call, writeReq, Nvmc.command, fits_iff.2 h4, Nvmc.commandWrite, e1, e2, Nvmc.writeSlice, h2, Nat.not_lt.2 h3]
  obtain ⟨d', e4, e5⟩ := key { d with waiting := true } ⟨rfl, e3⟩
  exact ⟨d', by simp [Nvmc.calls, e, e4], e5⟩

/-- **Nor after a write that is longer than the buffer**: the buffer is lost, and every later write fails. -/
theorem C96_too_long (locs : List Location) (d : Nvmc) (n ptr : Nat) (v : List UInt8) (hd : d.Idle n) (h3 : n < v.length)
    (h4 : ∃ l ∈ locs, l.address ≤ ptr ∧ ptr + v.length ≤ l.address + l.size) (ws : List (Nat × List UInt8)) :
    ∃ d', d.calls locs (writeReq ptr v :: ws.map fun w => writeReq w.1 w.2) = some (false :: ws.map fun _ => false, d') ∧
      d'.flash = d.flash := by
  have key : ∀ d : Nvmc, d.buffer = none →
      d.calls locs (ws.map fun w => writeReq w.1 w.2) = some (ws.map fun _ => false, d) := by
    induction ws with
    | nil => exact fun d _ => rfl
    | cons w ws ih =>
      intro d hd
      have e : d.call locs (writeReq w.1 w.2) = some (false, d) := by
        simp only [Nvmc.call, writeReq, Nvmc.command, Nvmc.commandWrite, hd]
        split <;> simp
      simp [Nvmc.calls, e, ih d hd]
  obtain ⟨e1, e2, e3⟩ := hd
  have e : d.call locs (writeReq ptr v) = some (false, { d with buffer := none }) := by
    simp [Nvmc.call, writeReq, Nvmc.command, fits_iff.2 h4, Nvmc.commandWrite, e1, h3]
  exact ⟨{ d with buffer := none }, by simp [Nvmc.calls, e, key { d with buffer := none } rfl], rfl⟩

/-- **The kernel does not confine the application to the storage.** The filter of the board looks at the length that is passed, the driver
at the length of the buffer: with a length of zero, the application writes the word after the storage. -/
theorem C96_escape (side : Side) (f : Flash) : ∃ d', (Nvmc.boot f).call (locations side) (.write 0xD4000 0 [0, 0, 0, 0]) = some (true, d') ∧
    d'.flash.mem.word (0xD4000 / 4) = [0, 0, 0, 0] := by
  refine ⟨{ flash := f.writeWords 0xD4000 [0, 0, 0, 0], buffer := some 4096, upcalls := 1 }, ?_, ?_⟩
  · cases side <;> rfl
  · simp only [writeWords_mem [0, 0, 0, 0] f 0xD4000 rfl]
    simp [Mem.word, Mem.write]

/-- An erased flash. -/
def blank : Flash := ⟨fun _ => 0xff, fun _ => 0⟩

/-- Non-vacuity: two words are written to the store, one of them a second time with other bits, and the page is erased. -/
example : ((Nvmc.boot blank).calls (locations .a) [writeReq 0xC0000 [1, 2, 3, 4, 0xff, 0xff, 0xff, 0xff], writeReq 0xC0004 [5, 6, 7, 8]]).map
    (fun r => (r.1, r.2.flash.mem.word 0x30000, r.2.flash.mem.word 0x30001, r.2.flash.writes 0x30000, r.2.flash.writes 0x30001)) =
    some ([true, true], [1, 2, 3, 4], [5, 6, 7, 8], 1, 1) := by rfl

example : FlashReq.Valid (locations .a) 4096 (writeReq 0xC0000 [1, 2, 3, 4]) :=
  ⟨rfl, by decide, by decide, rfl, ⟨false, 0xC0000, 0x10000⟩, by simp [locations], by decide, by decide⟩

example : FlashReq.Valid (locations .b) 4096 (eraseReq 0xD3000 4096) :=
  ⟨rfl, rfl, ⟨false, 0xD0000, 0x4000⟩, by simp [locations], by decide, by decide⟩

example : (Nvmc.boot blank).Idle 4096 ∧ ∃ l ∈ locations .a, l.address ≤ 0xC0000 ∧ 0xC0000 + [(1 : UInt8)].length ≤ l.address + l.size :=
  ⟨⟨rfl, rfl, rfl⟩, ⟨false, 0xC0000, 0x10000⟩, by simp [locations], by decide, by decide⟩

end Verif.Tock
