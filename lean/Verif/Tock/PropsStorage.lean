import Verif.Tock.Storage
import Verif.Tock.BootLemmas

/-!
# C59: the flash of the device consists of separate pages
-/
namespace Verif.Tock

/-- The address of a byte of the storage: its pages are counted through the locations. -/
def TockStorage.address (s : TockStorage) (page byte : Nat) : Option Nat := (addressesOf s.locations)[page * s.pageSize + byte]?

/-- The locations have no address in common. -/
def Separate (locs : List Location) : Prop :=
  locs.Pairwise fun l k => l.isPartition = false → k.isPartition = false →
    l.address + l.size ≤ k.address ∨ k.address + k.size ≤ l.address

theorem findSlice_eq (m : Mem) (locs : List ModRange) (start length : Nat) :
    findSlice (locs.map fun l => m.read l.start l.length) start length
      = (findPtr locs start length).map fun p => m.read p length := by
  induction locs generalizing start with
  | nil => rfl
  | cons l locs ih =>
    simp only [List.map_cons, findSlice, findPtr, read_length]
    split
    · exact ih _
    · split
      · rfl
      · split
        · rfl
        · rename_i h
          simp only [Except.map]
          rw [drop_read]
          congr 1
          unfold Mem.read
          rw [← List.map_take, take_range', Nat.min_eq_left (by omega)]

/-- What `findPtr` finds, for ranges that consist of whole pages. -/
theorem findPtr_spec {ps : Nat} (hps : 0 < ps) {locs : List ModRange} (hal : ∀ l ∈ locs, ps ∣ l.length) {page byte len : Nat}
    (hlen : byte + len ≤ ps) (hin : page * ps + ps ≤ (addressesOf locs).length)
    (hsize : (addressesOf locs).length < usizeSize) (hb : byte < ps) :
    ∃ p, findPtr locs (page * ps + byte) len = .ok p ∧ (addressesOf locs)[page * ps + byte]? = some p ∧
      ∀ i < len, (addressesOf locs)[page * ps + byte + i]? = some (p + i) := by
  induction locs generalizing page with
  | nil => simp [addressesOf] at hin; omega
  | cons l locs ih =>
    have hl : l.addresses.length = l.length := by simp [ModRange.addresses]
    rw [addressesOf_cons, List.length_append, hl] at hin hsize
    obtain ⟨k, hk⟩ := hal l (by simp)
    unfold findPtr
    by_cases hc : page < k
    · have h1 : page * ps + ps ≤ l.length := by
        rw [hk, ← Nat.succ_mul, Nat.mul_comm ps k]
        exact Nat.mul_le_mul_right ps hc
      rw [if_neg (by omega), if_neg (by rw [Nat.mod_eq_of_lt (by omega)]; omega), if_neg (by omega)]
      refine ⟨_, rfl, ?_, ?_⟩
      · rw [addressesOf_cons, List.getElem?_append_left (by omega)]
        have : page * ps + byte < l.length := by omega
        simp [ModRange.addresses, this]
      · intro i hi
        rw [addressesOf_cons, List.getElem?_append_left (by omega)]
        unfold ModRange.addresses
        rw [List.getElem?_range' (by omega), Nat.one_mul]
        congr 1; omega
    · have hkp : l.length ≤ page * ps := by
        rw [hk, Nat.mul_comm ps k]
        exact Nat.mul_le_mul_right ps (by omega)
      have hsub : page * ps - l.length = (page - k) * ps := by
        rw [hk, Nat.mul_comm ps k, Nat.sub_mul]
      rw [if_pos (by omega)]
      have e : page * ps + byte - l.length = (page - k) * ps + byte := by omega
      rw [e]
      obtain ⟨p, h1, h2, h3⟩ := ih (page := page - k) (fun l hl => hal l (by simp [hl])) (by omega) (by omega)
      refine ⟨p, h1, ?_, fun i hi => ?_⟩
      · rw [addressesOf_cons, List.getElem?_append_right (by omega), hl, e]
        exact h2
      · rw [addressesOf_cons, List.getElem?_append_right (by omega), hl]
        have e2 : page * ps + byte + i - l.length = (page - k) * ps + byte + i := by omega
        rw [e2]
        exact h3 i hi

/-- What the storage guarantees. -/
structure TockStorage.Wf (s : TockStorage) : Prop where
  pos : 0 < s.pageSize
  aligned : ∀ l ∈ s.locations, s.pageSize ∣ l.length
  total : (addressesOf s.locations).length = s.numPages * s.pageSize
  fits : s.numPages * s.pageSize < usizeSize
  distinct : (addressesOf s.locations).Nodup

theorem scan_storage {s s' : TockStorage} {k : Nat} (hk : s.pageSize = 2 ^ k) {locs : List Location}
    (h : s.scan locs = .ok s') (h1 : ∀ l ∈ s.locations, s.pageSize ∣ l.length)
    (h2 : (addressesOf s.locations).length = s.numPages * s.pageSize) :
    s'.pageSize = s.pageSize ∧ s'.wordSize = s.wordSize ∧ (∀ l ∈ s'.locations, s'.pageSize ∣ l.length) ∧
      (addressesOf s'.locations).length = s'.numPages * s'.pageSize ∧
      s'.locations = s.locations ++ (locs.filter fun l => !l.isPartition).map fun l => ⟨l.address, l.size⟩ := by
  induction locs generalizing s with
  | nil =>
    unfold TockStorage.scan at h
    cases h
    exact ⟨rfl, rfl, h1, h2, by simp⟩
  | cons l locs ih =>
    unfold TockStorage.scan at h
    split at h
    · rename_i hp
      obtain ⟨e1, e2, e3, e4, e5⟩ := ih hk h h1 h2
      refine ⟨e1, e2, e3, e4, ?_⟩
      rw [e5, List.filter_cons_of_neg (by simp [hp])]
    · rename_i hp
      split at h
      · simp at h
      · rename_i hal
        simp only [Bool.or_eq_true, Bool.not_eq_true', not_or, Bool.not_eq_false] at hal
        have hsz : s.pageSize ∣ l.size := by
          rw [hk] at hal ⊢
          exact (C49_aligned k _).1 hal.2
        obtain ⟨e1, e2, e3, e4, e5⟩ := ih (s := { s with
            numPages := s.numPages + l.size / s.pageSize
            locations := s.locations ++ [⟨l.address, l.size⟩] }) hk h (by
          intro r hr
          simp at hr
          rcases hr with hr | rfl
          · exact h1 r hr
          · exact hsz) (by
          rw [addressesOf_append, List.length_append, h2, Nat.add_mul, Nat.div_mul_cancel hsz]
          simp [addressesOf, ModRange.addresses])
        refine ⟨e1, e2, e3, e4, ?_⟩
        rw [e5, List.filter_cons_of_pos (by simpa using hp)]
        simp

theorem nodup_of_separate {locs : List ModRange}
    (h : locs.Pairwise fun l k => l.start + l.length ≤ k.start ∨ k.start + k.length ≤ l.start) :
    (addressesOf locs).Nodup := by
  induction locs with
  | nil => simp [addressesOf]
  | cons l locs ih =>
    obtain ⟨h1, h2⟩ := List.pairwise_cons.1 h
    rw [addressesOf_cons]
    refine List.nodup_append.2 ⟨List.nodup_range', ih h2, ?_⟩
    intro a ha b hb hab
    subst hab
    obtain ⟨k, hk, hb⟩ := mem_addressesOf.1 hb
    have ha := ModRange.mem_addresses.1 ha
    have := h1 k hk
    rw [ModRange.mem_iff] at ha hb
    omega

theorem storage_wf {wordSize pageSize : Nat} {locs : List Location} {s : TockStorage}
    (h : TockStorage.new wordSize pageSize locs = .ok s) (hsep : Separate locs)
    (hfit : s.numPages * s.pageSize < usizeSize) :
    s.Wf ∧ s.pageSize = pageSize ∧ s.wordSize = wordSize ∧ (∃ k, wordSize = 2 ^ k) ∧
      s.locations = (locs.filter fun l => !l.isPartition).map fun l => ⟨l.address, l.size⟩ := by
  unfold TockStorage.new at h
  split at h
  · simp at h
  · rename_i hc
    simp only [Bool.or_eq_true, Bool.not_eq_true', not_or, Bool.not_eq_false] at hc
    obtain ⟨k, hk⟩ := isPowerOfTwo_iff hc.1.2
    obtain ⟨e1, e2, e3, e4, e5⟩ := scan_storage (s := ⟨wordSize, pageSize, 0, []⟩) hk h (by simp) (by simp [addressesOf])
    refine ⟨⟨?_, e3, e4, hfit, ?_⟩, e1, e2, isPowerOfTwo_iff hc.1.1, e5⟩
    · rw [e1]; dsimp only; rw [hk]; exact Nat.two_pow_pos k
    · rw [e5]
      apply nodup_of_separate
      rw [List.nil_append, List.pairwise_map, List.pairwise_filter]
      refine List.Pairwise.imp ?_ hsep
      intro a b hab ha hb
      simp at ha hb
      exact hab ha hb

theorem Wf.ptr {s : TockStorage} (hw : s.Wf) {page byte len : Nat} (hp : page < s.numPages) (hb : byte < s.pageSize)
    (hl : byte + len ≤ s.pageSize) :
    ∃ p, s.ptr page byte len = .ok p ∧ s.address page byte = some p ∧
      ∀ i < len, s.address page (byte + i) = some (p + i) := by
  have h1 : page * s.pageSize + s.pageSize ≤ s.numPages * s.pageSize := by
    rw [← Nat.succ_mul]; exact Nat.mul_le_mul_right _ hp
  obtain ⟨p, h2, h3, h4⟩ := findPtr_spec hw.pos hw.aligned hl (by rw [hw.total]; exact h1) (by rw [hw.total]; exact hw.fits) hb
  refine ⟨p, ?_, h3, ?_⟩
  · unfold TockStorage.ptr TockStorage.rangeStart
    rw [if_pos ⟨hp, by omega, by omega⟩]
    exact h2
  · intro i hi
    rw [← h4 i hi]
    unfold TockStorage.address
    rw [Nat.add_assoc]

theorem ptr_range {s : TockStorage} {page byte len p : Nat} (h : s.ptr page byte len = .ok p) :
    page < s.numPages ∧ byte + len ≤ s.pageSize := by
  unfold TockStorage.ptr TockStorage.rangeStart at h
  by_cases hc : page < s.numPages ∧ len ≤ s.pageSize ∧ byte ≤ s.pageSize - len
  · exact ⟨hc.1, by omega⟩
  · rw [if_neg hc] at h; simp at h

/-- Different bytes of the storage have different addresses. -/
theorem C59_distinct {wordSize pageSize : Nat} {locs : List Location} {s : TockStorage}
    (h : TockStorage.new wordSize pageSize locs = .ok s) (hsep : Separate locs)
    (hfit : s.numPages * s.pageSize < usizeSize) (page byte page' byte' a : Nat) (hb : byte < s.pageSize)
    (hb' : byte' < s.pageSize) (h1 : s.address page byte = some a) (h2 : s.address page' byte' = some a) :
    page = page' ∧ byte = byte' := by
  obtain ⟨hw, -⟩ := storage_wf h hsep hfit
  unfold TockStorage.address at h1 h2
  obtain ⟨i1, e1⟩ := List.getElem?_eq_some_iff.1 h1
  have := (List.getElem?_inj i1 hw.distinct).1 (h1.trans h2.symm)
  have hd : ∀ p b, b < s.pageSize → (p * s.pageSize + b) / s.pageSize = p ∧ (p * s.pageSize + b) % s.pageSize = b := by
    intro p b hb
    rw [Nat.add_comm, Nat.add_mul_div_right _ _ hw.pos, Nat.add_mul_mod_self_right, Nat.div_eq_of_lt hb,
      Nat.mod_eq_of_lt hb, Nat.zero_add]
    exact ⟨rfl, rfl⟩
  have d1 := hd page byte hb
  have d2 := hd page' byte' hb'
  rw [this] at d1
  exact ⟨d1.1.symm.trans d2.1, d1.2.symm.trans d2.2⟩

/-- Every byte of every page has an address, in one of the storage locations of the kernel. -/
theorem C59_exists {wordSize pageSize : Nat} {locs : List Location} {s : TockStorage}
    (h : TockStorage.new wordSize pageSize locs = .ok s) (hsep : Separate locs)
    (hfit : s.numPages * s.pageSize < usizeSize) (page byte : Nat) (hp : page < s.numPages) (hb : byte < s.pageSize) :
    ∃ a, s.address page byte = some a ∧
      ∃ l ∈ locs, l.isPartition = false ∧ l.address ≤ a ∧ a < l.address + l.size := by
  obtain ⟨hw, -, -, -, hl⟩ := storage_wf h hsep hfit
  obtain ⟨p, -, h2, -⟩ := Wf.ptr hw hp hb (len := 0) (by omega)
  refine ⟨p, h2, ?_⟩
  obtain ⟨r, hr, hm⟩ := mem_addressesOf.1 (List.mem_of_getElem? h2)
  rw [hl] at hr
  simp at hr
  obtain ⟨l, ⟨h3, h4⟩, rfl⟩ := hr
  exact ⟨l, h3, h4, hm.1, hm.2⟩

/-- Reading gives the bytes of the page. -/
theorem C59_read {wordSize pageSize : Nat} {locs : List Location} {s : TockStorage}
    (h : TockStorage.new wordSize pageSize locs = .ok s) (hsep : Separate locs)
    (hfit : s.numPages * s.pageSize < usizeSize) (m : Mem) (page byte len : Nat) (hp : page < s.numPages)
    (hb : byte < s.pageSize) (hl : byte + len ≤ s.pageSize) :
    ∃ bytes, s.readSlice m page byte len = .ok bytes ∧ bytes.length = len ∧
      ∀ i < len, ∃ a, s.address page (byte + i) = some a ∧ bytes[i]? = some (m a) := by
  obtain ⟨hw, -⟩ := storage_wf h hsep hfit
  obtain ⟨p, h1, h2, h3⟩ := Wf.ptr hw hp hb hl
  refine ⟨m.read p len, ?_, read_length _ _ _, fun i hi => ⟨_, h3 i hi, ?_⟩⟩
  · unfold TockStorage.ptr at h1
    unfold TockStorage.readSlice
    cases hr : s.rangeStart page byte len with
    | error e => rw [hr] at h1; cases h1
    | ok start =>
      rw [hr] at h1
      dsimp only at h1 ⊢
      rw [findSlice_eq, h1]
      rfl
  · have := read_get m (a := p) (n := len) (x := p + i) (by omega) (by omega)
    rwa [Nat.add_sub_cancel_left] at this

/-- A slice that is not within a page of the storage is refused. -/
theorem C59_bounds (s : TockStorage) (m : Mem) (page byte len : Nat) (hb : ¬ (page < s.numPages ∧ byte + len ≤ s.pageSize)) :
    s.readSlice m page byte len = .error .outOfBounds := by
  unfold TockStorage.readSlice TockStorage.rangeStart
  rw [if_neg (fun hc => hb ⟨hc.1, by omega⟩)]

/-- Writing aligned words within a page clears bits of exactly these bytes. -/
theorem C59_write {wordSize pageSize : Nat} {locs : List Location} {s : TockStorage}
    (h : TockStorage.new wordSize pageSize locs = .ok s) (hsep : Separate locs)
    (hfit : s.numPages * s.pageSize < usizeSize) (m : Mem) (page byte : Nat) (value : List UInt8)
    (hp : page < s.numPages) (hb : byte < s.pageSize) (hl : byte + value.length ≤ s.pageSize)
    (ha : wordSize ∣ byte) (hv : wordSize ∣ value.length) :
    (s.writeSlice m .ok page byte value).1 = .ok () ∧
    ∀ page' byte' a, byte' < s.pageSize → s.address page' byte' = some a →
      (s.writeSlice m .ok page byte value).2 a
        = if page' = page ∧ byte ≤ byte' ∧ byte' < byte + value.length then m a &&& value.getD (byte' - byte) 0xff
          else m a := by
  obtain ⟨hw, -, hws, ⟨k, hk⟩, -⟩ := storage_wf h hsep hfit
  obtain ⟨p, h1, h2, h3⟩ := Wf.ptr hw hp hb hl
  have hal : ¬ ((!isAligned s.wordSize byte || !isAligned s.wordSize value.length) = true) := by
    rw [hws, hk, (C49_aligned k byte).2 (hk ▸ ha), (C49_aligned k value.length).2 (hk ▸ hv)]
    decide
  unfold TockStorage.writeSlice
  rw [if_neg hal, h1]
  refine ⟨rfl, fun page' byte' a hb' ha' => ?_⟩
  dsimp only [Mem.write]
  by_cases hc : page' = page ∧ byte ≤ byte' ∧ byte' < byte + value.length
  · obtain ⟨rfl, hc1, hc2⟩ := hc
    have h4 := h3 (byte' - byte) (by omega)
    have e : byte + (byte' - byte) = byte' := by omega
    rw [e, ha'] at h4
    have h4 := Option.some.inj h4
    rw [if_pos (by omega), if_pos ⟨rfl, hc1, hc2⟩]
    congr 2
    omega
  · rw [if_neg hc, if_neg]
    intro hx
    have h4 := h3 (a - p) (by omega)
    have e : p + (a - p) = a := by omega
    rw [e] at h4
    obtain ⟨e1, e2⟩ := C59_distinct h hsep hfit page' byte' page (byte + (a - p)) a hb' (by omega) ha' h4
    exact hc ⟨e1, by omega, by omega⟩

/-- A write that is not word-aligned is refused without effect. -/
theorem C59_write_aligned {wordSize pageSize : Nat} {locs : List Location} {s : TockStorage}
    (h : TockStorage.new wordSize pageSize locs = .ok s) (hsep : Separate locs)
    (hfit : s.numPages * s.pageSize < usizeSize) (m : Mem) (fate : Fate) (page byte : Nat) (value : List UInt8)
    (ha : ¬ (wordSize ∣ byte ∧ wordSize ∣ value.length)) :
    s.writeSlice m fate page byte value = (.error .notAligned, m) := by
  obtain ⟨hw, -, hws, ⟨k, hk⟩, -⟩ := storage_wf h hsep hfit
  unfold TockStorage.writeSlice
  rw [if_pos]
  rw [hws]
  have h1 : isAligned wordSize byte = true ↔ wordSize ∣ byte := by rw [hk]; exact C49_aligned k byte
  have h2 : isAligned wordSize value.length = true ↔ wordSize ∣ value.length := by rw [hk]; exact C49_aligned k _
  cases e1 : isAligned wordSize byte with
  | false => rfl
  | true =>
    cases e2 : isAligned wordSize value.length with
    | false => rfl
    | true => exact absurd ⟨h1.1 e1, h2.1 e2⟩ ha

/-- Whatever happens to a write, only bytes of the slice can change, anywhere in the memory. -/
theorem C59_write_only {wordSize pageSize : Nat} {locs : List Location} {s : TockStorage}
    (h : TockStorage.new wordSize pageSize locs = .ok s) (hsep : Separate locs)
    (hfit : s.numPages * s.pageSize < usizeSize) (m : Mem) (fate : Fate) (page byte : Nat) (value : List UInt8) (a : Nat)
    (hne : (s.writeSlice m fate page byte value).2 a ≠ m a) :
    page < s.numPages ∧ ∃ i < value.length, byte + i < s.pageSize ∧ s.address page (byte + i) = some a := by
  obtain ⟨hw, -⟩ := storage_wf h hsep hfit
  unfold TockStorage.writeSlice at hne
  split at hne
  · exact absurd rfl hne
  · cases hp : s.ptr page byte value.length with
    | error e => rw [hp] at hne; exact absurd rfl hne
    | ok p =>
      rw [hp] at hne
      dsimp only at hne
      have hx : p ≤ a ∧ a < p + value.length := Classical.byContradiction fun hc => hne (write_outside hc)
      obtain ⟨h1, h2⟩ := ptr_range hp
      obtain ⟨q, h3, -, h4⟩ := Wf.ptr hw h1 (byte := byte) (len := value.length) (by omega) h2
      rw [hp] at h3
      cases h3
      refine ⟨h1, a - p, by omega, by omega, ?_⟩
      rw [h4 (a - p) (by omega)]
      congr 1; omega

/-- Erasing a page sets exactly its bytes. -/
theorem C59_erase {wordSize pageSize : Nat} {locs : List Location} {s : TockStorage}
    (h : TockStorage.new wordSize pageSize locs = .ok s) (hsep : Separate locs)
    (hfit : s.numPages * s.pageSize < usizeSize) (m : Mem) (page : Nat) (hp : page < s.numPages) :
    (s.erasePage m .ok page).1 = .ok () ∧
    ∀ page' byte' a, byte' < s.pageSize → s.address page' byte' = some a →
      (s.erasePage m .ok page).2 a = if page' = page then 0xff else m a := by
  obtain ⟨hw, -⟩ := storage_wf h hsep hfit
  obtain ⟨p, h1, h2, h3⟩ := Wf.ptr hw hp hw.pos (len := s.pageSize) (by omega)
  unfold TockStorage.erasePage
  rw [h1]
  refine ⟨rfl, fun page' byte' a hb' ha' => ?_⟩
  dsimp only [Mem.erase]
  by_cases hc : page' = page
  · subst hc
    have h4 := h3 byte' hb'
    rw [Nat.zero_add, ha'] at h4
    have h4 := Option.some.inj h4
    rw [if_pos (by omega), if_pos rfl]
  · rw [if_neg hc, if_neg]
    intro hx
    have h4 := h3 (a - p) (by omega)
    have e : p + (a - p) = a := by omega
    rw [e] at h4
    exact hc (C59_distinct h hsep hfit page' byte' page _ a hb' (by omega) ha' h4).1

/-- Whatever happens to an erase, only bytes of the page can change, anywhere in the memory. -/
theorem C59_erase_only {wordSize pageSize : Nat} {locs : List Location} {s : TockStorage}
    (h : TockStorage.new wordSize pageSize locs = .ok s) (hsep : Separate locs)
    (hfit : s.numPages * s.pageSize < usizeSize) (m : Mem) (fate : Fate) (page : Nat) (a : Nat)
    (hne : (s.erasePage m fate page).2 a ≠ m a) :
    page < s.numPages ∧ ∃ byte < s.pageSize, s.address page byte = some a := by
  obtain ⟨hw, -⟩ := storage_wf h hsep hfit
  unfold TockStorage.erasePage at hne
  cases hp : s.ptr page 0 s.pageSize with
  | error e => rw [hp] at hne; exact absurd rfl hne
  | ok p =>
    rw [hp] at hne
    dsimp only at hne
    have hx : p ≤ a ∧ a < p + s.pageSize := Classical.byContradiction fun hc => hne (erase_outside hc)
    obtain ⟨h1, h2⟩ := ptr_range hp
    obtain ⟨q, h3, -, h4⟩ := Wf.ptr hw h1 hw.pos h2
    rw [hp] at h3
    cases h3
    refine ⟨h1, a - p, by omega, ?_⟩
    have := h4 (a - p) (by omega)
    rw [Nat.zero_add] at this
    rw [this]
    congr 1; omega

/-- On the boards, the storage never touches the images: its operations are changes of the kind `Life.other`. -/
theorem C59_images (side : Side) (s : TockStorage) (h : TockStorage.new 4 0x1000 (locations side) = .ok s) (page byte a : Nat)
    (ha : s.address page byte = some a) (t : Side) : ¬ inImage (bootPartition t) a := by
  have hs : s = ⟨4, 0x1000, 20, [⟨0xC0000, 0x10000⟩, ⟨0xD0000, 0x4000⟩]⟩ := by
    have e : TockStorage.new 4 0x1000 (locations side) = .ok ⟨4, 0x1000, 20, [⟨0xC0000, 0x10000⟩, ⟨0xD0000, 0x4000⟩]⟩ := by
      cases side <;> rfl
    rw [e] at h
    cases h; rfl
  obtain ⟨r, hr, hm⟩ := mem_addressesOf.1 (List.mem_of_getElem? ha)
  rw [hs] at hr
  simp at hr
  rw [ModRange.mem_iff] at hm
  intro hc
  rcases hr with rfl | rfl <;> cases t <;> simp only [inImage, bootPartition] at * <;> omega

/-! ### Examples -/

/-- The storage of a board: 20 pages. -/
def boardStorage : TockStorage := ⟨4, 0x1000, 20, [⟨0xC0000, 0x10000⟩, ⟨0xD0000, 0x4000⟩]⟩

example : TockStorage.new 4 0x1000 (locations .a) = .ok boardStorage ∧ Separate (locations .a) ∧
    boardStorage.numPages * boardStorage.pageSize < usizeSize :=
  ⟨rfl, by unfold Separate; decide, by decide⟩

/-- Page 16 is the first one of the second location. -/
example : (boardStorage.ptr 16 8 4).toOption = some 0xD0008 ∧ (boardStorage.ptr 15 8 4).toOption = some 0xCF008 ∧
    (boardStorage.ptr 20 0 4).toOption = none ∧ (boardStorage.ptr 3 0xffe 4).toOption = none := by decide +kernel

end Verif.Tock
