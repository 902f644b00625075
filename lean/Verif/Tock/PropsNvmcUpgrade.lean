import Verif.Tock.PropsNvmc
import Verif.Tock.PropsInstall

/-!
# C96: upgrades on the flash driver of the kernel
-/
namespace Verif.Tock

/-- What a request promises. -/
def FlashReq.effect (m : Mem) : FlashReq → Mem
  | .write ptr _ buf => m.write ptr buf .ok
  | .erase ptr len => m.erase ptr len .ok

theorem calls_append (locs : List Location) (d d' : Nvmc) (qs rs : List FlashReq) (bs : List Bool)
    (h : d.calls locs qs = some (bs, d')) :
    d.calls locs (qs ++ rs) = (d'.calls locs rs).map fun r => (bs ++ r.1, r.2) := by
  induction qs generalizing d bs with
  | nil =>
    cases h
    simp
  | cons q qs ih =>
    simp only [List.cons_append, Nvmc.calls] at h ⊢
    split at h
    · cases h
    · rename_i b d1 e
      obtain ⟨⟨cs, d2⟩, e1, e2⟩ := Option.map_eq_some_iff.1 h
      cases e2
      rw [ih d1 cs e1, Option.map_map]
      rfl

theorem calls_valid (locs : List Location) (qs : List FlashReq) (h : ∀ q ∈ qs, q.Valid locs 4096) (d : Nvmc) (hd : d.Idle 4096) :
    ∃ d', d.calls locs qs = some (qs.map fun _ => true, d') ∧ d'.Idle 4096 ∧ d'.flash.mem = qs.foldl FlashReq.effect d.flash.mem := by
  induction qs generalizing d with
  | nil => exact ⟨d, rfl, hd, rfl⟩
  | cons q qs ih =>
    have hq := h q (by simp)
    have : ∃ d', d.call locs q = some (true, d') ∧ d'.Idle 4096 ∧ d'.flash.mem = FlashReq.effect d.flash.mem q := by
      cases q with
      | write ptr len buf =>
        obtain ⟨h1, h2, h3, rfl, h4⟩ := hq
        obtain ⟨d', e1, e2, e3, -⟩ := C96_write locs d 4096 ptr buf hd h1 h2 h3 (fits_iff.2 h4)
        exact ⟨d', e1, e2, funext e3⟩
      | erase ptr len =>
        obtain ⟨h1, rfl, h4⟩ := hq
        obtain ⟨d', e1, e2, e3, -⟩ := C96_erase locs d 4096 ptr hd h1 (fits_iff.2 h4)
        exact ⟨d', e1, e2, funext e3⟩
    obtain ⟨d1, e1, i1, m1⟩ := this
    obtain ⟨d2, e2, i2, m2⟩ := ih (fun q hq => h q (by simp [hq])) d1 i1
    exact ⟨d2, by simp [Nvmc.calls, e1, e2], i2, by rw [m2, m1]; rfl⟩

/-- The requests of `write_bundle` (`src/env/tock/storage.rs:305-308`), if none of them fails. -/
def bundleReqs (u : Upgrade) (address : Nat) (data : List UInt8) : List FlashReq :=
  ((ModRange.alignedIter ⟨address, data.length⟩ u.pageSize).map fun a => eraseReq a u.pageSize) ++ [writeReq address data]

/-- A piece of an upgrade: in the metadata page, or in one of the two halves of the firmware. -/
def InOneLocation (offset len : Nat) : Prop := offset < 0x1000 ∨ offset + len ≤ 0x21000 ∨ 0x21000 ≤ offset

theorem piece_location {s : Side} {u : Upgrade} (hu : storageOf s = some u) {offset len address : Nat}
    (ha : Partition.findAddress u.partition offset len = some address) (h : InOneLocation offset len) :
    address % 4096 = offset % 4096 ∧ address + len < usizeSize ∧
      ∃ l ∈ locations s, l.address % 4096 = 0 ∧ l.size % 4096 = 0 ∧ l.address ≤ address ∧ address + len ≤ l.address + l.size := by
  rw [storageOf_eq] at hu
  cases hu
  unfold InOneLocation at h
  simp only [Partition.findAddress, show usizeSize = 4294967296 from rfl] at ha ⊢
  by_cases h1 : offset < 0x1000
  · rw [if_pos h1] at ha
    split at ha
    · rename_i h2
      have ha := Option.some.inj ha
      have hm : (bootPartition s.other).metadataAddress = 0x4000 ∨ (bootPartition s.other).metadataAddress = 0x5000 := by cases s <;> simp [bootPartition, Side.other]
      refine ⟨by omega, by omega, ⟨true, 0x4000, 0x2000⟩, by cases s <;> simp [locations], by decide, by decide, ?_, ?_⟩ <;> dsimp only <;> omega
    · cases ha
  · rw [if_neg h1] at ha
    split at ha
    · split at ha
      · have ha := Option.some.inj ha
        cases s with
        | a =>
          simp only [bootPartition, Side.other] at ha
          by_cases h2 : offset < 0x21000
          · refine ⟨by omega, by omega, ⟨true, 0x60000, 0x20000⟩, by simp [locations], by decide, by decide, ?_, ?_⟩ <;> dsimp only <;> omega
          · refine ⟨by omega, by omega, ⟨true, 0x80000, 0x20000⟩, by simp [locations], by decide, by decide, ?_, ?_⟩ <;> dsimp only <;> omega
        | b =>
          simp only [bootPartition, Side.other] at ha
          by_cases h2 : offset < 0x21000
          · refine ⟨by omega, by omega, ⟨true, 0x20000, 0x20000⟩, by simp [locations], by decide, by decide, ?_, ?_⟩ <;> dsimp only <;> omega
          · refine ⟨by omega, by omega, ⟨true, 0x40000, 0x20000⟩, by simp [locations], by decide, by decide, ?_, ?_⟩ <;> dsimp only <;> omega
      · cases ha
    · cases ha

theorem erases_valid {s : Side} {u : Upgrade} (hu : storageOf s = some u) {offset address : Nat} {data : List UInt8}
    (ha : Partition.findAddress u.partition offset data.length = some address) (h : InOneLocation offset data.length) :
    ∀ q ∈ (ModRange.alignedIter ⟨address, data.length⟩ u.pageSize).map fun a => eraseReq a u.pageSize, q.Valid (locations s) 4096 := by
  obtain ⟨h1, h2, l, hm, h3, h4, h5, h6⟩ := piece_location hu ha h
  have hps : u.pageSize = 4096 := by
    rw [storageOf_eq] at hu
    cases hu
    rfl
  rw [hps]
  intro q hq
  obtain ⟨a, hin, rfl⟩ := List.mem_map.1 hq
  obtain ⟨i1, i2, -⟩ := ((C49_pages ⟨address, data.length⟩ 4096 (by omega)).1 a).1 hin
  rw [ModRange.mem_iff] at i1
  dsimp only at i1
  exact ⟨by omega, rfl, l, hm, by omega, by omega⟩

theorem erasePages_effect (u : Upgrade) (as : List Nat) (m : Mem) :
    erasePages u.pageSize as m [] = (true, (as.map fun a => eraseReq a u.pageSize).foldl FlashReq.effect m, []) := by
  induction as generalizing m with
  | nil => rfl
  | cons a as ih =>
    unfold erasePages
    rw [if_pos (by rfl), List.tail_nil, ih]
    rfl

/-- Writing a piece of an upgrade on the driver: if the piece is aligned, not longer than a page and in one location of the kernel, then all
requests succeed, and the flash is then as C90 and C91 assume. -/
theorem C96_upgrade (c : Crypto) (s : Side) (u : Upgrade) (hu : storageOf s = some u) (d : Nvmc) (hd : d.Idle 4096)
    (offset address : Nat) (data : List UInt8) (ha : Partition.findAddress u.partition offset data.length = some address)
    (h1 : offset % 4 = 0) (h2 : data.length % 4 = 0) (h4 : data.length ≤ 4096)
    (h5 : InOneLocation offset data.length) :
    ∃ bs d', d.calls (locations s) (bundleReqs u address data) = some (bs, d') ∧ (∀ b ∈ bs, b = true) ∧ d'.Idle 4096 ∧
      d'.flash.mem = (u.program c d.flash.mem [] offset address data).2 := by
  obtain ⟨g1, g2, l, hm, g3, g4, g5, g6⟩ := piece_location hu ha h5
  have hv : ∀ q ∈ bundleReqs u address data, q.Valid (locations s) 4096 := by
    intro q hq
    rcases List.mem_append.1 hq with hq | hq
    · exact erases_valid hu ha h5 q hq
    · rw [List.mem_singleton.1 hq]
      exact ⟨by omega, h2, h4, rfl, l, hm, g5, g6⟩
  obtain ⟨d', e1, e2, e3⟩ := calls_valid (locations s) _ hv d hd
  refine ⟨_, d', e1, by simp, e2, ?_⟩
  rw [e3]
  unfold Upgrade.program bundleReqs
  rw [erasePages_effect, List.foldl_append]
  dsimp only
  rw [if_neg (by decide)]
  split
  · rfl
  · split <;> rfl

/-- **One command of the vendor disables the storage.** A piece of firmware whose length is not a multiple of 4: its pages are erased, it is not
written, and every later request of the application fails, whatever it is. -/
theorem C96_upgrade_stuck (s : Side) (u : Upgrade) (hu : storageOf s = some u) (d : Nvmc) (hd : d.Idle 4096) (offset address : Nat)
    (data : List UInt8) (ha : Partition.findAddress u.partition offset data.length = some address) (h2 : data.length % 4 ≠ 0)
    (h4 : data.length ≤ 4096) (h5 : InOneLocation offset data.length) (qs : List FlashReq) :
    ∃ bs d1 d2, d.calls (locations s) (bundleReqs u address data) = some (bs ++ [false], d1) ∧ (∀ b ∈ bs, b = true) ∧
      d.calls (locations s) (bundleReqs u address data ++ qs) = some (bs ++ false :: qs.map fun _ => false, d2) ∧
      d2.flash = d1.flash := by
  obtain ⟨g1, g2, l, hm, g3, g4, g5, g6⟩ := piece_location hu ha h5
  obtain ⟨d0, e1, e2, e3⟩ := calls_valid (locations s) _ (erases_valid hu ha h5) d hd
  obtain ⟨d1, f1, f2⟩ := C96_stuck (locations s) d0 4096 address data e2 h2 h4 ⟨l, hm, g5, g6⟩ []
  obtain ⟨d2, f3, f4⟩ := C96_stuck (locations s) d0 4096 address data e2 h2 h4 ⟨l, hm, g5, g6⟩ qs
  refine ⟨((ModRange.alignedIter ⟨address, data.length⟩ u.pageSize).map fun a => eraseReq a u.pageSize).map fun _ => true, d1, d2, ?_, ?_, ?_, f4.trans f2.symm⟩
  · unfold bundleReqs
    rw [calls_append _ _ _ _ _ _ e1, f1]
    rfl
  · simp
  · unfold bundleReqs
    rw [List.append_assoc, calls_append _ _ _ _ _ _ e1, List.singleton_append, f3]
    rfl

/-- The requests of commands of the tool, one command after the other; `none` if one of them fails. -/
def Nvmc.bundles (s : Side) (u : Upgrade) : Nvmc → List (Nat × List UInt8) → Option Nvmc
  | d, [] => some d
  | d, (offset, data) :: l =>
    match Partition.findAddress u.partition offset data.length with
    | none => none
    | some address =>
      match d.calls (locations s) (bundleReqs u address data) with
      | some (bs, d') => if bs.all id then Nvmc.bundles s u d' l else none
      | none => none

theorem process_success {c : Crypto} {key : List UInt8} {u : Upgrade} {m : Mem} {offset : Nat} {data : List UInt8}
    (h : (processVendorUpgrade c key (some u) m [] offset data (c.hash data)).1 = .success) :
    ∃ address, Partition.findAddress u.partition offset data.length = some address ∧
      (processVendorUpgrade c key (some u) m [] offset data (c.hash data)).2 = (u.program c m [] offset address data).2 := by
  have key2 : ∀ m', u.writeBundle c key m [] offset data = (.ok (), m') →
      ∃ address, Partition.findAddress u.partition offset data.length = some address ∧ m' = (u.program c m [] offset address data).2 := by
    intro m' hw
    unfold Upgrade.writeBundle at hw
    split at hw
    · cases hw
    · split at hw
      · cases hw
      · rename_i address ha
        split at hw
        · cases hw
        · exact ⟨address, ha, by rw [hw]⟩
        · split at hw
          · cases hw
          · exact ⟨address, ha, by rw [hw]⟩
  unfold processVendorUpgrade at h ⊢
  rw [if_neg (by simp)] at h ⊢
  dsimp only at h ⊢
  split at h
  · rename_i m' hw
    exact key2 m' hw
  · cases h
  · cases h

/-- A whole upgrade on the driver: the metadata page and then the firmware, in pieces that are aligned, not longer than a page and each in one
location of the kernel. Under the conditions of C90, all requests succeed, and the flash then contains the page and the firmware, which the
bootloader considers valid. -/
theorem C96_install (c : Crypto) (key : List UInt8) (s : Side) (u : Upgrade) (hu : storageOf s = some u) (d : Nvmc) (hd : d.Idle 4096)
    (page firmware : List UInt8) (version : Nat) (hr : Release c key s.other page firmware version)
    (hv : versionField d.flash.mem s ≤ version) (pieces : List (List UInt8)) (hp : pieces.flatten = firmware)
    (hne : ∀ p ∈ pieces, p ≠ [])
    (hal : ∀ q ∈ commands page pieces, q.1 % 4 = 0 ∧ q.2.length % 4 = 0 ∧ q.2.length ≤ 4096 ∧ InOneLocation q.1 q.2.length) :
    ∃ d', d.bundles s u (commands page pieces) = some d' ∧ d'.Idle 4096 ∧
      d'.flash.mem.read (bootPartition s.other).metadataAddress 0x1000 = page ∧
      d'.flash.mem.read (bootPartition s.other).firmwareAddress 0x40000 = firmware ∧
      ValidImage c d'.flash.mem (bootPartition s.other) version ∧
      ∀ x, ¬ inImage (bootPartition s.other) x → d'.flash.mem x = d.flash.mem x := by
  obtain ⟨h1, h2, h3, h4, h5⟩ := C90_install c key s u hu d.flash.mem page firmware version hr hv pieces hp hne
  have run : ∀ (l : List (Nat × List UInt8)) (d : Nvmc), d.Idle 4096 →
      (∀ q ∈ l, q.1 % 4 = 0 ∧ q.2.length % 4 = 0 ∧ q.2.length ≤ 4096 ∧ InOneLocation q.1 q.2.length) →
      (∀ st ∈ (execute c key u l d.flash.mem).1, st = .success) →
      ∃ d', d.bundles s u l = some d' ∧ d'.Idle 4096 ∧ d'.flash.mem = (execute c key u l d.flash.mem).2 := by
    intro l
    induction l with
    | nil => exact fun d hd _ _ => ⟨d, rfl, hd, rfl⟩
    | cons q l ih =>
      obtain ⟨offset, data⟩ := q
      intro d hd hal hst
      simp only [execute] at hst ⊢
      obtain ⟨address, ha, hm⟩ := process_success (hst _ (List.mem_cons_self ..))
      obtain ⟨a1, a2, a3, a4⟩ := hal (offset, data) (by simp)
      obtain ⟨bs, d1, e1, e2, e3, e4⟩ := C96_upgrade c s u hu d hd offset address data ha a1 a2 a3 a4
      have hst' := fun st hs => hst st (List.mem_cons_of_mem _ hs)
      rw [hm, ← e4] at hst' ⊢
      obtain ⟨d2, f1, f2, f3⟩ := ih d1 e3 (fun q hq => hal q (by simp [hq])) hst'
      refine ⟨d2, ?_, f2, f3⟩
      simp only [Nvmc.bundles, ha, e1]
      rw [if_pos (by simpa using e2)]
      exact f1
  obtain ⟨d', e1, e2, e3⟩ := run _ d hd hal h1
  rw [← e3] at h2 h3 h4 h5
  exact ⟨d', e1, e2, h2, h3, h4, h5⟩

/-- Pages of a firmware. -/
def toyPages : List (List UInt8) := List.replicate 64 (List.replicate 4096 0xab)

theorem offsets_pages (o n : Nat) : ∀ q ∈ offsets o (List.replicate n (List.replicate 4096 (0xab : UInt8))),
    q.2.length = 4096 ∧ q.1 % 4096 = o % 4096 := by
  induction n generalizing o with
  | zero => simp [offsets]
  | succ n ih =>
    intro q hq
    rw [List.replicate_succ, offsets] at hq
    rcases List.mem_cons.1 hq with rfl | hq
    · exact ⟨List.length_replicate, rfl⟩
    · obtain ⟨h1, h2⟩ := ih _ q hq
      rw [List.length_replicate] at h2
      exact ⟨h1, by omega⟩

/-- Non-vacuity: a release in pages. -/
example : Release toyCrypto toyKey .b (toyPage 6 .b) toyFirmware 6 ∧ toyPages.flatten = toyFirmware ∧ (∀ p ∈ toyPages, p ≠ []) ∧
    ∀ q ∈ commands (toyPage 6 .b) toyPages, q.1 % 4 = 0 ∧ q.2.length % 4 = 0 ∧ q.2.length ≤ 4096 ∧ InOneLocation q.1 q.2.length := by
  refine ⟨toyRelease, ?_, ?_, ?_⟩
  · rw [toyPages, List.flatten_replicate_replicate]
    rfl
  · intro p hp
    rw [(List.mem_replicate.1 hp).2]
    exact List.ne_nil_of_length_pos (by rw [List.length_replicate]; decide)
  · intro q hq
    have : q.2.length = 4096 ∧ q.1 % 4096 = 0 := by
      rcases List.mem_cons.1 hq with rfl | hq
      · obtain ⟨⟨_, hm, _⟩, _⟩ := toyRelease
        exact ⟨hm.length, rfl⟩
      · exact offsets_pages 0x1000 64 q hq
    unfold InOneLocation
    omega

/-- Non-vacuity: the second page of the firmware of partition B, and a byte of it. -/
example : Partition.findAddress toyUpgrade.partition 0x2000 4096 = some 0x61000 ∧ InOneLocation 0x2000 4096 ∧
    Partition.findAddress toyUpgrade.partition 0x2000 1 = some 0x61000 ∧ InOneLocation 0x2000 1 :=
  ⟨by decide +kernel, .inr (.inl (by decide)), by decide +kernel, .inr (.inl (by decide))⟩

/-- A piece across the two halves of the firmware is in the partition but refused by the kernel. -/
example : Partition.findAddress toyUpgrade.partition 0x20ffc 8 = some 0x7fffc ∧
    ((Nvmc.boot blank).call (locations .a) (writeReq 0x7fffc [1, 2, 3, 4, 5, 6, 7, 8])).map (·.1) = some false :=
  ⟨by decide +kernel, rfl⟩

end Verif.Tock
