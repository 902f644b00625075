import Verif.Tock.InstallLemmas

/-!
# C90: a signed upgrade that is sent in pieces is accepted, installed and started
-/
namespace Verif.Tock

/-- The tool sends the metadata page and then the firmware, in pieces of any sizes. If the page is signed for the partition
that does not run, with the hash of the firmware and a version that is not lower than the running one, and no operation of the
flash fails, then all commands succeed, whatever the memory contained before. Afterwards the partition contains exactly the page
and the firmware, the bootloader considers it valid with this version, and nothing else changed. -/
theorem C90_install (c : Crypto) (key : List UInt8) (s : Side) (u : Upgrade) (hu : storageOf s = some u) (m : Mem)
    (page firmware : List UInt8) (version : Nat) (hr : Release c key s.other page firmware version)
    (hv : versionField m s ≤ version) (pieces : List (List UInt8)) (hp : pieces.flatten = firmware)
    (hne : ∀ p ∈ pieces, p ≠ []) :
    (∀ st ∈ (execute c key u (commands page pieces) m).1, st = .success) ∧
    (execute c key u (commands page pieces) m).2.read (bootPartition s.other).metadataAddress 0x1000 = page ∧
    (execute c key u (commands page pieces) m).2.read (bootPartition s.other).firmwareAddress 0x40000 = firmware ∧
    ValidImage c (execute c key u (commands page pieces) m).2 (bootPartition s.other) version ∧
    ∀ x, ¬ inImage (bootPartition s.other) x → (execute c key u (commands page pieces) m).2 x = m x := by
  obtain ⟨⟨signature, hm, hsig⟩, hlen⟩ := hr
  have hpl := hm.length
  have hacc : Acceptable c key (bootPartition s.other).firmwareAddress (versionField m s) page := ⟨_, _, _, hm, hsig, hv⟩
  obtain ⟨a1, a2⟩ := C51_accepts c key s u hu m page hacc ⟨0, page, []⟩ (by simp [Request.Clean]) rfl rfl
  have hproc : processVendorUpgrade c key (some u) m [] 0 page (c.hash page) = (.success, after c key u m ⟨0, page, []⟩) := by
    unfold processVendorUpgrade
    rw [if_neg (by simp)]
    dsimp only at a1 ⊢
    unfold after
    dsimp only
    rcases hwb : u.writeBundle c key m [] 0 page with ⟨r, m1⟩
    rw [hwb] at a1
    dsimp only at a1
    subst a1
    rfl
  have hout : ∀ x, ¬ inImage (bootPartition s.other) x → after c key u m ⟨0, page, []⟩ x = m x := fun x hx =>
    writeBundle_confined (storageOf_wf hu) fun hc => hx ((storageOf_addresses hu).1 hc)
  obtain ⟨e1, -, -, -⟩ := (metadata_iff hpl).1 hm
  obtain ⟨i1, i2, i3, i4⟩ := execute_pieces (c := c) (key := key) hu hlen e1.symm pieces []
    (after c key u m ⟨0, page, []⟩) (by simp [hp]) hne a2 (by simp [Mem.read]) (by
      intro x h1 h2
      exfalso
      revert h1 h2
      cases s <;> simp only [bootPartition, Side.other, up, List.length_nil] <;> omega)
  rw [List.length_nil, Nat.add_zero] at i1 i2 i3 i4
  unfold commands execute
  rw [hproc]
  dsimp only
  refine ⟨?_, i2, i3, ?_, fun x hx => (i4 x hx).trans (hout x hx)⟩
  · intro st hst
    rcases List.mem_cons.1 hst with rfl | hst
    · rfl
    · exact i1 st hst
  · refine ⟨signature, ?_⟩
    rw [contents_eq i2 i3, i2]
    exact hm

/-- The device starts the new firmware at the next boot if its version is higher than the one of the running image, or equal
and the new one is on partition A, or if the running image is not valid. -/
theorem C90_started (c : Crypto) (key : List UInt8) (s : Side) (u : Upgrade) (hu : storageOf s = some u) (m : Mem)
    (page firmware : List UInt8) (version : Nat) (hr : Release c key s.other page firmware version)
    (hv : versionField m s ≤ version) (pieces : List (List UInt8)) (hp : pieces.flatten = firmware)
    (hne : ∀ p ∈ pieces, p ≠ []) :
    (∀ w, ValidImage c m (bootPartition s) w → w < version ∨ s = .b) →
      boot c (execute c key u (commands page pieces) m).2 = some s.other := by
  intro hw
  obtain ⟨-, -, -, h4, h5⟩ := C90_install c key s u hu m page firmware version hr hv pieces hp hne
  have hrun : ∀ w, ValidImage c (execute c key u (commands page pieces) m).2 (bootPartition s) w ↔
      ValidImage c m (bootPartition s) w := fun w => validImage_congr fun x hx => h5 x (images_disjoint s x hx)
  cases hb : boot c (execute c key u (commands page pieces) m).2 with
  | none => exact absurd h4 ((C50_none _ _).1 hb _ _)
  | some t =>
    obtain ⟨v, g1, g2⟩ := C50_boot _ _ _ hb
    obtain ⟨g3, g4⟩ := g2 _ _ h4
    by_cases ht : t = s.other
    · rw [ht]
    · exfalso
      have ht : t = s := by cases t <;> cases s <;> simp_all [Side.other]
      subst ht
      have hval := (hrun v).1 g1
      have hvf : v = versionField m t := by
        obtain ⟨_, hm⟩ := hval
        obtain ⟨-, -, e, -⟩ := (metadata_iff (read_length _ _ _)).1 hm
        rw [e, versionField_eq]
      rcases hw v hval with h | h
      · omega
      · subst h
        have := g4 (by omega)
        simp [Side.other] at this

/-- The same version again on partition B is not started: the bootloader prefers A. -/
theorem C90_same_version (c : Crypto) (key : List UInt8) (u : Upgrade) (hu : storageOf .a = some u) (m : Mem)
    (page firmware : List UInt8) (version : Nat) (hr : Release c key .b page firmware version)
    (hv : ValidImage c m (bootPartition .a) version) (pieces : List (List UInt8)) (hp : pieces.flatten = firmware)
    (hne : ∀ p ∈ pieces, p ≠ []) : boot c (execute c key u (commands page pieces) m).2 = some .a := by
  have hvf : version = versionField m .a := by
    obtain ⟨_, hm⟩ := hv
    obtain ⟨-, -, e, -⟩ := (metadata_iff (read_length _ _ _)).1 hm
    rw [e, versionField_eq]
  obtain ⟨-, -, -, h4, h5⟩ := C90_install c key .a u hu m page firmware version hr (by omega) pieces hp hne
  have hrun : ValidImage c (execute c key u (commands page pieces) m).2 (bootPartition .a) version :=
    (validImage_congr fun x hx => h5 x (images_disjoint .a x hx)).2 hv
  cases hb : boot c (execute c key u (commands page pieces) m).2 with
  | none => exact absurd h4 ((C50_none _ _).1 hb _ _)
  | some t =>
    cases t with
    | a => rfl
    | b =>
      obtain ⟨v, g1, g2⟩ := C50_boot _ _ _ hb
      have := validImage_unique g1 h4
      have := (g2 _ _ hrun).2 (by omega)
      simp at this

/-- Whatever happened before, an upgrade can be repeated: after any requests, of anyone, completed, failed or cut off by a loss
of power, the upgrade still succeeds. -/
theorem C90_retry (c : Crypto) (key : List UInt8) (s : Side) (u : Upgrade) (hu : storageOf s = some u) (m : Mem)
    (rs : List Request) (page firmware : List UInt8) (version : Nat) (hr : Release c key s.other page firmware version)
    (hv : versionField m s ≤ version) (pieces : List (List UInt8)) (hp : pieces.flatten = firmware)
    (hne : ∀ p ∈ pieces, p ≠ []) :
    (∀ st ∈ (execute c key u (commands page pieces) (rs.foldl (after c key u) m)).1, st = .success) ∧
    ValidImage c (execute c key u (commands page pieces) (rs.foldl (after c key u) m)).2 (bootPartition s.other) version ∧
    ((∀ w, ValidImage c m (bootPartition s) w → w < version ∨ s = .b) →
      boot c (execute c key u (commands page pieces) (rs.foldl (after c key u) m)).2 = some s.other) := by
  have hrun := (C51_history c key s u hu m rs).1
  have hv' : versionField (rs.foldl (after c key u) m) s ≤ version := by
    unfold versionField at hv ⊢
    rw [read_congr (m := m) fun x h1 h2 => hrun x (.inl ⟨by omega, by omega⟩)]
    exact hv
  obtain ⟨h1, -, -, h2, -⟩ := C90_install c key s u hu _ page firmware version hr hv' pieces hp hne
  refine ⟨h1, h2, fun hw => C90_started c key s u hu _ page firmware version hr hv' pieces hp hne fun w hvw => ?_⟩
  exact hw w ((validImage_congr hrun).1 hvw)

/-! ### An example: version 6 for partition B, in three pieces, while version 3 runs on A -/

/-- A firmware. -/
def toyFirmware : List UInt8 := List.replicate 0x40000 0xab

/-- Pieces that do not end at pages. -/
def toyPieces : List (List UInt8) :=
  [List.replicate 100 0xab, List.replicate 0x1234 0xab, List.replicate (0x40000 - 100 - 0x1234) 0xab]

theorem toyRelease : Release toyCrypto toyKey .b (toyPage 6 .b) toyFirmware 6 := by
  have hl : (toyPage 6 .b).length = 0x1000 := by decide +kernel
  have hh : ∀ l, toyCrypto.hash l = (toyPage 6 .b).take 32 := by
    intro l
    show List.replicate 32 7 = _
    decide +kernel
  refine ⟨⟨((toyPage 6 .b).drop 32).take 64, ?_, ?_⟩, List.length_replicate⟩
  · rw [hh]
    exact (metadata_iff hl).2 ⟨rfl, rfl, by decide +kernel, by decide +kernel⟩
  · rw [hh]
    exact ⟨List.replicate 32 1, List.replicate 32 1, (), _, by decide +kernel, by decide, by decide, rfl, rfl,
      by decide +kernel⟩

theorem three_pieces (b : UInt8) (i j k : Nat) :
    [List.replicate i b, List.replicate j b, List.replicate k b].flatten = List.replicate (i + (j + k)) b := by
  simp [List.replicate_append_replicate]

theorem toyPieces_flatten : toyPieces.flatten = toyFirmware := three_pieces 0xab 100 0x1234 (0x40000 - 100 - 0x1234)

example : (∀ st ∈ (execute toyCrypto toyKey toyUpgrade (commands (toyPage 6 .b) toyPieces) (toyMem 3 1)).1, st = .success) ∧
    boot toyCrypto (toyMem 3 1) = some .a ∧
    boot toyCrypto (execute toyCrypto toyKey toyUpgrade (commands (toyPage 6 .b) toyPieces) (toyMem 3 1)).2 = some .b := by
  have hne : ∀ p ∈ toyPieces, p ≠ [] := by
    have : ∀ n, n ≠ 0 → List.replicate n (0xab : UInt8) ≠ [] := fun n hn h => hn (List.replicate_eq_nil_iff _ |>.1 h)
    intro p hp
    rcases List.mem_cons.1 hp with rfl | hp
    · exact this _ (by decide)
    · rcases List.mem_cons.1 hp with rfl | hp
      · exact this _ (by decide)
      · rw [List.mem_singleton.1 hp]
        exact this _ (by decide)
  refine ⟨(C90_install toyCrypto toyKey .a toyUpgrade toyUpgrade_storage (toyMem 3 1) _ _ 6 toyRelease
    (by rw [toyVersion]; decide) toyPieces toyPieces_flatten hne).1, by decide +kernel,
    C90_started toyCrypto toyKey .a toyUpgrade toyUpgrade_storage (toyMem 3 1) _ _ 6 toyRelease
    (by rw [toyVersion]; decide) toyPieces toyPieces_flatten hne ?_⟩
  intro w hw
  left
  have : ValidImage toyCrypto (toyMem 3 1) (bootPartition .a) 3 := readVersion_iff.1 (by decide +kernel)
  have := validImage_unique hw this
  omega

end Verif.Tock
