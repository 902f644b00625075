import Verif.Tock.BootLemmas

/-!
# C50: booting; C51: upgrades; C58: no version is rolled back
-/
namespace Verif.Tock

/-! ### Examples for the theorems below -/

/-- A toy cryptography: a constant hash; the first byte of a signature is the one of the signed hash. -/
def toyCrypto : Crypto where
  Signature := List UInt8
  PublicKey := Unit
  hash := fun _ => List.replicate 32 7
  signatureFromSlice := some
  publicKeyFromCoordinates := fun _ _ => some ()
  verifyPrehash := fun _ h s => h[0]? == s[0]? && h.length == 32 && s.length == 64

/-- A public key. -/
def toyKey : List UInt8 := 4 :: List.replicate 64 1

/-- The bytes of a metadata page: hash and signature consist of sevens. -/
def toyByte (version : Nat) (s : Side) (i : Nat) : UInt8 :=
  if i < 96 then 7 else if i = 0x800 then UInt8.ofNat version else if i = 0x80a then (if s = .a then 2 else 6)
  else if 0x800 ≤ i ∧ i < 0x80c then 0 else 0xff

/-- A metadata page. -/
def toyPage (version : Nat) (s : Side) : List UInt8 := (List.range' 0 0x1000).map (toyByte version s)

/-- A memory with two images. -/
def toyMem (va vb : Nat) : Mem := fun x =>
  if 0x4000 ≤ x ∧ x < 0x5000 then toyByte va .a (x - 0x4000)
  else if 0x5000 ≤ x ∧ x < 0x6000 then toyByte vb .b (x - 0x5000)
  else 0

/-! ### C50 -/

/-- The bootloader starts an image only if its metadata has its address and the hash of its contents, and no other valid image
has a higher version; if versions are equal it starts A. -/
theorem C50_boot (c : Crypto) (m : Mem) (s : Side) (h : boot c m = some s) :
    ∃ v, ValidImage c m (bootPartition s) v ∧
      ∀ t w, ValidImage c m (bootPartition t) w → w ≤ v ∧ (w = v → t = s ∨ s = .a) :=
  (boot_spec c m).1 s h

/-- If no image is valid the bootloader starts none, and conversely. -/
theorem C50_none (c : Crypto) (m : Mem) :
    boot c m = none ↔ ∀ s v, ¬ ValidImage c m (bootPartition s) v := by
  refine ⟨(boot_spec c m).2, fun h => ?_⟩
  cases hb : boot c m with
  | none => rfl
  | some s =>
    obtain ⟨v, hv, -⟩ := (boot_spec c m).1 s hb
    exact absurd hv (h s v)

/-- Only the images matter. -/
theorem C50_images (c : Crypto) (m m' : Mem) (h : ∀ s x, inImage (bootPartition s) x → m' x = m x) :
    boot c m' = boot c m := by
  have key : ∀ s, (bootPartition s).readVersion c m' = (bootPartition s).readVersion c m := by
    intro s
    apply Option.ext
    intro v
    rw [readVersion_iff, readVersion_iff]
    exact validImage_congr (h s)
  unfold boot
  rw [key, key]

example : boot toyCrypto (toyMem 3 5) = some .b ∧ boot toyCrypto (toyMem 5 5) = some .a ∧
    boot toyCrypto (fun x => if x = 0x5000 then 0 else toyMem 3 5 x) = some .a ∧
    boot toyCrypto (fun _ => 0) = none := by decide +kernel

example : ValidImage toyCrypto (toyMem 3 5) (bootPartition .b) 5 := readVersion_iff.1 (by decide +kernel)

/-! ### C51 -/

/-- Whatever locations the kernel reports: a request, completed or cut off, changes nothing outside of the metadata page of the
partition to upgrade and the partition locations. The metadata page is one of the two pages at 0x4000, and the running
version is read from the other one. -/
theorem C51_confined (c : Crypto) (key : List UInt8) (pageSize : Nat) (locs : List Location) (hin : LocationsInside locs)
    (u : Upgrade) (hu : Upgrade.new pageSize locs = .ok u) (m : Mem) (r : Request) (x : Nat)
    (hx : after c key u m r x ≠ m x) :
    ((x ∈ u.metadata) ∨
      ∃ l ∈ locs, l.isPartition = true ∧ l.address ≠ 0x4000 ∧ l.address ≤ x ∧ x < l.address + l.size) ∧
    ((u.metadata = ⟨0x4000, pageSize⟩ ∧ u.runningMetadata = ⟨0x4000 + pageSize, pageSize⟩) ∨
      (u.metadata = ⟨0x4000 + pageSize, pageSize⟩ ∧ u.runningMetadata = ⟨0x4000, pageSize⟩)) := by
  obtain ⟨hw, -, h1, h2⟩ := new_spec hu hin
  constructor
  · apply h2
    apply Classical.byContradiction
    intro hc
    exact hx (writeBundle_confined hw hc)
  · rcases h1 with ⟨h1, h3, -⟩ | ⟨h1, h3, -⟩
    · exact .inl ⟨h1, h3⟩
    · exact .inr ⟨h1, h3⟩

/-- Whatever locations the kernel reports: a request changes the metadata page only if its data contains an acceptable page,
that is one with a valid signature of its hash, the address of the partition, and a version that is not lower than the running
one. Then it writes this page, unless an operation of the flash fails. -/
theorem C51_request (c : Crypto) (key : List UInt8) (pageSize : Nat) (locs : List Location) (hin : LocationsInside locs)
    (u : Upgrade) (hu : Upgrade.new pageSize locs = .ok u) (m : Mem) (r : Request) :
    otherMetadata u (after c key u m r) = otherMetadata u m ∨
    ∃ page i, (r.data.drop i).take page.length = page ∧ Acceptable c key u.identifier (u.runningVersion m) page ∧
      (r.Clean → otherMetadata u (after c key u m r) = page) :=
  writeBundle_metadata (new_spec hu hin).1 m r.fates r.offset r.data

/-- The version in the metadata of a partition. -/
def versionField (m : Mem) (s : Side) : Nat := readLe (m.read ((bootPartition s).metadataAddress + 0x800) 8)

theorem versionField_eq (m : Mem) (s : Side) :
    parseMetadataVersion (m.read (bootPartition s).metadataAddress 0x1000) = versionField m s := by
  unfold parseMetadataVersion versionField signOffset
  rw [drop_read]
  congr 1

/-- Over every history of requests while partition `s` runs: the running image is not changed at all, and the metadata page of
the other partition is the initial one, or an acceptable one, or a request with an acceptable page was cut off or failed. -/
theorem C51_history (c : Crypto) (key : List UInt8) (s : Side) (u : Upgrade) (hu : storageOf s = some u) (m : Mem)
    (rs : List Request) :
    (∀ x, inImage (bootPartition s) x → rs.foldl (after c key u) m x = m x) ∧
    ((rs.foldl (after c key u) m).read (bootPartition s.other).metadataAddress 0x1000
        = m.read (bootPartition s.other).metadataAddress 0x1000 ∨
      Acceptable c key (bootPartition s.other).firmwareAddress (versionField m s)
        ((rs.foldl (after c key u) m).read (bootPartition s.other).metadataAddress 0x1000) ∨
      ∃ r ∈ rs, ¬ r.Clean ∧ ∃ page i, (r.data.drop i).take page.length = page ∧
        Acceptable c key (bootPartition s.other).firmwareAddress (versionField m s) page) := by
  have hw := storageOf_wf hu
  have e := storageOf_eq s
  rw [hu] at e
  have e := Option.some.inj e
  have hid : u.identifier = (bootPartition s.other).firmwareAddress := by rw [e]
  have hom : ∀ m, otherMetadata u m = m.read (bootPartition s.other).metadataAddress 0x1000 := by
    intro m; unfold otherMetadata; rw [e]
  have hrv : ∀ m, u.runningVersion m = versionField m s := by
    intro m; unfold Upgrade.runningVersion; rw [e]; exact versionField_eq m s
  induction rs generalizing m with
  | nil => exact ⟨fun _ _ => rfl, .inl rfl⟩
  | cons r rs ih =>
    have hrun : ∀ x, inImage (bootPartition s) x → after c key u m r x = m x := fun x hx => after_running hu m r hx
    have hv : versionField (after c key u m r) s = versionField m s := by
      unfold versionField
      rw [read_congr fun x h1 h2 => hrun x (.inl ⟨by omega, by omega⟩)]
    obtain ⟨h1, h2⟩ := ih (after c key u m r)
    rw [List.foldl_cons]
    refine ⟨fun x hx => (h1 x hx).trans (hrun x hx), ?_⟩
    rw [hv] at h2
    rcases h2 with h2 | h2 | ⟨q, hq, h2⟩
    · have hreq := writeBundle_metadata hw (c := c) (key := key) m r.fates r.offset r.data
      rw [hid, hrv, hom, hom] at hreq
      rcases hreq with h3 | ⟨page, i, h3, h4, h5⟩
      · exact .inl (h2.trans h3)
      · by_cases hc : r.Clean
        · right; left
          rw [h2]
          have := h5 hc
          unfold after
          rw [this]
          exact h4
        · right; right
          exact ⟨r, by simp, hc, page, i, h3, h4⟩
    · exact .inr (.inl h2)
    · exact .inr (.inr ⟨q, by simp [hq], h2⟩)

/-- If no operation of the flash fails, the metadata page of the other partition only ever contains metadata that is acceptable,
or the initial one. -/
theorem C51_metadata (c : Crypto) (key : List UInt8) (s : Side) (u : Upgrade) (hu : storageOf s = some u) (m : Mem)
    (rs : List Request) (hc : ∀ r ∈ rs, r.Clean) :
    (rs.foldl (after c key u) m).read (bootPartition s.other).metadataAddress 0x1000
        = m.read (bootPartition s.other).metadataAddress 0x1000 ∨
      Acceptable c key (bootPartition s.other).firmwareAddress (versionField m s)
        ((rs.foldl (after c key u) m).read (bootPartition s.other).metadataAddress 0x1000) := by
  rcases (C51_history c key s u hu m rs).2 with h | h | ⟨r, hr, h, -⟩
  · exact .inl h
  · exact .inr h
  · exact absurd (hc r hr) h

/-- An acceptable page is written: the request that consists of it succeeds if no operation of the flash fails. -/
theorem C51_accepts (c : Crypto) (key : List UInt8) (s : Side) (u : Upgrade) (hu : storageOf s = some u) (m : Mem)
    (page : List UInt8) (hp : Acceptable c key (bootPartition s.other).firmwareAddress (versionField m s) page)
    (r : Request) (hc : r.Clean) (ho : r.offset = 0) (hd : r.data = page) :
    (u.writeBundle c key m r.fates r.offset r.data).1 = .ok () ∧
    (after c key u m r).read (bootPartition s.other).metadataAddress 0x1000 = page := by
  have hw := storageOf_wf hu
  have e := storageOf_eq s
  rw [hu] at e
  have e := Option.some.inj e
  have hlen : page.length = 0x1000 := by obtain ⟨_, _, _, h, -⟩ := hp; exact h.length
  have hmd : u.metadata = ⟨(bootPartition s.other).metadataAddress, 0x1000⟩ := by rw [e]
  have hps : u.pageSize = 0x1000 := by rw [e]
  have hfa : Partition.findAddress u.partition 0 0x1000 = some (bootPartition s.other).metadataAddress := by
    rw [e]; cases s <;> decide
  have hcm : u.containsMetadata ⟨(bootPartition s.other).metadataAddress, 0x1000⟩ = .ok true := by
    unfold Upgrade.containsMetadata
    rw [hmd]; cases s <;> rfl
  have hpl : Partition.length u.partition = 0x41000 := by rw [e]; cases s <;> decide
  have hck : checkMetadata c u m key page = .ok () := by
    apply checkMetadata_iff.2
    have h1 : u.identifier = (bootPartition s.other).firmwareAddress := by rw [e]
    have h2 : u.runningVersion m = versionField m s := by
      unfold Upgrade.runningVersion; rw [e]; exact versionField_eq m s
    rw [h1, h2]; exact hp
  have hwb : u.writeBundle c key m r.fates r.offset r.data
      = u.program c m r.fates 0 (bootPartition s.other).metadataAddress page := by
    unfold Upgrade.writeBundle
    rw [ho, hd, hlen, hfa, if_neg (by cases page <;> simp at hlen ⊢)]
    dsimp only
    rw [hcm]
    dsimp only
    rw [hmd]
    dsimp only
    rw [Nat.sub_self, List.drop_zero, List.take_of_length_le (by rw [hlen]; exact Nat.le_refl _), hck]
  have hpage : (bootPartition s.other).metadataAddress
      ∈ ModRange.alignedIter ⟨(bootPartition s.other).metadataAddress, page.length⟩ u.pageSize := by
    refine ((C49_pages _ u.pageSize hw.pos).1 _).2 ⟨⟨Nat.le_refl _, ?_⟩, ?_, ?_⟩
    · dsimp only; rw [hlen]; omega
    · rw [hps]; cases s <;> decide
    · cases s <;> decide
  have hin : ∀ x, (bootPartition s.other).metadataAddress ≤ x → x < (bootPartition s.other).metadataAddress + 0x1000 →
      ∀ {m' : Mem}, m' x = page.getD (x - (bootPartition s.other).metadataAddress) 0xff →
      some (m' x) = page[x - (bootPartition s.other).metadataAddress]? := by
    intro x h1 h2 m' he
    rw [he, List.getD_eq_getElem?_getD, List.getElem?_eq_getElem (by rw [hlen]; omega)]
    rfl
  have hread : ∀ m' : Mem, (∀ x, (bootPartition s.other).metadataAddress ≤ x →
      x < (bootPartition s.other).metadataAddress + 0x1000 →
      m' x = page.getD (x - (bootPartition s.other).metadataAddress) 0xff) →
      m'.read (bootPartition s.other).metadataAddress 0x1000 = page := by
    intro m' h
    apply List.ext_getElem?
    intro i
    by_cases hi : i < 0x1000
    · have e1 := read_get m' (a := (bootPartition s.other).metadataAddress) (n := 0x1000)
        (x := (bootPartition s.other).metadataAddress + i) (by omega) (by omega)
      have e2 := hin _ (by omega) (by omega) (h ((bootPartition s.other).metadataAddress + i) (by omega) (by omega))
      rw [Nat.add_sub_cancel_left] at e1 e2
      rw [e1, e2]
    · rw [List.getElem?_eq_none (by rw [read_length]; omega), List.getElem?_eq_none (by rw [hlen]; omega)]
  constructor
  · rw [hwb]
    unfold Upgrade.program
    have hk := erasePages_clean (ps := u.pageSize)
      (as := ModRange.alignedIter ⟨(bootPartition s.other).metadataAddress, page.length⟩ u.pageSize) (m := m) hc
    have he := fun x (hx : (bootPartition s.other).metadataAddress ≤ x ∧
        x < (bootPartition s.other).metadataAddress + u.pageSize) =>
      erasePages_erased (x := x) hk.1 (.inr ⟨_, hpage, hx⟩)
    generalize erasePages u.pageSize
      (ModRange.alignedIter ⟨(bootPartition s.other).metadataAddress, page.length⟩ u.pageSize) m r.fates = q at hk he
    obtain ⟨ok, m', fs⟩ := q
    dsimp only at hk he
    obtain ⟨rfl, hf⟩ := hk
    have hhd := headD_clean hf
    dsimp only
    rw [if_neg (by rw [hhd]; decide), hlen, hread (m'.write _ page .ok) ?_, if_neg (by simp),
      if_neg (by rw [hpl]; decide)]
    intro x h1 h2
    simp only [Mem.write]
    rw [if_pos (by rw [hlen]; exact ⟨h1, h2⟩), he x ⟨h1, by rw [hps]; exact h2⟩, and_ff]
  · unfold after
    rw [hwb]
    apply hread
    intro x h1 h2
    exact program_inside hc ⟨h1, by rw [hlen]; exact h2⟩ hpage ⟨h1, by rw [hps]; exact h2⟩

/-- If the request that reaches the end of the partition succeeds, the hash in the metadata is the one of the contents, as the
bootloader computes it. -/
theorem C51_last (c : Crypto) (key : List UInt8) (s : Side) (u : Upgrade) (hu : storageOf s = some u) (m : Mem)
    (fates : List Fate) (offset : Nat) (data : List UInt8) (hend : offset + data.length = 0x41000)
    (h : (u.writeBundle c key m fates offset data).1 = .ok ()) :
    ((u.writeBundle c key m fates offset data).2.read (bootPartition s.other).metadataAddress 0x1000).take 32
      = c.hash (contents (u.writeBundle c key m fates offset data).2 (bootPartition s.other)) := by
  have e := storageOf_eq s
  rw [hu] at e
  have e := Option.some.inj e
  have hlen : Partition.length u.partition = 0x41000 := by rw [e]; cases s <;> decide
  have hmd : u.metadata = ⟨(bootPartition s.other).metadataAddress, 0x1000⟩ := by rw [e]
  have hpart : Partition.rangesFrom u.partition (u.metadata.start + signOffset)
      = [⟨(bootPartition s.other).metadataAddress + 0x800, 0x800⟩, ⟨(bootPartition s.other).firmwareAddress, 0x40000⟩] := by
    rw [e]; cases s <;> decide
  have hprog : ∀ a, (u.program c m fates offset a data).1 = .ok () →
      ((u.program c m fates offset a data).2.read (bootPartition s.other).metadataAddress 0x1000).take 32
        = c.hash (contents (u.program c m fates offset a data).2 (bootPartition s.other)) := by
    intro a
    unfold Upgrade.program
    generalize erasePages u.pageSize (ModRange.alignedIter ⟨a, data.length⟩ u.pageSize) m fates = r
    obtain ⟨ok, m', fs⟩ := r
    cases ok with
    | false => intro h; simp at h
    | true =>
      dsimp only
      split
      · intro h; simp at h
      · split
        · intro h; simp at h
        · have hd : data.length = Partition.length u.partition - offset := by rw [hlen]; omega
          rw [if_pos hd]
          unfold Upgrade.checkPartitionHash
          rw [hpart, hmd]
          dsimp only
          generalize m'.write a data Fate.ok = m''
          split
          · intro h; simp at h
          · split
            · intro h; simp at h
            · rename_i hh
              intro _
              have hh := Classical.not_not.1 hh
              unfold parseMetadataHash at hh
              rw [← hh]
              simp only [List.flatMap_cons, List.flatMap_nil, List.append_nil]
              rfl
  revert h
  unfold Upgrade.writeBundle
  split
  · intro h; simp at h
  · cases Partition.findAddress u.partition offset data.length with
    | none => intro h; simp at h
    | some a =>
      dsimp only
      cases u.containsMetadata ⟨a, data.length⟩ with
      | error e => intro h; simp at h
      | ok b =>
        cases b with
        | false => exact hprog a
        | true =>
          dsimp only
          cases checkMetadata c u m key ((data.drop (u.metadata.start - a)).take u.metadata.length) with
          | error e => intro h; simp at h
          | ok v => exact hprog a

/-- The vendor command for upgrades writes at most what such a request writes, and nothing if the hash of the data is wrong or
there is no other partition. -/
theorem C51_command (c : Crypto) (key : List UInt8) (storage : Option Upgrade) (m : Mem) (fates : List Fate) (offset : Nat)
    (data hash : List UInt8) :
    (processVendorUpgrade c key storage m fates offset data hash).2 = m ∨
    (hash = c.hash data ∧ ∃ u, storage = some u ∧
      (processVendorUpgrade c key storage m fates offset data hash).2 = after c key u m ⟨offset, data, fates⟩) := by
  unfold processVendorUpgrade
  split
  · exact .inl rfl
  · rename_i hh
    cases storage with
    | none => exact .inl rfl
    | some u =>
      right
      refine ⟨Classical.not_not.1 hh, u, rfl, ?_⟩
      unfold after
      dsimp only
      generalize u.writeBundle c key m fates offset data = r
      obtain ⟨e, m'⟩ := r
      cases e with
      | ok v => rfl
      | error e => cases e <;> rfl

/-- The request of an upgrade never panics on the boards. -/
theorem C51_no_panic (c : Crypto) (key : List UInt8) (s : Side) (u : Upgrade) (hu : storageOf s = some u) (m : Mem)
    (r : Request) : (u.writeBundle c key m r.fates r.offset r.data).1 ≠ .error .panic := by
  have e := storageOf_eq s
  rw [hu] at e
  have e := Option.some.inj e
  have hmd : u.metadata.length = 0x1000 := by rw [e]
  have hprog : ∀ a, (u.program c m r.fates r.offset a r.data).1 ≠ .error .panic := by
    intro a
    unfold Upgrade.program
    generalize erasePages u.pageSize (ModRange.alignedIter ⟨a, r.data.length⟩ u.pageSize) m r.fates = q
    obtain ⟨ok, m', fs⟩ := q
    cases ok with
    | false => simp
    | true =>
      dsimp only
      split
      · simp
      · split
        · simp
        · split
          · unfold Upgrade.checkPartitionHash
            rw [if_neg (by rw [read_length, hmd]; decide)]
            dsimp only
            split <;> simp
          · simp
  unfold Upgrade.writeBundle
  split
  · simp
  · cases Partition.findAddress u.partition r.offset r.data.length with
    | none => simp
    | some a =>
      dsimp only
      cases hcm : u.containsMetadata ⟨a, r.data.length⟩ with
      | error e =>
        unfold Upgrade.containsMetadata at hcm
        split at hcm
        · split at hcm
          · simp at hcm
          · cases hcm; simp
        · simp at hcm
      | ok b =>
        cases b with
        | false => exact hprog a
        | true =>
          dsimp only
          cases hck : checkMetadata c u m key ((r.data.drop (u.metadata.start - a)).take u.metadata.length) with
          | error e =>
            unfold checkMetadata verifySignature at hck
            have : e = .custom := by
              split at hck
              · cases hck; rfl
              · split at hck
                · cases hck; rfl
                · split at hck
                  · cases hck; rfl
                  · split at hck
                    · cases hck; rfl
                    · split at hck
                      · cases hck; rfl
                      · split at hck
                        · cases hck; rfl
                        · split at hck
                          · cases hck
                          · cases hck; rfl
            rw [this]; simp
          | ok v => exact hprog a

/-! ### C58 -/

/-- The invariant of a life: the running image is valid, and its version is not lower than the first one. -/
theorem life_valid {c : Crypto} {key : List UInt8} {P : Request → Prop} {d d' : Mem × Side} (h : Life c key P d d')
    {v : Nat} (hv : ValidImage c d.1 (bootPartition d.2) v) :
    ∃ w, v ≤ w ∧ ValidImage c d'.1 (bootPartition d'.2) w := by
  induction h with
  | refl => exact ⟨v, Nat.le_refl v, hv⟩
  | request r _ _ hu ih =>
    obtain ⟨w, hw, hi⟩ := ih
    exact ⟨w, hw, (validImage_congr fun x hx => after_running hu _ r hx).2 hi⟩
  | other m' _ ho ih =>
    obtain ⟨w, hw, hi⟩ := ih
    exact ⟨w, hw, (validImage_congr fun x hx => ho _ x hx).2 hi⟩
  | restart _ hb ih =>
    obtain ⟨w, hw, hi⟩ := ih
    obtain ⟨w', hi', hmax⟩ := C50_boot c _ _ hb
    exact ⟨w', Nat.le_trans hw (hmax _ _ hi).1, hi'⟩

/-- Over every life of a device, with upgrade requests of any kind that are cut off at any point with any result, and restarts:
there is always an image to start, and its version is never lower than the one that was started before. -/
theorem C58_no_rollback (c : Crypto) (key : List UInt8) (m m' : Mem) (s s' : Side)
    (h : Life c key (fun _ => True) (m, s) (m', s')) (v : Nat)
    (hv : ValidImage c m (bootPartition s) v) :
    ∃ t w, boot c m' = some t ∧ ValidImage c m' (bootPartition t) w ∧ v ≤ w := by
  obtain ⟨w, hw, hi⟩ := life_valid h hv
  cases hb : boot c m' with
  | none => exact absurd hi ((C50_none c m').1 hb _ _)
  | some t =>
    obtain ⟨w', hi', hmax⟩ := C50_boot c m' t hb
    exact ⟨t, w', rfl, hi', Nat.le_trans hw (hmax _ _ hi).1⟩

/-- Whatever is started over a life of the device in which no operation of the flash fails has a validly signed hash in its
metadata, which is the hash of its contents; or its metadata is the initial one. -/
theorem C58_authentic (c : Crypto) (key : List UInt8) (m m' : Mem) (s s' : Side)
    (h : Life c key Request.Clean (m, s) (m', s')) (t : Side) (hb : boot c m' = some t) :
    m'.read (bootPartition t).metadataAddress 0x1000 = m.read (bootPartition t).metadataAddress 0x1000 ∨
    ∃ signature version, Metadata (m'.read (bootPartition t).metadataAddress 0x1000) (c.hash (contents m' (bootPartition t)))
        signature version (bootPartition t).firmwareAddress ∧
      ValidSignature c key (c.hash (contents m' (bootPartition t))) signature := by
  have key' : ∀ d', Life c key Request.Clean (m, s) d' → ∀ t,
      d'.1.read (bootPartition t).metadataAddress 0x1000 = m.read (bootPartition t).metadataAddress 0x1000 ∨
      ∃ hash signature version, Metadata (d'.1.read (bootPartition t).metadataAddress 0x1000) hash signature version
          (bootPartition t).firmwareAddress ∧ ValidSignature c key hash signature := by
    intro d' h
    induction h with
    | refl => exact fun t => .inl rfl
    | @request m1 s1 u r _ hc hu ih =>
      intro t
      have ih := ih t
      by_cases ht : t = s1
      · subst ht
        have e : (after c key u m1 r).read (bootPartition t).metadataAddress 0x1000
            = m1.read (bootPartition t).metadataAddress 0x1000 :=
          read_congr fun x h1 h2 => after_running hu m1 r (.inl ⟨h1, h2⟩)
        dsimp only at ih ⊢
        rw [e]
        exact ih
      · have ht : t = s1.other := by
          cases t <;> cases s1 <;> first | rfl | exact absurd rfl ht
        have := C51_metadata c key s1 u hu m1 [r] (by simpa using hc)
        simp only [List.foldl_cons, List.foldl_nil, ← ht] at this
        dsimp only at ih ⊢
        rcases this with e | ⟨hash, sig, v, h1, h2, -⟩
        · rw [e]; exact ih
        · exact .inr ⟨hash, sig, v, h1, h2⟩
    | @other m1 s1 m' _ ho ih =>
      intro t
      have ih := ih t
      have e : m'.read (bootPartition t).metadataAddress 0x1000 = m1.read (bootPartition t).metadataAddress 0x1000 :=
        read_congr fun x h1 h2 => ho t x (.inl ⟨h1, h2⟩)
      dsimp only at ih ⊢
      rw [e]
      exact ih
    | restart _ _ ih => exact ih
  rcases key' _ h t with e | ⟨hash, sig, v, h1, h2⟩
  · exact .inl e
  · right
    obtain ⟨w, ⟨sig', h3⟩, -⟩ := C50_boot c m' t hb
    have hl : (m'.read (bootPartition t).metadataAddress 0x1000).length = 0x1000 := read_length _ _ _
    obtain ⟨rfl, rfl, -, -⟩ := (metadata_iff hl).1 h1
    obtain ⟨e1, rfl, -, -⟩ := (metadata_iff hl).1 h3
    exact ⟨_, w, h3, by rw [e1]; exact h2⟩

/-! ### Examples -/

/-- An acceptable page: version 6 for partition B, while A runs with version 3. -/
theorem toyPage_acceptable : Acceptable toyCrypto toyKey 0x60000 3 (toyPage 6 .b) := by
  refine ⟨(toyPage 6 .b).take 32, ((toyPage 6 .b).drop 32).take 64, 6, (metadata_iff (by decide +kernel)).2
    ⟨rfl, rfl, by decide +kernel, by decide +kernel⟩, ?_, by decide⟩
  exact ⟨List.replicate 32 1, List.replicate 32 1, (), _, by decide +kernel, by decide, by decide, rfl, rfl, by decide +kernel⟩

/-- Partition A runs. -/
def toyUpgrade : Upgrade :=
  ⟨0x1000, [⟨0x5000, 0x1000⟩, ⟨0x60000, 0x40000⟩], ⟨0x5000, 0x1000⟩, ⟨0x4000, 0x1000⟩, 0x60000⟩

theorem toyUpgrade_storage : storageOf .a = some toyUpgrade := by decide +kernel

example : LocationsInside (locations .a) ∧ (Upgrade.new 0x1000 (locations .a)).toOption = some toyUpgrade :=
  ⟨by unfold LocationsInside; decide, toyUpgrade_storage⟩

/-- A request that writes the page. -/
def toyRequest (fates : List Fate) : Request := ⟨0, toyPage 6 .b, fates⟩

theorem toyVersion : versionField (toyMem 3 1) .a = 3 := by decide +kernel

/-- The page is accepted and written. -/
theorem toyAccepted : (after toyCrypto toyKey toyUpgrade (toyMem 3 1) (toyRequest [])).read
    (bootPartition .b).metadataAddress 0x1000 = toyPage 6 .b :=
  (C51_accepts toyCrypto toyKey .a toyUpgrade toyUpgrade_storage (toyMem 3 1) (toyPage 6 .b)
    (by rw [toyVersion]; exact toyPage_acceptable) (toyRequest []) (by simp [toyRequest, Request.Clean]) rfl rfl).2

/-- Requests that are refused: a lower version, the wrong partition, only a part of the metadata, across a gap. -/
example : (toyUpgrade.writeBundle toyCrypto toyKey (toyMem 7 1) [] 0 (toyPage 6 .b)).1.isOk = false ∧
    (toyUpgrade.writeBundle toyCrypto toyKey (toyMem 3 1) [] 0 (toyPage 6 .a)).1.isOk = false ∧
    (toyUpgrade.writeBundle toyCrypto toyKey (toyMem 3 1) [] 0x800 ((toyPage 6 .b).drop 0x800)).1.isOk = false ∧
    (toyUpgrade.writeBundle toyCrypto toyKey (toyMem 3 1) [] 0xffe [1, 2, 3, 4]).1.isOk = false := by
  decide +kernel

/-- A life with a request that is cut off. -/
example : ∃ m', Life toyCrypto toyKey (fun _ => True) (toyMem 3 1, .a) (m', .a) ∧
    ValidImage toyCrypto (toyMem 3 1) (bootPartition .a) 3 :=
  ⟨_, .request (toyRequest [.failed (toyMem 1 1)]) (.refl _) trivial toyUpgrade_storage,
    readVersion_iff.1 (by decide +kernel)⟩

/-- A memory whose images have these versions is booted from B. -/
theorem toyBoot {m' : Mem} (h1 : m'.read (bootPartition .b).metadataAddress 0x1000 = toyPage 6 .b)
    (h3 : ValidImage toyCrypto m' (bootPartition .a) 3) : boot toyCrypto m' = some .b := by
  have h6 : ValidImage toyCrypto m' (bootPartition .b) 6 := by
    refine ⟨((toyPage 6 .b).drop 32).take 64, ?_⟩
    rw [h1]
    exact (metadata_iff (by decide +kernel)).2 ⟨(by decide +kernel : List.replicate 32 7 = List.take 32 (toyPage 6 .b)), rfl, by decide +kernel,
      by decide +kernel⟩
  cases hb : boot toyCrypto m' with
  | none => exact absurd h6 ((C50_none _ _).1 hb _ _)
  | some t =>
    cases t with
    | b => rfl
    | a =>
      obtain ⟨v, hv, hm⟩ := C50_boot _ _ _ hb
      have := (hm _ _ h6).1
      have := validImage_unique hv h3
      omega

/-- A life with an upgrade: B is started. -/
example : ∃ m', Life toyCrypto toyKey Request.Clean (toyMem 3 1, .a) (m', .b) ∧ boot toyCrypto m' = some .b := by
  have key : ∃ m', Life toyCrypto toyKey Request.Clean (toyMem 3 1, .a) (m', .a) ∧
      m'.read (bootPartition .b).metadataAddress 0x1000 = toyPage 6 .b ∧
      ∀ x, inImage (bootPartition .a) x → m' x = toyMem 3 1 x :=
    ⟨after toyCrypto toyKey toyUpgrade (toyMem 3 1) (toyRequest []),
      Life.request (m := toyMem 3 1) (s := .a) (u := toyUpgrade) (toyRequest []) (.refl _)
        (by simp [toyRequest, Request.Clean]) toyUpgrade_storage,
      toyAccepted, fun x hx => after_running toyUpgrade_storage (toyMem 3 1) (toyRequest []) hx⟩
  obtain ⟨m', hl, h1, h2⟩ := key
  have hb := toyBoot h1 ((validImage_congr h2).2 (readVersion_iff.1 (by decide +kernel)))
  exact ⟨m', .restart hl hb, hb⟩

/-- The memory after a request that is cut off while it erases the metadata page. -/
theorem toyTorn (junk : Mem) : after toyCrypto toyKey toyUpgrade (toyMem 3 1) (toyRequest [.failed junk])
    = (toyMem 3 1).erase 0x5000 0x1000 (.failed junk) := by
  have hck : checkMetadata toyCrypto toyUpgrade (toyMem 3 1) toyKey (toyPage 6 .b) = .ok () := by
    apply checkMetadata_iff.2
    have h2 : toyUpgrade.runningVersion (toyMem 3 1) = 3 := by decide +kernel
    rw [h2]; exact toyPage_acceptable
  have hlen : (toyPage 6 .b).length = 0x1000 := by decide +kernel
  have hit : ModRange.alignedIter ⟨0x5000, 0x1000⟩ 0x1000 = [0x5000] := by
    rw [alignedIter_eq _ _ (by decide)]
    decide +kernel
  have hfa : Partition.findAddress toyUpgrade.partition 0 0x1000 = some 0x5000 := by decide
  have hcm : toyUpgrade.containsMetadata ⟨0x5000, 0x1000⟩ = .ok true := by rfl
  have hmd : toyUpgrade.metadata = ⟨0x5000, 0x1000⟩ := rfl
  have hps : toyUpgrade.pageSize = 0x1000 := rfl
  unfold after Upgrade.writeBundle toyRequest
  generalize toyPage 6 .b = page at hck hlen ⊢
  dsimp only
  rw [hlen, hfa, if_neg (by cases page <;> simp at hlen ⊢)]
  dsimp only
  rw [hcm]
  dsimp only
  rw [hmd]
  dsimp only
  rw [Nat.sub_self, List.drop_zero, List.take_of_length_le (by rw [hlen]; exact Nat.le_refl _), hck]
  dsimp only
  unfold Upgrade.program
  rw [hlen, hps, hit]
  rfl

/-- If an operation is cut off the metadata page can be neither the initial one nor acceptable, so the last alternative of
`C51_history` is needed. -/
theorem C51_torn : ∃ r : Request,
    otherMetadata toyUpgrade (after toyCrypto toyKey toyUpgrade (toyMem 3 1) r) ≠ otherMetadata toyUpgrade (toyMem 3 1) ∧
    ¬ Acceptable toyCrypto toyKey 0x60000 3 (otherMetadata toyUpgrade (after toyCrypto toyKey toyUpgrade (toyMem 3 1) r)) := by
  refine ⟨toyRequest [.failed fun _ => 0], ?_, ?_⟩ <;> rw [toyTorn]
  · intro h
    have := read_eq_iff.1 h 0x5000 (by decide) (by decide)
    exact absurd this (by decide +kernel)
  · rintro ⟨hash, sig, v, h, -⟩
    have ha := ((metadata_iff (read_length _ _ _)).1 h).2.2.2
    unfold parseMetadataAddress at ha
    rw [drop_read] at ha
    exact absurd ha (by decide +kernel)

end Verif.Tock
