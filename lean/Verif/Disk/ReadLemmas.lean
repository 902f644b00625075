import Verif.Disk.CallLemmas

/-!
# What the storage functions read
-/
namespace Verif.Disk
open Verif.Ctap (Dev Cred Res Persist Attestation)
open Verif.Store (Format KV Contains)
variable [Dev] {F : Format} {α : Type} {x : St} {p : Persist} {m : KV}

omit [Dev] in
theorem find_eq (h : Contains F x.st m) (key : Nat) : find F key x = (.ok (m key), x) := by
  simp only [find, onStore, h key]

omit [Dev] in
theorem read_eq (h : Contains F x.st m) (key : Nat) {k : Option Bytes → M α} {v : α} (hk : k (m key) = M.pure v) :
    (find F key >>= k) x = (.ok v, x) := by
  rw [bind_eq, find_eq h]
  show k (m key) x = _
  rw [hk]
  rfl

omit [Dev] in
theorem flag_eq (h : Contains F x.st m) (key : Nat) {v : Bool} (hv : m key = if v then some [] else none) : flagEntry F key x = (.ok v, x) :=
  read_eq h key (by rw [hv]; cases v <;> rfl)

omit [Dev] in
theorem byte_eq (h : Contains F x.st m) (key d : Nat) {v : Option Nat} (hv : m key = v.map fun n => [UInt8.ofNat n])
    (hs : ∀ n, v = some n → n < 256) : byteEntry F key d x = (.ok (v.getD d), x) :=
  read_eq h key (by
    rw [hv]
    cases v with
    | none => rfl
    | some n =>
      have : n % 256 = n := Nat.mod_eq_of_lt (hs n rfl)
      show M.pure (UInt8.ofNat n).toNat = M.pure n
      simp [this])

omit [Dev] in
theorem counter_eq (h : Contains F x.st m) {v : Option Nat} (hv : m 2047 = v.map u32Bytes) (hs : ∀ n, v = some n → n < 2 ^ 32) :
    signatureCounter F x = (.ok (v.getD 1), x) :=
  read_eq h 2047 (by
    rw [hv]
    cases v with
    | none => rfl
    | some n =>
      show Disk.req (u32Of (u32Bytes n)) _ = _
      rw [u32_roundtrip (hs n rfl)]
      rfl)

theorem pin_eq (h : Contains F x.st m) (hp : Holds m p) : pinProperties F x = (.ok p.pin, x) := read_eq h 2045 (pinProperties_eq hp)

theorem rpIds_eq (h : Contains F x.st m) (hp : Holds m p) : minPinLengthRpIds F x = (.ok (p.minPinRpIds.getD Dev.defaultMinPinRpIds), x) :=
  read_eq h 2042 (by
    rcases hp.rest.rpIds with ⟨h1, h2⟩ | ⟨l, b, h1, h2, h3⟩
    · rw [h1, h2]; rfl
    · rw [h1, h2]
      show (match deserializeRpIds b with
        | some l => M.pure l
        | none => panicM) = _
      rw [h3]
      rfl)

theorem iter_eq (hF : F.supported) (h1 : Store.Reach F x.st) (h2 : Contains F x.st m) (h3 : Holds m p) {mk : Bytes} (hm : p.master = some mk) :
    ∃ l, iterCredentials F x = (.ok l, x) ∧ l.Perm p.creds := by
  obtain ⟨m', h4, ⟨hs, h5, h6, h7, h8⟩, _⟩ := Store.C44_reads hF h1
  obtain rfl := h2.unique h4
  obtain ⟨l, h9, h10, h11⟩ := decodeHandles_ok (F := F) (x := x) h3 hm h8
  have hk := handles_keys h3 h6 h7
  rw [← h10] at hk
  refine ⟨l, ?_, ?_⟩
  · have hmk : getMasterKeys F x = (.ok mk, x) := by
      unfold getMasterKeys Disk.mapErr
      rw [bind_eq, find_eq h2, h3.rest.master, hm]
      simp only [Disk.guardE, h3.rest.masterSize mk hm]
      rfl
    unfold iterCredentials
    rw [bind_eq, hmk]
    show (onStore (Store.iter F) >>= fun hs => decodeHandles F mk hs) x = _
    rw [bind_eq]
    simp only [onStore, h5]
    exact h9
  · refine (List.perm_ext_iff_of_nodup (nodup_of_keys (hk.nodup_iff.2 h3.creds.nodup)) (nodup_of_keys h3.creds.nodup)).2 fun e => ⟨h11 e, fun he => ?_⟩
    obtain ⟨e', he', hke⟩ := List.mem_map.1 (hk.mem_iff.2 (List.mem_map_of_mem (f := (·.1)) he))
    rw [← key_unique h3.creds.nodup (h11 e' he') he hke]
    exact he'

theorem attestation_eq (h2 : Contains F x.st m) (h3 : Holds m p) : attestationGet F x = (.ok p.attestation, x) := by
  unfold attestationGet Disk.mapErr
  rw [bind_eq, find_eq h2]
  dsimp only
  rw [bind_eq, find_eq h2]
  dsimp only
  rw [h3.rest.attestationKey, h3.rest.attestationCert]
  cases ha : p.attestation with
  | none => rfl
  | some a =>
    simp only [Option.map_some]
    rw [if_pos (h3.rest.attestationSize a ha)]
    rfl

theorem count_eq (hF : F.supported) (h1 : Store.Reach F x.st) (h2 : Contains F x.st m) (h3 : Holds m p) :
    countCredentials F x = (.ok p.creds.length, x) := by
  obtain ⟨m', h4, ⟨hs, h5, h6, h7, _⟩, _⟩ := Store.C44_reads hF h1
  obtain rfl := h2.unique h4
  unfold countCredentials
  rw [bind_eq]
  simp only [onStore, h5]
  have h9 := (handles_keys h3 h6 h7).length_eq
  rw [List.length_map, ← List.countP_eq_length_filter, List.countP_map] at h9
  show (Res.ok _, _) = _
  rw [← h9]
  rfl

theorem blob_eq (hF : F.supported) (h1 : Store.Reach F x.st) (h2 : Contains F x.st m) (h3 : Holds m p) {b : Bytes} (hb : p.largeBlob = some b)
    (offset count : Nat) : getLargeBlobArray F offset count x = (.ok ((b.drop offset).take count), x) := by
  have h4 := Store.C47_read_range hF shards_lawful h1 h2 h3.largeBlob offset (offset + count)
  rw [if_pos (by omega), hb] at h4
  unfold getLargeBlobArray
  rw [bind_eq]
  simp only [onStore, h4]
  show ((.ok ((b.take (offset + count)).drop offset), x) : Res Bytes × St) = _
  rw [List.drop_take, Nat.add_sub_cancel_left]

end Verif.Disk
