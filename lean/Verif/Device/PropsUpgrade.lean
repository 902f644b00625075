import Verif.Device.Upgrade
import Verif.Tock.PropsInstall
import Verif.Device.Fast

/-!
# C91: with the cryptography of the firmware, what is signed according to the standards is installed, and nothing else is
-/
namespace Verif.Device
open Verif.P256 (E G N Secret val PointOf)
open Verif.P256.Spec (coords number Valid)
open Verif.Crypto.Sha (SHA256)
open Verif.Tock

theorem firmware_hash {w : Nat} (hw : w = 32 ∨ w = 64) {l : List UInt8} (hl : l.length < 2 ^ 32) :
    (firmwareCrypto w).hash l = SHA256 l := by
  refine Crypto.Sha.sha256_hash w l ?_ (by have : (2:Nat)^32 < 2^61 := by decide
                                           omega)
  rcases hw with rfl | rfl
  · exact hl
  · have : (2:Nat)^32 < 2^64 := by decide
    omega

theorem sha_len (l : List UInt8) (hl : l.length < 2 ^ 32) : (SHA256 l).length = 32 := by
  rw [← firmware_hash (w := 32) (.inl rfl) hl]
  exact P256.sha256_ok 32 l

/-- The check of the signature of an upgrade is the one of the standards, except for hashes that are multiples of the order of
the group and for keys whose first coordinate is zero. -/
theorem C91_signature_partial {w : Nat} (hw : w = 32 ∨ w = 64) {x y contents signature : List UInt8} (hx : x.length = 32)
    (hy : y.length = 32) (hs : signature.length = 64) (hc : contents.length < 2 ^ 32)
    (h0 : number (SHA256 contents) % N ≠ 0) (hx0 : number x ≠ 0) :
    ValidSignature (firmwareCrypto w) (0x04 :: x ++ y) ((firmwareCrypto w).hash contents) signature ↔
      SignedBy x y contents signature := by
  rw [firmware_hash hw hc]
  have hh := sha_len contents hc
  obtain ⟨-, hpk, -, hsome⟩ := P256.C64_coordinates hx hy
  obtain ⟨hs1, hs2⟩ := P256.C65_signature hs
  have val_of : ∀ sig : P256.Ecdsa.Signature, Secret sig.r → Secret sig.s → sig.to_bytes = signature →
      val sig.r = number (signature.take 32) ∧ val sig.s = number (signature.drop 32) := by
    intro sig hr hs' hb
    have l := P256.to_bin_len hr.1
    rw [← hb]
    unfold P256.Ecdsa.Signature.to_bytes
    rw [List.take_left' l, List.drop_left' l, P256.number_to_bin, P256.number_to_bin]
    exact ⟨rfl, rfl⟩
  have point_of : ∀ (pk : P256.Ecdsa.PubKey) (A : E.Point), PointOf pk.p A → pk.to_coordinates = (x, y) →
      coords A = some (number x, number y) := by
    intro pk A hA he
    simp only [P256.Ecdsa.PubKey.to_coordinates, Prod.mk.injEq] at he
    rw [hA.coords, ← he.1, ← he.2, P256.number_to_bin, P256.number_to_bin]
  constructor
  · rintro ⟨x', y', pk, sig, he, hx', hy', h1, h2, h3⟩
    obtain ⟨rfl, rfl⟩ := List.append_inj (List.cons.inj he).2 (by rw [hx, hx'])
    simp only [firmwareCrypto] at h1 h2 h3
    rw [if_pos ⟨hx, hy⟩] at h1
    rw [if_pos hs] at h2
    simp only [hh, decide_true, Bool.true_and] at h3
    obtain ⟨A, hA, -, hco⟩ := hpk pk h1
    obtain ⟨g1, g2, g3⟩ := (hs2 sig).1 h2
    have hv := (P256.C62_verify_partial hA hh h0 g1 g2).1 h3
    obtain ⟨e1, e2⟩ := val_of sig g1 g2 g3
    rw [e1, e2] at hv
    exact ⟨hs, A, point_of pk A hA hco, hv⟩
  · rintro ⟨-, Q, hQ, hv⟩
    obtain ⟨pk, hpk1⟩ := Option.isSome_iff_exists.1 (hsome.2 ⟨⟨Q, hQ⟩, hx0⟩)
    obtain ⟨sig, hsig⟩ := Option.isSome_iff_exists.1 (hs1.2 ⟨hv.1, hv.2.1⟩)
    obtain ⟨A, hA, -, hco⟩ := hpk pk hpk1
    have hAQ := P256.coords_inj (point_of pk A hA hco) hQ
    subst hAQ
    obtain ⟨g1, g2, g3⟩ := (hs2 sig).1 hsig
    obtain ⟨e1, e2⟩ := val_of sig g1 g2 g3
    refine ⟨x, y, pk, sig, rfl, hx, hy, ?_, ?_, ?_⟩
    · simp only [firmwareCrypto]; rw [if_pos ⟨hx, hy⟩]; exact hpk1
    · simp only [firmwareCrypto]; rw [if_pos hs]; exact hsig
    · simp only [firmwareCrypto, hh, decide_true, Bool.true_and]
      refine (P256.C62_verify_partial hA hh h0 g1 g2).2 ?_
      rw [e1, e2]
      exact hv

/-- A release that is signed for the public key of the device according to the standards is accepted, and is started unless the
running image is at least as new. -/
theorem C91_accepted_partial {w : Nat} (hw : w = 32 ∨ w = 64) {x y : List UInt8} (hx : x.length = 32) (hy : y.length = 32)
    (hx0 : number x ≠ 0) (s : Side) (u : Upgrade) (hu : storageOf s = some u) (m : Mem)
    (page firmware signature : List UInt8) (version : Nat) (hf : firmware.length = 0x40000)
    (hm : Metadata page (SHA256 (page.drop 0x800 ++ firmware)) signature version (bootPartition s.other).firmwareAddress)
    (hs : SignedBy x y (page.drop 0x800 ++ firmware) signature)
    (h0 : number (SHA256 (page.drop 0x800 ++ firmware)) % N ≠ 0)
    (hv : versionField m s ≤ version) (pieces : List (List UInt8)) (hp : pieces.flatten = firmware)
    (hne : ∀ p ∈ pieces, p ≠ []) :
    (∀ st ∈ (execute (firmwareCrypto w) (0x04 :: x ++ y) u (commands page pieces) m).1, st = .success) ∧
    (execute (firmwareCrypto w) (0x04 :: x ++ y) u (commands page pieces) m).2.read
      (bootPartition s.other).metadataAddress 0x1000 = page ∧
    (execute (firmwareCrypto w) (0x04 :: x ++ y) u (commands page pieces) m).2.read
      (bootPartition s.other).firmwareAddress 0x40000 = firmware ∧
    ((∀ v, ValidImage (firmwareCrypto w) m (bootPartition s) v → v < version ∨ s = .b) →
      boot (firmwareCrypto w) (execute (firmwareCrypto w) (0x04 :: x ++ y) u (commands page pieces) m).2 = some s.other) := by
  have hl : (page.drop 0x800 ++ firmware).length < 2 ^ 32 := by
    rw [List.length_append, List.length_drop, hm.length, hf]; decide
  have hr : Release (firmwareCrypto w) (0x04 :: x ++ y) s.other page firmware version := by
    refine ⟨⟨signature, ?_, ?_⟩, hf⟩
    · rw [firmware_hash hw hl]; exact hm
    · exact (C91_signature_partial hw hx hy hs.1 hl h0 hx0).2 hs
  obtain ⟨h1, h2, h3, -, -⟩ := C90_install _ _ s u hu m page firmware version hr hv pieces hp hne
  exact ⟨h1, h2, h3, C90_started _ _ s u hu m page firmware version hr hv pieces hp hne⟩

/-- Over every life of a device in which no operation of the flash fails: the metadata of what is started are the initial ones,
or the holder of the private key signed exactly the contents that are started, for this partition and with this version. -/
theorem C91_started_partial {w : Nat} (hw : w = 32 ∨ w = 64) {x y : List UInt8} (hx : x.length = 32) (hy : y.length = 32)
    (hx0 : number x ≠ 0) (m m' : Mem) (s s' : Side)
    (h : Life (firmwareCrypto w) (0x04 :: x ++ y) Request.Clean (m, s) (m', s')) (t : Side)
    (hb : boot (firmwareCrypto w) m' = some t) (h0 : number (SHA256 (contents m' (bootPartition t))) % N ≠ 0) :
    m'.read (bootPartition t).metadataAddress 0x1000 = m.read (bootPartition t).metadataAddress 0x1000 ∨
    ∃ signature version, Metadata (m'.read (bootPartition t).metadataAddress 0x1000)
        (SHA256 (contents m' (bootPartition t))) signature version (bootPartition t).firmwareAddress ∧
      SignedBy x y (contents m' (bootPartition t)) signature := by
  have hl : (contents m' (bootPartition t)).length < 2 ^ 32 := by
    unfold contents
    rw [List.length_append, read_length, read_length]; decide
  rcases C58_authentic _ _ m m' s s' h t hb with h1 | ⟨sig, v, hm, hs⟩
  · exact .inl h1
  · right
    have hsl : sig.length = 64 := by
      obtain ⟨_, _, _, _, -, -, e, -⟩ := hm.fields
      exact e
    refine ⟨sig, v, ?_, (C91_signature_partial hw hx hy hsl hl h0 hx0).1 hs⟩
    rw [← firmware_hash hw hl]
    exact hm

/-! ### Such keys and signatures exist, for all contents -/

theorem number_be32 {n : Nat} (h : n < 2 ^ 256) : number (Fast.be32 n) = n := by
  rw [P256.number_be, Nat.mod_eq_of_lt]
  exact h

theorem exists_sign (e : Nat) : ∃ d r s, (d = 1 ∨ d = 2) ∧ P256.Spec.sign d 1 e = some (r, s) := by
  have hN : 1 < N := by decide +kernel
  have hi : Fast.inv N 1 = 1 := by decide +kernel
  have hr : (Fast.base 1).1 % N ≠ 0 := by decide +kernel
  have hpos : 0 < N := by omega
  generalize hb : (Fast.base 1).1 % N = r at hr
  have hlt : r < N := by rw [← hb]; exact Nat.mod_lt _ hpos
  have key : ∀ d, ¬ N ∣ e + r * d → ∃ a b, P256.Spec.sign d 1 e = some (a, b) := by
    intro d hd
    rw [Fast.attempt_spec (by omega) hN]
    unfold Fast.attempt
    rw [hb, hi, one_mul, if_neg]
    · exact ⟨_, _, rfl⟩
    · rintro (h | h)
      · exact hr h
      · exact hd (Nat.dvd_of_mod_eq_zero h)
  by_cases h1 : N ∣ e + r * 1
  · by_cases h2 : N ∣ e + r * 2
    · exfalso
      have := (Nat.dvd_add_right h1).1 (show N ∣ (e + r * 1) + r by convert h2 using 1; ring)
      exact hr (Nat.eq_zero_of_dvd_of_lt this hlt)
    · obtain ⟨a, b, h⟩ := key 2 h2
      exact ⟨2, a, b, .inr rfl, h⟩
  · obtain ⟨a, b, h⟩ := key 1 h1
    exact ⟨1, a, b, .inl rfl, h⟩

/-- For all contents there are a key and a signature. -/
theorem exists_signed (contents : List UInt8) : ∃ x y signature, x.length = 32 ∧ y.length = 32 ∧ number x ≠ 0 ∧
    SignedBy x y contents signature := by
  obtain ⟨d, r, s, hd, h⟩ := exists_sign (number (SHA256 contents))
  have hN : 2 < N := by decide +kernel
  have hv := P256.Ecdsa.sign_valid ⟨by decide, by omega⟩ h
  have hb : 0 < d ∧ d < N := by rcases hd with rfl | rfl <;> omega
  have hc := Fast.base_spec hb.1 hb.2
  have hlt : (Fast.base d).1 < 2 ^ 256 ∧ (Fast.base d).2 < 2 ^ 256 ∧ (Fast.base d).1 ≠ 0 := by
    rcases hd with rfl | rfl <;> decide +kernel
  have hNl := P256.N_lt
  have hr : r < 2 ^ 256 := hv.1.2.trans hNl
  have hs : s < 2 ^ 256 := hv.2.1.2.trans hNl
  refine ⟨Fast.be32 (Fast.base d).1, Fast.be32 (Fast.base d).2, Fast.be32 r ++ Fast.be32 s, P256.be_length _ _,
    P256.be_length _ _, ?_, ?_, d • G, ?_, ?_⟩
  · rw [number_be32 hlt.1]; exact hlt.2.2
  · rw [List.length_append, P256.be_length, P256.be_length]
  · rw [number_be32 hlt.1, number_be32 hlt.2.1]
    exact hc
  · rw [List.take_left' (P256.be_length _ _), List.drop_left' (P256.be_length _ _), number_be32 hr, number_be32 hs]
    exact hv

/-- For every firmware there are a key and a page that the device accepts: version 1 for partition B, while the version of A is
not higher. -/
example (firmware : List UInt8) (hf : firmware.length = 0x40000) (u : Upgrade) (hu : storageOf .a = some u) (m : Mem)
    (hv : versionField m .a ≤ 1) (rest : List UInt8) (hrest : rest.length = 0x800 - 12)
    (h0 : number (SHA256 (([1, 0, 0, 0, 0, 0, 0, 0] ++ [0, 0, 6, 0] ++ rest) ++ firmware)) % N ≠ 0) :
    ∃ x y page, page.drop 0x800 = [1, 0, 0, 0, 0, 0, 0, 0] ++ [0, 0, 6, 0] ++ rest ∧
      ∀ st ∈ (execute (firmwareCrypto 32) (0x04 :: x ++ y) u (commands page [firmware]) m).1, st = .success := by
  obtain ⟨x, y, sig, hx, hy, hx0, hs⟩ := exists_signed (([1, 0, 0, 0, 0, 0, 0, 0] ++ [0, 0, 6, 0] ++ rest) ++ firmware)
  have hl : (([1, 0, 0, 0, 0, 0, 0, 0] ++ [0, 0, 6, 0] ++ rest) ++ firmware).length < 2 ^ 32 := by
    simp only [List.length_append, List.length_cons, List.length_nil, hrest, hf]; decide
  generalize hh : SHA256 (([1, 0, 0, 0, 0, 0, 0, 0] ++ [0, 0, 6, 0] ++ rest) ++ firmware) = h at h0
  have hhl : h.length = 32 := by rw [← hh]; exact sha_len _ hl
  have hpad : (h ++ sig ++ List.replicate (0x800 - 96) 0xff).length = 0x800 := by
    simp only [List.length_append, List.length_replicate, hhl, hs.1]
  have hd : ((h ++ sig ++ List.replicate (0x800 - 96) 0xff) ++ ([1, 0, 0, 0, 0, 0, 0, 0] ++ [0, 0, 6, 0] ++ rest)).drop 0x800
      = [1, 0, 0, 0, 0, 0, 0, 0] ++ [0, 0, 6, 0] ++ rest := List.drop_left' hpad
  refine ⟨x, y, (h ++ sig ++ List.replicate (0x800 - 96) 0xff) ++ ([1, 0, 0, 0, 0, 0, 0, 0] ++ [0, 0, 6, 0] ++ rest), hd, ?_⟩
  refine (C91_accepted_partial (.inl rfl) hx hy hx0 .a u hu m _ firmware sig 1 hf ?_ (by rw [hd]; exact hs)
    (by rw [hd, hh]; exact h0) hv [firmware] (by simp) ?_).1
  · rw [hd, hh]
    refine ⟨?_, List.replicate (0x800 - 96) 0xff, [1, 0, 0, 0, 0, 0, 0, 0], [0, 0, 6, 0], rest, ?_, hhl, hs.1,
      List.length_replicate, rfl, rfl, by decide, by decide⟩
    · rw [List.length_append, hpad]
      simp only [List.length_append, List.length_cons, List.length_nil, hrest]
    · simp only [List.append_assoc]
  · intro p hp
    rw [List.mem_singleton.1 hp]
    intro hc
    rw [hc] at hf
    simp at hf

end Verif.Device
