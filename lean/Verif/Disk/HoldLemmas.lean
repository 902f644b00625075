import Verif.Disk.CodecLemmas
import Verif.Disk.SimLemmas

/-!
# The entries after a write hold the data after the write
-/
namespace Verif.Disk
open Verif.Ctap (Dev Cred Status Res Persist Attestation)
open Verif.Store (Format KV Held Op)
variable [Dev] {F : Format} {m m' : KV} {p p' : Persist}

theorem HoldsCreds.congr (h : HoldsCreds m p) (hm : ∀ k, 1700 ≤ k → k < 2000 → m' k = m k) (hc : p'.creds = p.creds)
    (hk : p'.master = p.master) : HoldsCreds m' p' := by
  refine ⟨by rw [hc]; exact h.nodup, fun e he => ?_, fun k h1 h2 h3 => ?_⟩
  · rw [hc] at he
    obtain ⟨h1, h2, h3, mk, b, h4, h5, h6⟩ := h.stored e he
    exact ⟨h1, h2, h3, mk, b, by rw [hk]; exact h4, by rw [hm _ h1 h2]; exact h5, h6⟩
  · rw [hm _ h1 h2] at h3
    rw [hc]
    exact h.only k h1 h2 h3

omit [Dev] in
theorem held_congr {o : Option Bytes} (h : Held shards m o) (hm : ∀ k, 2000 ≤ k → k < 2004 → m' k = m k) : Held shards m' o := by
  have hk : ∀ q, q < shards.len → m' (shards.key q) = m (shards.key q) := by
    intro q hq
    simp only [shards, Store.Keys.range] at hq ⊢
    exact hm _ (by omega) (by omega)
  obtain ⟨n, h1, h2, h3⟩ := h
  refine ⟨n, h1, fun q hq => by rw [hk q hq]; exact h2 q hq, ?_⟩
  rw [h3]
  split
  · rfl
  · congr 2
    refine List.map_congr_left fun q hq => ?_
    rw [hk q (Nat.lt_of_lt_of_le (List.mem_range.1 hq) h1)]

/-- The fields of `HoldsRest` after an update of one entry. -/
macro "rest" h:term : tactic => `(tactic| exact {
    attestationKey := by first | exact ($h).attestationKey | (simpa [KV.put, KV.clear, KV.transact, KV.update] using ($h).attestationKey) | simp_all [KV.put, KV.clear, KV.transact, KV.update],
    attestationCert := by first | exact ($h).attestationCert | (simpa [KV.put, KV.clear, KV.transact, KV.update] using ($h).attestationCert) | simp_all [KV.put, KV.clear, KV.transact, KV.update],
    attestationSize := by first | exact ($h).attestationSize | (simpa [KV.put, KV.clear, KV.transact, KV.update] using ($h).attestationSize) | simp_all [KV.put, KV.clear, KV.transact, KV.update],
    alwaysUv := by first | exact ($h).alwaysUv | (simpa [KV.put, KV.clear, KV.transact, KV.update] using ($h).alwaysUv) | simp_all [KV.put, KV.clear, KV.transact, KV.update],
    enterprise := by first | exact ($h).enterprise | (simpa [KV.put, KV.clear, KV.transact, KV.update] using ($h).enterprise) | simp_all [KV.put, KV.clear, KV.transact, KV.update],
    forcePinChange := by first | exact ($h).forcePinChange | (simpa [KV.put, KV.clear, KV.transact, KV.update] using ($h).forcePinChange) | simp_all [KV.put, KV.clear, KV.transact, KV.update],
    rpIds := by first | exact ($h).rpIds | (simpa [KV.put, KV.clear, KV.transact, KV.update] using ($h).rpIds) | simp_all [KV.put, KV.clear, KV.transact, KV.update],
    minPinLength := by first | exact ($h).minPinLength | (simpa [KV.put, KV.clear, KV.transact, KV.update] using ($h).minPinLength) | simp_all [KV.put, KV.clear, KV.transact, KV.update],
    minPinSize := by first | exact ($h).minPinSize | (simpa [KV.put, KV.clear, KV.transact, KV.update] using ($h).minPinSize) | simp_all [KV.put, KV.clear, KV.transact, KV.update],
    pinRetries := by first | exact ($h).pinRetries | (simpa [KV.put, KV.clear, KV.transact, KV.update] using ($h).pinRetries) | simp_all [KV.put, KV.clear, KV.transact, KV.update],
    retriesSize := by first | exact ($h).retriesSize | (simpa [KV.put, KV.clear, KV.transact, KV.update] using ($h).retriesSize) | simp_all [KV.put, KV.clear, KV.transact, KV.update],
    pin := by first | exact ($h).pin | (simpa [KV.put, KV.clear, KV.transact, KV.update] using ($h).pin) | simp_all [KV.put, KV.clear, KV.transact, KV.update],
    pinSize := by first | exact ($h).pinSize | (simpa [KV.put, KV.clear, KV.transact, KV.update] using ($h).pinSize) | simp_all [KV.put, KV.clear, KV.transact, KV.update],
    master := by first | exact ($h).master | (simpa [KV.put, KV.clear, KV.transact, KV.update] using ($h).master) | simp_all [KV.put, KV.clear, KV.transact, KV.update],
    masterSize := by first | exact ($h).masterSize | (simpa [KV.put, KV.clear, KV.transact, KV.update] using ($h).masterSize) | simp_all [KV.put, KV.clear, KV.transact, KV.update],
    counter := by first | exact ($h).counter | (simpa [KV.put, KV.clear, KV.transact, KV.update] using ($h).counter) | simp_all [KV.put, KV.clear, KV.transact, KV.update],
    counterSize := by first | exact ($h).counterSize | (simpa [KV.put, KV.clear, KV.transact, KV.update] using ($h).counterSize) | simp_all [KV.put, KV.clear, KV.transact, KV.update] })

/-- An entry is written that holds no credential, and no fragment. -/
theorem Holds.put (h : Holds m p) {k : Nat} {v : Option Bytes} (hk : k < 1700 ∨ 2004 ≤ k) (hc : p'.creds = p.creds)
    (hm : p'.master = p.master) (hl : p'.largeBlob = p.largeBlob) (hr : HoldsRest (m.put k v) p') : Holds (m.put k v) p' where
  creds := h.creds.congr (fun k' h1 h2 => by simp only [KV.put]; rw [if_neg (by omega)]) hc hm
  largeBlob := by
    rw [hl]
    exact held_congr h.largeBlob fun k' h1 h2 => by simp only [KV.put]; rw [if_neg (by omega)]
  rest := hr

theorem Holds.putCounter (h : Holds m p) {n : Nat} (hn : n < 2 ^ 32) : Holds (m.put 2047 (some (u32Bytes n))) { p with counter := some n } := by
  refine h.put (by omega) rfl rfl rfl ?_
  have hr := h.rest
  rest hr

theorem Holds.putRetries (h : Holds m p) {n : Nat} (hn : n < 256) : Holds (m.put 2044 (some [UInt8.ofNat n])) { p with pinRetries := some n } := by
  refine h.put (by omega) rfl rfl rfl ?_
  have hr := h.rest
  rest hr

theorem Holds.delRetries (h : Holds m p) : Holds (m.put 2044 none) { p with pinRetries := none } := by
  refine h.put (by omega) rfl rfl rfl ?_
  have hr := h.rest
  rest hr

theorem Holds.putMinPin (h : Holds m p) {n : Nat} (hn : n < 256) : Holds (m.put 2043 (some [UInt8.ofNat n])) { p with minPinLength := some n } := by
  refine h.put (by omega) rfl rfl rfl ?_
  have hr := h.rest
  rest hr

theorem Holds.putRpIds (h : Holds m p) {l : List Bytes} {b : Bytes} (hb : deserializeRpIds b = some l) : Holds (m.put 2042 (some b)) { p with minPinRpIds := some l } := by
  refine h.put (by omega) rfl rfl rfl ?_
  have hr := h.rest
  rest hr

theorem Holds.putForce (h : Holds m p) : Holds (m.put 2040 (some [])) { p with forcePinChange := true } := by
  refine h.put (by omega) rfl rfl rfl ?_
  have hr := h.rest
  rest hr

theorem Holds.putEnterprise (h : Holds m p) : Holds (m.put 2039 (some [])) { p with enterprise := true } := by
  refine h.put (by omega) rfl rfl rfl ?_
  have hr := h.rest
  rest hr

theorem Holds.putAlways (h : Holds m p) : Holds (m.put 2038 (some [])) { p with alwaysUv := true } := by
  refine h.put (by omega) rfl rfl rfl ?_
  have hr := h.rest
  rest hr

theorem Holds.delAlways (h : Holds m p) : Holds (m.put 2038 none) { p with alwaysUv := false } := by
  refine h.put (by omega) rfl rfl rfl ?_
  have hr := h.rest
  rest hr

theorem Holds.putPin (h : Holds m p) {hash : Bytes} {n : Nat} (h1 : hash.length = 16) (h2 : n < 256) :
    Holds (m.transact [.insert 2045 (pinBytes hash n), .remove 2040]) { p with pin := some (hash, n), forcePinChange := false } := by
  have hp : Holds (m.put 2045 (some (pinBytes hash n))) { p with pin := some (hash, n) } := by
    refine h.put (by omega) rfl rfl rfl ?_
    have hr := h.rest
    rest hr
  refine hp.put (k := 2040) (v := none) (by omega) rfl rfl rfl ?_
  have hr := hp.rest
  rest hr

theorem Holds.putAttestation (h : Holds m p) {a : Attestation} (h1 : a.sk.length = 32) :
    Holds (m.transact [.insert 1 a.sk, .insert 2 a.certificate]) { p with attestation := some a } where
  creds := h.creds.congr (fun k' h1 h2 => by
    simp only [KV.transact, List.foldl, KV.update, KV.put]; rw [if_neg (by omega), if_neg (by omega)]) rfl rfl
  largeBlob := held_congr h.largeBlob fun k' h1 h2 => by
    simp only [KV.transact, List.foldl, KV.update, KV.put]; rw [if_neg (by omega), if_neg (by omega)]
  rest := by
    have hr := h.rest
    rest hr

theorem Holds.putMaster (h : Holds m p) (h1 : p.master = none) (x : Bytes) (hx : x.length = 128) : Holds (m.put 2046 (some x)) { p with master := some x } where
  creds := by
    have h2 : p.creds = [] := by
      cases hc : p.creds with
      | nil => rfl
      | cons e l =>
        obtain ⟨_, _, _, mk, _, h3, _⟩ := h.creds.stored e (by rw [hc]; exact List.mem_cons_self ..)
        rw [h1] at h3
        cases h3
    refine ⟨h.creds.nodup, fun e he => ?_, fun k a b hk => ?_⟩
    · rw [h2] at he
      cases he
    · simp only [KV.put] at hk
      rw [if_neg (by omega)] at hk
      exact h.creds.only k a b hk
  largeBlob := held_congr h.largeBlob fun k' h1 h2 => by simp only [KV.put]; rw [if_neg (by omega)]
  rest := by
    have hr := h.rest
    rest hr

theorem Holds.delMaster (h : Holds m p) (h1 : p.creds = []) : Holds (m.put 2046 none) { p with master := none } where
  creds := by
    refine ⟨h.creds.nodup, fun e he => ?_, fun k a b hk => ?_⟩
    · rw [h1] at he
      cases he
    · simp only [KV.put] at hk
      rw [if_neg (by omega)] at hk
      exact h.creds.only k a b hk
  largeBlob := held_congr h.largeBlob fun k' h1 h2 => by simp only [KV.put]; rw [if_neg (by omega)]
  rest := by
    have hr := h.rest
    rest hr

theorem Holds.clear (h : Holds m p) : Holds (m.clear 20) (Persist.clear Ctap.NUM_PERSISTENT_KEYS p) where
  creds := by
    have h2 : (Persist.clear Ctap.NUM_PERSISTENT_KEYS p).creds = [] := by
      refine List.filter_eq_nil_iff.2 fun e he hlt => ?_
      have h3 := (h.creds.stored e he).1
      have h4 : e.1 < 20 := of_decide_eq_true hlt
      omega
    refine ⟨by rw [h2]; exact List.nodup_nil, fun e he => ?_, fun k a b hk => ?_⟩
    · rw [h2] at he
      cases he
    · simp only [KV.clear] at hk
      rw [if_pos (by omega)] at hk
      exact absurd rfl hk
  largeBlob := ⟨0, Nat.zero_le _, fun q _ => by
    have : 20 ≤ shards.key q := by simp only [shards, Store.Keys.range]; omega
    simp [KV.clear, this], rfl⟩
  rest := by
    have hr := h.rest
    constructor <;> first
      | exact hr.attestationKey | exact hr.attestationCert | exact hr.attestationSize
      | simp [Persist.clear, Ctap.NUM_PERSISTENT_KEYS, KV.clear]

/-! ## Credentials -/

theorem Holds.putCred (h : Holds m p) {mk b : Bytes} {c : Cred} {k : Nat} (h1 : 1700 ≤ k) (h2 : k < 2000) (hm : p.master = some mk)
    (hc : IsCred c) (hb : deserializeCredential (Ctap.encKey mk) b = some c) : Holds (m.put k (some b)) (p.putCred k c) where
  creds := by
    refine ⟨?_, fun e he => ?_, fun k' a b' hk => ?_⟩
    · simp only [Persist.putCred, List.map_cons, List.nodup_cons]
      refine ⟨by simp, ?_⟩
      exact (h.creds.nodup).sublist (List.Sublist.map _ (List.filter_sublist ..))
    · simp only [Persist.putCred, List.mem_cons, List.mem_filter, bne_iff_ne, ne_eq] at he
      rcases he with rfl | ⟨he, hne⟩
      · exact ⟨h1, h2, hc, mk, b, hm, by simp [KV.put], hb⟩
      · obtain ⟨a1, a2, a3, mk', b', a4, a5, a6⟩ := h.creds.stored e he
        exact ⟨a1, a2, a3, mk', b', a4, by simp only [KV.put]; rw [if_neg hne]; exact a5, a6⟩
    · by_cases hkk : k' = k
      · exact ⟨c, by rw [hkk]; exact List.mem_cons_self ..⟩
      · simp only [KV.put] at hk
        rw [if_neg hkk] at hk
        obtain ⟨c', hc'⟩ := h.creds.only k' a b' hk
        exact ⟨c', List.mem_cons_of_mem _ (List.mem_filter.2 ⟨hc', by simpa using hkk⟩)⟩
  largeBlob := held_congr h.largeBlob fun k' h1 h2 => by simp only [KV.put]; rw [if_neg (by omega)]
  rest := by
    have hr := h.rest
    have hne : ∀ j, (j < 1700 ∨ 2000 ≤ j) → (m.put k (some b)) j = m j := fun j hj => by simp only [KV.put]; rw [if_neg (by omega)]
    constructor <;> (try rw [hne _ (by omega)])
    · exact hr.attestationKey
    · exact hr.attestationCert
    · exact hr.attestationSize
    · exact hr.alwaysUv
    · exact hr.enterprise
    · exact hr.forcePinChange
    · exact hr.rpIds
    · exact hr.minPinLength
    · exact hr.minPinSize
    · exact hr.pinRetries
    · exact hr.retriesSize
    · exact hr.pin
    · exact hr.pinSize
    · exact hr.master
    · exact hr.masterSize
    · exact hr.counter
    · exact hr.counterSize

theorem Holds.delCred (h : Holds m p) {k : Nat} (h1 : 1700 ≤ k) (h2 : k < 2000) : Holds (m.put k none) (p.delCred k) where
  creds := by
    refine ⟨?_, fun e he => ?_, fun k' a b' hk => ?_⟩
    · exact (h.creds.nodup).sublist (List.Sublist.map _ (List.filter_sublist ..))
    · simp only [Persist.delCred, List.mem_filter, bne_iff_ne, ne_eq] at he
      obtain ⟨he, hne⟩ := he
      obtain ⟨a1, a2, a3, mk', b', a4, a5, a6⟩ := h.creds.stored e he
      exact ⟨a1, a2, a3, mk', b', a4, by simp only [KV.put]; rw [if_neg hne]; exact a5, a6⟩
    · by_cases hkk : k' = k
      · simp [KV.put, hkk] at hk
      · simp only [KV.put] at hk
        rw [if_neg hkk] at hk
        obtain ⟨c', hc'⟩ := h.creds.only k' a b' hk
        exact ⟨c', List.mem_filter.2 ⟨hc', by simpa using hkk⟩⟩
  largeBlob := held_congr h.largeBlob fun k' h1 h2 => by simp only [KV.put]; rw [if_neg (by omega)]
  rest := by
    have hr := h.rest
    have hne : ∀ j, (j < 1700 ∨ 2000 ≤ j) → (m.put k none) j = m j := fun j hj => by simp only [KV.put]; rw [if_neg (by omega)]
    constructor <;> (try rw [hne _ (by omega)])
    · exact hr.attestationKey
    · exact hr.attestationCert
    · exact hr.attestationSize
    · exact hr.alwaysUv
    · exact hr.enterprise
    · exact hr.forcePinChange
    · exact hr.rpIds
    · exact hr.minPinLength
    · exact hr.minPinSize
    · exact hr.pinRetries
    · exact hr.retriesSize
    · exact hr.pin
    · exact hr.pinSize
    · exact hr.master
    · exact hr.masterSize
    · exact hr.counter
    · exact hr.counterSize

/-- The large blob is written. -/
theorem Holds.putBlob (h : Holds m p) {b : Bytes} (hm : ∀ k, (k < 2000 ∨ 2004 ≤ k) → m' k = m k) (hb : Held shards m' (some b)) :
    Holds m' { p with largeBlob := some b } where
  creds := h.creds.congr (fun k h1 h2 => hm k (by omega)) rfl rfl
  largeBlob := hb
  rest := by
    have hr := h.rest
    constructor <;> (try rw [hm _ (by omega)])
    · exact hr.attestationKey
    · exact hr.attestationCert
    · exact hr.attestationSize
    · exact hr.alwaysUv
    · exact hr.enterprise
    · exact hr.forcePinChange
    · exact hr.rpIds
    · exact hr.minPinLength
    · exact hr.minPinSize
    · exact hr.pinRetries
    · exact hr.retriesSize
    · exact hr.pin
    · exact hr.pinSize
    · exact hr.master
    · exact hr.masterSize
    · exact hr.counter
    · exact hr.counterSize

end Verif.Disk
