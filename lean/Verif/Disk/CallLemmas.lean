import Verif.Disk.HoldLemmas

/-!
# The storage functions on the store do what they do on the data
-/
namespace Verif.Disk
open Verif.Ctap (Dev Cred Status Res Persist Attestation readP writeP rng)
open Verif.Store (Format KV Contains Lists Held Op)
variable [Dev] {F : Format} {α : Type}

/-- The results are equal. -/
def Same (a b : α) (_ : Persist) : Prop := a = b

/-- A function that reads one entry. -/
theorem Sim.read {P : Persist → Prop} (key : Nat) {k : Option Bytes → M α} {v : Persist → α}
    (h : ∀ m p, Holds m p → P p → k (m key) = M.pure (v p)) :
    Sim F P (Disk.find F key >>= k) (readP >>= fun p => Ctap.M.pure (v p)) fun a b p => a = b ∧ a = v p ∧ P p := by
  refine (Sim.find P key).bind fun a b => ?_
  refine Sim.given (Q := ∃ m, Holds m b ∧ a = m key ∧ P b) (fun p ⟨h1, h2, m, h3, h4⟩ => ⟨m, by rw [h2]; exact h3, h4, by rw [h2]; exact h1⟩)
    fun ⟨m, h1, h2, h3⟩ => ?_
  rw [h2, h m b h1 h3]
  exact Sim.pure fun p hp => ⟨rfl, by rw [hp.2.1], hp.1⟩

theorem Sim.insert {P : Persist → Prop} (hF : F.supported) (key : Nat) (v : Bytes) (g : Persist → Persist) (evs : List Ctap.Ev)
    (h : ∀ m p, Holds m p → P p → Holds (m.put key (some v)) (g p)) :
    Sim F P (Disk.insert F key v) (writeP g evs) fun _ _ p' => ∃ p, P p ∧ p' = g p := Sim.write hF (.insert key v) g evs h

theorem Sim.remove {P : Persist → Prop} (hF : F.supported) (key : Nat) (g : Persist → Persist) (evs : List Ctap.Ev)
    (h : ∀ m p, Holds m p → P p → Holds (m.put key none) (g p)) :
    Sim F P (Disk.remove F key) (writeP g evs) fun _ _ p' => ∃ p, P p ∧ p' = g p := Sim.write hF (.remove key) g evs h

/-! ## Flags and numbers -/

theorem sim_flag {P : Persist → Prop} (key : Nat) (v : Persist → Bool) (h : ∀ m p, Holds m p → m key = if v p then some [] else none) :
    Sim F P (flagEntry F key) (readP >>= fun p => Ctap.M.pure (v p)) fun a b p => a = b ∧ a = v p ∧ P p :=
  Sim.read key fun m p hm _ => by rw [h m p hm]; cases v p <;> rfl

theorem sim_byte {P : Persist → Prop} (key d : Nat) (v : Persist → Option Nat) (h : ∀ m p, Holds m p → m key = (v p).map fun n => [UInt8.ofNat n])
    (hs : ∀ m p, Holds m p → ∀ n, v p = some n → n < 256) :
    Sim F P (byteEntry F key d) (readP >>= fun p => Ctap.M.pure ((v p).getD d)) fun a b p => a = b ∧ a = (v p).getD d ∧ P p :=
  Sim.read key fun m p hm _ => by
    rw [h m p hm]
    cases hv : v p with
    | none => rfl
    | some n =>
      have : n % 256 = n := Nat.mod_eq_of_lt (hs m p hm n hv)
      show M.pure (UInt8.ofNat n).toNat = M.pure n
      simp [this]

theorem sim_hasForcePinChange {P : Persist → Prop} :
    Sim F P (hasForcePinChange F) Ctap.hasForcePinChange fun a b p => a = b ∧ a = p.forcePinChange ∧ P p :=
  sim_flag 2040 _ fun _ _ h => h.rest.forcePinChange

theorem sim_enterprise {P : Persist → Prop} :
    Sim F P (enterpriseAttestation F) Ctap.enterpriseAttestation fun a b p => a = b ∧ a = p.enterprise ∧ P p :=
  sim_flag 2039 _ fun _ _ h => h.rest.enterprise

theorem sim_hasAlwaysUv : Sim F (fun _ => True) (hasAlwaysUv F) Ctap.hasAlwaysUv Same := by
  unfold hasAlwaysUv Ctap.hasAlwaysUv
  split
  · exact Sim.pure fun _ _ => rfl
  · exact (sim_flag (P := fun _ => True) 2038 (·.alwaysUv) fun _ _ h => h.rest.alwaysUv).weaken (fun _ h => h) fun _ _ _ h => h.1

theorem sim_toggleAlwaysUv (hF : F.supported) : Sim F (fun _ => True) (toggleAlwaysUv F) Ctap.toggleAlwaysUv Same := by
  unfold toggleAlwaysUv Ctap.toggleAlwaysUv
  refine (Sim.guard _ _).bind fun _ _ => ?_
  refine (Sim.weaken sim_hasAlwaysUv (fun _ _ => trivial) fun _ _ _ h => h).bind fun a b => ?_
  refine Sim.given (Q := a = b) (fun _ h => h) fun hab => ?_
  subst hab
  cases a
  · exact (Sim.insert (P := fun _ => True) hF 2038 [] _ _ fun _ _ h _ => h.putAlways).weaken (fun _ _ => trivial) fun _ _ _ _ => rfl
  · exact (Sim.remove (P := fun _ => True) hF 2038 _ _ fun _ _ h _ => h.delAlways).weaken (fun _ _ => trivial) fun _ _ _ _ => rfl

theorem sim_forcePinChange (hF : F.supported) : Sim F (fun _ => True) (forcePinChange F) Ctap.forcePinChange Same :=
  (Sim.insert (P := fun _ => True) hF 2040 [] _ _ fun _ _ h _ => h.putForce).weaken (fun _ h => h) fun _ _ _ _ => rfl

theorem sim_pinRetries {P : Persist → Prop} : Sim F P (pinRetries F) Ctap.pinRetries fun a b p => a = b ∧ a = p.retries ∧ P p :=
  sim_byte 2044 Dev.maxPinRetries (·.pinRetries) (fun _ _ h => h.rest.pinRetries) fun _ _ h => h.rest.retriesSize

theorem retries_lt {m : KV} {p : Persist} (h : Holds m p) : p.retries < 256 := by
  have := Dev.maxPinRetries_le
  unfold Persist.retries
  cases hp : p.pinRetries with
  | none => simp only [Option.getD_none]; omega
  | some n => exact h.rest.retriesSize n hp

theorem sim_decrPinRetries (hF : F.supported) : Sim F (fun _ => True) (decrPinRetries F) Ctap.decrPinRetries Same := by
  unfold decrPinRetries Ctap.decrPinRetries
  refine (sim_pinRetries (P := fun _ => True)).bind fun a b => ?_
  refine Sim.given (Q := a = b) (fun _ h => h.1) fun hab => ?_
  subst hab
  refine Sim.holds ?_
  split
  · refine (Sim.insert (P := fun p => a = p.retries) hF 2044 _ _ _ fun m p h hp => ?_).weaken (fun _ h => h.1.2.1) fun _ _ _ _ => rfl
    have := retries_lt h
    exact h.putRetries (by omega)
  · exact Sim.pure fun _ _ => rfl

theorem sim_resetPinRetries (hF : F.supported) : Sim F (fun _ => True) (resetPinRetries F) Ctap.resetPinRetries Same :=
  (Sim.remove (P := fun _ => True) hF 2044 _ _ fun _ _ h _ => h.delRetries).weaken (fun _ h => h) fun _ _ _ _ => rfl

theorem sim_minPinLength : Sim F (fun _ => True) (minPinLength F) Ctap.minPinLength Same :=
  (sim_byte (P := fun _ => True) 2043 Dev.defaultMinPinLength (·.minPinLength) (fun _ _ h => h.rest.minPinLength)
    fun _ _ h => h.rest.minPinSize).weaken (fun _ h => h) fun _ _ _ h => h.1

theorem sim_setMinPinLength (hF : F.supported) {n : Nat} (hn : n < 256) : Sim F (fun _ => True) (setMinPinLength F n) (Ctap.setMinPinLength n) Same :=
  (Sim.insert (P := fun _ => True) hF 2043 _ _ _ fun _ _ h _ => h.putMinPin hn).weaken (fun _ h => h) fun _ _ _ _ => rfl

theorem sim_signatureCounter {P : Persist → Prop} :
    Sim F P (signatureCounter F) Ctap.signatureCounter fun a b p => a = b ∧ a = p.counter.getD 1 ∧ P p :=
  Sim.read 2047 fun m p h _ => by
    rw [h.rest.counter]
    cases hc : p.counter with
    | none => rfl
    | some n =>
      show Disk.req (u32Of (u32Bytes n)) _ = _
      rw [u32_roundtrip (h.rest.counterSize n hc)]
      rfl

theorem sim_incrSignatureCounter (hF : F.supported) (n : Nat) : Sim F (fun _ => True) (incrSignatureCounter F n) (Ctap.incrSignatureCounter n) Same := by
  unfold incrSignatureCounter Ctap.incrSignatureCounter
  refine (sim_signatureCounter (P := fun _ => True)).bind fun a b => ?_
  refine Sim.given (Q := a = b) (fun _ h => h.1) fun hab => ?_
  subst hab
  exact (Sim.insert (P := fun _ => True) hF 2047 _ _ _ fun _ _ h _ => h.putCounter (Nat.mod_lt _ (by decide))).weaken
    (fun _ _ => trivial) fun _ _ _ _ => rfl

/-! ## PIN -/

theorem pinProperties_eq {m : KV} {p : Persist} (h : Holds m p) : (match m 2045 with
    | none => M.pure none
    | some v => if v.length = 17 then M.pure (some (v.drop 1, (v.headD 0).toNat)) else fail .internalError : M (Option (Bytes × Nat))) = M.pure p.pin := by
  rw [h.rest.pin]
  cases hp : p.pin with
  | none => rfl
  | some x =>
    obtain ⟨hash, n⟩ := x
    have h1 := h.rest.pinSize _ hp
    have h2 : n % 256 = n := Nat.mod_eq_of_lt h1.2
    simp [pinBytes, h1.1, h2]

theorem sim_pinProperties : Sim F (fun _ => True) (pinProperties F) (readP >>= fun p => Ctap.M.pure p.pin) Same :=
  (Sim.read 2045 fun m p h _ => pinProperties_eq h).weaken (fun _ h => h) fun _ _ _ h => h.1

theorem sim_pinHash : Sim F (fun _ => True) (pinHash F) Ctap.pinHash Same := by
  have he : Ctap.pinHash = ((readP >>= fun p => Ctap.M.pure p.pin) >>= fun o => Ctap.M.pure (o.map (·.1))) := by
    funext s
    simp only [Ctap.pinHash, Ctap.bind_def, Ctap.M.bind]
    rcases readP s with ⟨r, t⟩
    cases r <;> rfl
  rw [he]
  exact sim_pinProperties.bind fun a b => Sim.pure fun p hp => by cases hp; rfl

theorem sim_pinCodePointLength : Sim F (fun _ => True) (pinCodePointLength F) Ctap.pinCodePointLength Same := by
  have he : Ctap.pinCodePointLength = ((readP >>= fun p => Ctap.M.pure p.pin) >>= fun o => Ctap.M.pure (o.map (·.2))) := by
    funext s
    simp only [Ctap.pinCodePointLength, Ctap.bind_def, Ctap.M.bind]
    rcases readP s with ⟨r, t⟩
    cases r <;> rfl
  rw [he]
  exact sim_pinProperties.bind fun a b => Sim.pure fun p hp => by cases hp; rfl

theorem sim_setPin (hF : F.supported) {hash : Bytes} {n : Nat} (h1 : hash.length = 16) (h2 : n < 256) :
    Sim F (fun _ => True) (setPin F hash n) (Ctap.setPin hash n) Same :=
  (Sim.write (P := fun _ => True) hF (.transaction [.insert 2045 (pinBytes hash n), .remove 2040]) _ _ fun _ _ h _ => h.putPin h1 h2).weaken
    (fun _ h => h) fun _ _ _ _ => rfl

theorem sim_minPinLengthRpIds : Sim F (fun _ => True) (minPinLengthRpIds F) Ctap.minPinLengthRpIds Same :=
  (Sim.read (P := fun _ => True) 2042 (v := fun p => p.minPinRpIds.getD Dev.defaultMinPinRpIds) fun m p h _ => by
    rcases h.rest.rpIds with ⟨h1, h2⟩ | ⟨l, b, h1, h2, h3⟩
    · rw [h1, h2]; rfl
    · rw [h1, h2]
      show (match deserializeRpIds b with
        | some l => M.pure l
        | none => panicM) = _
      rw [h3]
      rfl).weaken (fun _ h => h) fun _ _ _ h => h.1

omit [Dev] in
theorem allRpIds {ids defaults : List Bytes} (h : ∀ b ∈ ids, IsString b) (hd : ∀ b ∈ defaults, IsString b) :
    (∀ b ∈ defaults.foldl (fun acc x => if acc.contains x then acc else acc ++ [x]) ids, IsString b) ∧
    (defaults.foldl (fun acc x => if acc.contains x then acc else acc ++ [x]) ids).length ≤ ids.length + defaults.length := by
  induction defaults generalizing ids with
  | nil => exact ⟨h, Nat.le_refl _⟩
  | cons x l ih =>
    have hx := hd x (List.mem_cons_self ..)
    have hl : ∀ b ∈ l, IsString b := fun b hb => hd b (List.mem_cons_of_mem _ hb)
    simp only [List.foldl_cons, List.length_cons]
    split
    · obtain ⟨h1, h2⟩ := ih h hl
      exact ⟨h1, by omega⟩
    · obtain ⟨h1, h2⟩ := ih (ids := ids ++ [x]) (fun b hb => by
        rcases List.mem_append.1 hb with hb | hb
        · exact h b hb
        · rw [List.mem_singleton.1 hb]; exact hx) hl
      refine ⟨h1, ?_⟩
      simp only [List.length_append, List.length_cons, List.length_nil] at h2
      omega

theorem sim_setMinPinLengthRpIds (hF : F.supported) (hT : TypedConfig) {ids : List Bytes} (h1 : ids.length < 2 ^ 32) (h2 : ∀ b ∈ ids, IsString b) :
    Sim F (fun _ => True) (setMinPinLengthRpIds F ids) (Ctap.setMinPinLengthRpIds ids) Same := by
  unfold setMinPinLengthRpIds Ctap.setMinPinLengthRpIds
  obtain ⟨h3, h4⟩ := allRpIds h2 hT.rpIds
  have h5 := hT.many
  obtain ⟨b, h6, h7⟩ := rpIds_roundtrip (by omega) h3
  refine (Sim.guard _ _).bind fun _ _ => ?_
  rw [h6]
  exact (Sim.insert (P := fun _ => True) hF 2042 b _ _ fun _ _ h _ => h.putRpIds h7).weaken (fun _ _ => trivial) fun _ _ _ _ => rfl

/-! ## Large blobs -/

omit [Dev] in
theorem shards_lawful : shards.Lawful := Store.C47_range_keys 2000 2004

theorem sim_getLargeBlobArray (hF : F.supported) (offset count : Nat) :
    Sim F (fun _ => True) (getLargeBlobArray F offset count) (Ctap.getLargeBlobArray offset count) Same := by
  intro x t hx _
  have hx' := hx
  obtain ⟨h1, m, h2, h3⟩ := hx
  have h4 := Store.C47_read_range hF shards_lawful h1 h2 h3.largeBlob offset (offset + count)
  rw [if_pos (by omega)] at h4
  have h5 : getLargeBlobArray F offset count x = (.ok (match t.p.largeBlob with
      | some b => (b.drop offset).take count
      | none => if offset ≤ min Ctap.emptyLargeBlob.length (offset + count) then
          (Ctap.emptyLargeBlob.take (min Ctap.emptyLargeBlob.length (offset + count))).drop offset else []), x) := by
    unfold getLargeBlobArray
    rw [bind_eq]
    simp only [onStore, h4]
    cases t.p.largeBlob with
    | none => rfl
    | some b =>
      show ((.ok ((b.take (offset + count)).drop offset), x) : Res Bytes × St) = _
      rw [List.drop_take, Nat.add_sub_cancel_left]
  rw [h5]
  refine ⟨fun a' x' e => ?_, fun _ _ h => (nomatch h), fun _ _ h => (nomatch h), fun _ h => (nomatch h)⟩
  simp only [Prod.mk.injEq, Res.ok.injEq] at e
  obtain ⟨rfl, rfl⟩ := e
  refine ⟨calm, _, { plug t calm with env := (plug t calm).env.next }, ?_, hx', rfl⟩
  unfold Ctap.getLargeBlobArray
  rw [Ctap.bind_def]
  show (match t.p.largeBlob with
    | some b => Ctap.M.pure _
    | none => Ctap.M.pure _ : Ctap.M Bytes) _ = _
  cases t.p.largeBlob <;> rfl

theorem sim_fragWrite (hF : F.supported) {b : Bytes} (hb : b ≠ []) (evs : List Ctap.Ev) :
    Sim F (fun _ => True) (onStore (Store.fragWrite F shards b)) (writeP (fun p => { p with largeBlob := some b }) evs) Same := by
  intro x t hx _
  have hx' := hx
  obtain ⟨h1, m, h2, h3⟩ := hx
  obtain ⟨m', h4, h5, _⟩ := Store.C44_reads hF h1
  obtain rfl := h2.unique h4
  have hM := Store.maxValueLen_pos hF
  rcases Store.getHandles_spec shards_lawful h5 with ⟨n, hs, _, h6, h7⟩ | ⟨h6, _⟩
  · rcases Store.fragWrite_spec shards_lawful hM h6 h7 b with ⟨_, h8⟩ | ⟨h8, us, h9, h10⟩
    · simp only [onStore, h8]
      refine ⟨fun _ _ h => (nomatch h), fun e1 x' he => ?_, fun _ _ h => (nomatch h), fun _ h => (nomatch h)⟩
      cases he
      exact ⟨{ calm with wfail := fun _ => some (.refused .invalidArgument) }, _, rfl, hx'⟩
    · have h11 : Held shards (m.transact us) (some b) := by
        have := Store.fragmented_held hM h8 h10
        simpa only [Store.readsAs, if_neg hb] using this
      have h12 : Holds (m.transact us) { t.p with largeBlob := some b } := h3.putBlob (fun k hk => h10.2 k fun q hq => by
        simp only [shards, Store.Keys.range] at hq ⊢
        omega) h11
      obtain ⟨q1, q2, q3, q4⟩ := write_at hF (.transaction us) (fun p => { p with largeBlob := some b }) evs h1 h2 h3 h12 h9
      refine ⟨fun a x' e => ?_, q2, q3, q4⟩
      obtain ⟨o, b, t', e1, e2, e3⟩ := q1 a x' e
      exact ⟨o, b, t', e1, e2, rfl⟩
  · obtain ⟨n, h8, h9, _⟩ := h3.largeBlob
    exact absurd ⟨n, h8, h9⟩ h6

theorem sim_commitLargeBlobArray (hF : F.supported) {b : Bytes} (hb : b ≠ []) :
    Sim F (fun _ => True) (commitLargeBlobArray F b) (Ctap.commitLargeBlobArray b) Same := by
  unfold commitLargeBlobArray Ctap.commitLargeBlobArray
  exact (Sim.guard _ _).bind fun _ _ => (sim_fragWrite hF hb _).weaken (fun _ _ => trivial) fun _ _ _ h => h

/-! ## Reset and attestation -/

theorem clear_creds {m : KV} {p : Persist} (h : Holds m p) : (Persist.clear Ctap.NUM_PERSISTENT_KEYS p).creds = [] := by
  refine List.filter_eq_nil_iff.2 fun e he hlt => ?_
  have h3 := (h.creds.stored e he).1
  have h4 : e.1 < 20 := of_decide_eq_true hlt
  omega

theorem sim_reset (hF : F.supported) : Sim F (fun _ => True) (resetStorage F) Ctap.resetStorage Same := by
  unfold resetStorage Ctap.resetStorage
  refine Sim.holds ?_
  refine Sim.bind (R := fun _ _ p => p.creds = []) ?_ fun _ _ => ?_
  · refine (Sim.write (P := fun p => ∃ m, Holds m p) hF (.clear 20) _ _ fun _ _ h _ => h.clear).weaken (fun _ h => h.2) ?_
    rintro _ _ _ ⟨p, ⟨m, h⟩, rfl⟩
    exact clear_creds h
  · exact Sim.mapErr _ ((Sim.remove (P := fun p => p.creds = []) hF 2046 _ _ fun m p h hp => h.delMaster hp).weaken (fun _ h => h)
      fun _ _ _ _ => rfl)

theorem sim_attestationGet {P : Persist → Prop} : Sim F P (attestationGet F) Ctap.attestationGet fun a b p => a = b ∧ P p := by
  intro x t hx hp
  have hx' := hx
  obtain ⟨h1, m, h2, h3⟩ := hx
  have h4 : attestationGet F x = (.ok t.p.attestation, x) := by
    unfold attestationGet Disk.mapErr
    rw [bind_eq]
    simp only [Disk.find, onStore, h2 1]
    rw [bind_eq]
    simp only [onStore, h2 2]
    rw [h3.rest.attestationKey, h3.rest.attestationCert]
    cases ha : t.p.attestation with
    | none => rfl
    | some a =>
      simp only [Option.map_some]
      rw [if_pos (h3.rest.attestationSize a ha)]
      rfl
  rw [h4]
  refine ⟨fun a' x' e => ?_, fun _ _ h => (nomatch h), fun _ _ h => (nomatch h), fun _ h => (nomatch h)⟩
  cases e
  exact ⟨calm, _, _, rfl, hx', rfl, hp⟩

theorem sim_attestationSet (hF : F.supported) {a : Attestation} (ha : a.sk.length = 32) :
    Sim F (fun _ => True) (attestationSet F a) (Ctap.attestationSet a) Same :=
  Sim.mapErr _ ((Sim.write (P := fun _ => True) hF (.transaction [.insert 1 a.sk, .insert 2 a.certificate]) _ _
    fun _ _ h _ => h.putAttestation ha).weaken (fun _ h => h) fun _ _ _ _ => rfl)

theorem sim_enableEnterpriseAttestation (hF : F.supported) :
    Sim F (fun _ => True) (enableEnterpriseAttestation F) Ctap.enableEnterpriseAttestation Same := by
  unfold enableEnterpriseAttestation Ctap.enableEnterpriseAttestation
  refine (sim_attestationGet (P := fun _ => True)).bind fun a b => ?_
  refine Sim.given (Q := a = b) (fun _ h => h.1) fun hab => ?_
  subst hab
  refine (Sim.guard _ _).bind fun _ _ => ?_
  refine sim_enterprise.bind fun a b => ?_
  refine Sim.given (Q := a = b) (fun _ h => h.1) fun hab => ?_
  subst hab
  cases a
  · exact (Sim.insert (P := fun _ => True) hF 2039 [] _ _ fun _ _ h _ => h.putEnterprise).weaken (fun _ _ => trivial) fun _ _ _ _ => rfl
  · exact Sim.pure fun _ _ => rfl

/-! ## Credentials -/

theorem sim_masterKeys (hF : F.supported) (P : Persist → Prop) : Sim F P (getMasterKeys F) Ctap.getMasterKeys fun a b p' =>
    a = b ∧ p'.master = some a ∧ ∃ p, P p ∧ p' = { p with master := some a } ∧ (p.master = none ∨ p.master = some a) := by
  refine Sim.mapErr _ ?_
  refine (Sim.find P 2046).bind fun o q => ?_
  refine Sim.given (Q := o = q.master ∧ P q) (fun p ⟨h1, h2, m, h3, h4⟩ => ⟨by rw [h2, h4]; exact h3.rest.master, by rw [h2]; exact h1⟩)
    fun ⟨h1, h2⟩ => ?_
  subst h1
  have hq : ∀ p, (P p ∧ q = p ∧ ∃ m, Holds m p ∧ q.master = m 2046) → p = q := fun p h => h.2.1.symm
  refine Sim.weaken (P := fun p => p = q) ?_ hq fun _ _ _ h => h
  cases hm : q.master with
  | some x =>
    refine (Sim.guard _ _).bind fun _ _ => ?_
    refine Sim.pure fun p hp => ?_
    obtain ⟨rfl, _⟩ := hp
    exact ⟨rfl, hm, p, h2, by rw [← hm], .inr hm⟩
  | none =>
    refine (Sim.draw 128).bind fun a b => ?_
    refine Sim.given (Q := a = b ∧ a.length = 128) (fun _ h => h.2) fun ⟨hab, hl⟩ => ?_
    subst hab
    refine (Sim.insert (P := fun p => p = q) hF 2046 a _ _ fun m p h hp => h.putMaster (by rw [hp]; exact hm) a hl).weaken (fun _ h => h.1)
      (fun _ _ _ h => h) |>.bind fun _ _ => ?_
    refine Sim.pure ?_
    rintro _ ⟨p, rfl, rfl⟩
    exact ⟨rfl, rfl, p, h2, rfl, .inl hm⟩

theorem handles_keys {m : KV} {p : Persist} {hs : List Store.Handle} (h : Holds m p) (h1 : (hs.map Store.Handle.key).Nodup)
    (h2 : ∀ k, k ∈ hs.map Store.Handle.key ↔ m k ≠ none) :
    ((hs.map Store.Handle.key).filter isCredential).Perm (p.creds.map (·.1)) := by
  refine (List.perm_ext_iff_of_nodup (h1.filter _) h.creds.nodup).2 fun k => ?_
  rw [List.mem_filter, h2, isCredential, Bool.and_eq_true, decide_eq_true_eq, decide_eq_true_eq, List.mem_map]
  constructor
  · rintro ⟨h3, h4, h5⟩
    obtain ⟨c, hc⟩ := h.creds.only k h4 h5 h3
    exact ⟨_, hc, rfl⟩
  · rintro ⟨e, he, rfl⟩
    obtain ⟨a1, a2, _, _, _, _, a3, _⟩ := h.creds.stored e he
    exact ⟨by rw [a3]; simp, a1, a2⟩

theorem sim_countCredentials (hF : F.supported) (P : Persist → Prop) :
    Sim F P (countCredentials F) Ctap.countCredentials fun a b p => a = b ∧ P p := by
  intro x t hx hp
  have hx' := hx
  obtain ⟨h1, m, h2, h3⟩ := hx
  obtain ⟨m', h4, ⟨hs, h5, h6, h7, _⟩, _⟩ := Store.C44_reads hF h1
  obtain rfl := h2.unique h4
  have h8 : countCredentials F x = (.ok t.p.creds.length, x) := by
    unfold countCredentials
    rw [bind_eq]
    simp only [onStore, h5]
    have h9 := (handles_keys h3 h6 h7).length_eq
    rw [List.length_map, ← List.countP_eq_length_filter, List.countP_map] at h9
    show (Res.ok _, _) = _
    rw [← h9]
    rfl
  rw [h8]
  refine ⟨fun a' x' e => ?_, fun _ _ h => (nomatch h), fun _ _ h => (nomatch h), fun _ h => (nomatch h)⟩
  cases e
  exact ⟨calm, _, _, rfl, hx', rfl, hp⟩

theorem sim_remainingCredentials (hF : F.supported) : Sim F (fun _ => True) (remainingCredentials F) Ctap.remainingCredentials Same := by
  unfold remainingCredentials Ctap.remainingCredentials
  refine (sim_countCredentials hF fun _ => True).bind fun a b => ?_
  refine Sim.given (Q := a = b) (fun _ h => h.1) fun hab => ?_
  subst hab
  split
  · exact Sim.pure fun _ _ => rfl
  · exact Sim.fail _

/-- Decoding the entries of the credentials gives the credentials. -/
theorem decodeHandles_ok {m : KV} {p : Persist} {mk : Bytes} (h : Holds m p) (hm : p.master = some mk) {x : St} {hs : List Store.Handle}
    (hv : ∀ h ∈ hs, ∃ v, m h.key = some v ∧ Store.getValue F h x.st = (.ok v, x.st)) :
    ∃ l, decodeHandles F mk hs x = (.ok l, x) ∧ l.map (·.1) = (hs.map Store.Handle.key).filter isCredential ∧ ∀ e ∈ l, e ∈ p.creds := by
  induction hs with
  | nil => exact ⟨[], rfl, rfl, fun e he => by cases he⟩
  | cons hd tl ih =>
    obtain ⟨l, h1, h2, h3⟩ := ih fun h hh => hv h (List.mem_cons_of_mem _ hh)
    obtain ⟨v, h4, h5⟩ := hv hd (List.mem_cons_self ..)
    by_cases hc : isCredential hd.key = true
    · have hc' := hc
      simp only [isCredential, Bool.and_eq_true, decide_eq_true_eq] at hc'
      obtain ⟨c, h6⟩ := h.creds.only hd.key hc'.1 hc'.2 (by rw [h4]; simp)
      obtain ⟨_, _, _, mk', b, h7, h8, h9⟩ := h.creds.stored _ h6
      rw [hm] at h7
      cases h7
      dsimp only at h8 h9
      rw [h4] at h8
      cases h8
      refine ⟨(hd.key, c) :: l, ?_, ?_, fun e he => ?_⟩
      · unfold decodeHandles
        rw [if_pos hc, bind_eq]
        simp only [Disk.mapErr, onStore, h5]
        rw [h9, bind_eq]
        simp only [Disk.req, M.pure]
        rw [bind_eq, h1]
        rfl
      · simp only [List.map_cons, List.filter_cons, hc, if_true, h2]
      · rcases List.mem_cons.1 he with rfl | he
        · exact h6
        · exact h3 e he
    · refine ⟨l, ?_, ?_, h3⟩
      · unfold decodeHandles
        rw [if_neg hc]
        exact h1
      · simp only [List.map_cons, List.filter_cons, hc, h2]
        rfl

omit [Dev] in
theorem nodup_of_keys {l : List (Nat × Cred)} (h : (l.map (·.1)).Nodup) : l.Nodup :=
  (List.pairwise_map.1 h).imp fun hne he => hne (by rw [he])

omit [Dev] in
theorem key_unique {l : List (Nat × Cred)} (h : (l.map (·.1)).Nodup) {e e' : Nat × Cred} (he : e ∈ l) (he' : e' ∈ l) (hk : e.1 = e'.1) : e = e' := by
  induction l with
  | nil => cases he
  | cons a l ih =>
    simp only [List.map_cons, List.nodup_cons, List.mem_map, not_exists, not_and] at h
    rcases List.mem_cons.1 he with h1 | h1 <;> rcases List.mem_cons.1 he' with h2 | h2
    · rw [h1, h2]
    · exact absurd (h1 ▸ hk).symm (h.1 e' h2)
    · exact absurd (h2 ▸ hk) (h.1 e h1)
    · exact ih h.2 h1 h2

theorem sim_iterCredentials (hF : F.supported) (P : Persist → Prop) : Sim F P (iterCredentials F) Ctap.iterCredentials fun a b p' =>
    a = b ∧ a.Perm p'.creds ∧ ∃ mk p, P p ∧ p' = { p with master := some mk } ∧ (p.master = none ∨ p.master = some mk) := by
  unfold iterCredentials Ctap.iterCredentials
  refine (sim_masterKeys hF P).bind fun mk b => ?_
  intro x t hx hp
  obtain ⟨rfl, hm, p, hp1, hp2, hp3⟩ := hp
  have hx' := hx
  obtain ⟨h1, m, h2, h3⟩ := hx
  obtain ⟨m', h4, ⟨hs, h5, h6, h7, h8⟩, _⟩ := Store.C44_reads hF h1
  obtain rfl := h2.unique h4
  obtain ⟨l, h9, h10, h11⟩ := decodeHandles_ok (F := F) (x := x) h3 hm h8
  have h12 : (onStore (Store.iter F) >>= fun hs => decodeHandles F mk hs) x = (.ok l, x) := by
    rw [bind_eq]
    simp only [onStore, h5]
    exact h9
  have hk := handles_keys h3 h6 h7
  rw [← h10] at hk
  have hperm : l.Perm t.p.creds := by
    refine (List.perm_ext_iff_of_nodup (nodup_of_keys (hk.nodup_iff.2 h3.creds.nodup)) (nodup_of_keys h3.creds.nodup)).2 fun e => ⟨h11 e, fun he => ?_⟩
    obtain ⟨e', he', hke⟩ := List.mem_map.1 (hk.mem_iff.2 (List.mem_map_of_mem (f := (·.1)) he))
    rw [← key_unique h3.creds.nodup (h11 e' he') he hke]
    exact he'
  rw [h12]
  refine ⟨fun a' x' e => ?_, fun _ _ h => (nomatch h), fun _ _ h => (nomatch h), fun _ h => (nomatch h)⟩
  cases e
  let o : Ctap.Oracle := { calm with
    shuffle := fun _ l' => if l' = t.p.creds then l else l'
    shuffle_perm := fun _ l' => by
      split
      · rename_i h; rw [h]; exact hperm
      · exact .refl _ }
  refine ⟨o, _, _, rfl, hx', ?_, hperm, mk, p, hp1, hp2, hp3⟩
  show l = if t.p.creds = t.p.creds then l else t.p.creds
  rw [if_pos rfl]

theorem sim_newCreationOrder (hF : F.supported) : Sim F (fun _ => True) (newCreationOrder F) Ctap.newCreationOrder Same := by
  unfold newCreationOrder Ctap.newCreationOrder
  refine (sim_iterCredentials hF fun _ => True).bind fun a b => ?_
  refine Sim.given (Q := a = b) (fun _ h => h.1) fun hab => ?_
  subst hab
  exact Sim.pure fun _ _ => rfl

theorem sim_findCredentialItem (hF : F.supported) (id : Bytes) : Sim F (fun _ => True) (findCredentialItem F id) (Ctap.findCredentialItem id)
    fun a b p => a = b ∧ a ∈ p.creds := by
  unfold findCredentialItem Ctap.findCredentialItem
  refine (sim_iterCredentials hF fun _ => True).bind fun a b => ?_
  refine Sim.given (Q := a = b) (fun _ h => h.1) fun hab => ?_
  subst hab
  cases hf : a.filter fun e => e.2.id == id with
  | nil => exact Sim.fail _
  | cons e l =>
    cases l with
    | nil =>
      refine Sim.pure fun p hp => ⟨rfl, hp.2.1.mem_iff.1 ?_⟩
      have : e ∈ a.filter fun e => e.2.id == id := by rw [hf]; exact List.mem_singleton.2 rfl
      exact (List.mem_filter.1 this).1
    | cons e' l => exact Sim.fail _

/-- The iteration itself never reports that there are no credentials. -/
theorem iter_noErr (x x' : St) : iterCredentials F x ≠ (.err .noCredentials, x') := by
  have hb : ∀ {α β : Type} (d : M α) (g : α → M β), (∀ x x', d x ≠ (.err .noCredentials, x')) → (∀ a x x', g a x ≠ (.err .noCredentials, x')) →
      ∀ x x', (d >>= g) x ≠ (.err .noCredentials, x') := by
    intro α β d g h1 h2 x x' h
    rw [bind_eq] at h
    rcases hd : d x with ⟨r, y⟩
    rw [hd] at h
    cases r with
    | ok a => exact h2 a y x' h
    | err e =>
      cases h
      exact h1 x _ hd
    | panic => exact nomatch h
    | crash => exact nomatch h
  have hm : ∀ {α : Type} (d : M α) (x x' : St), Disk.mapErr (fun _ => .internalError) d x ≠ (.err .noCredentials, x') := by
    intro α d x x' h
    unfold Disk.mapErr at h
    rcases hd : d x with ⟨r, y⟩
    rw [hd] at h
    cases r <;> exact nomatch h
  have ho : ∀ {α : Type} (d : Store.M α) (x x' : St), onStore d x ≠ (.err .noCredentials, x') := by
    intro α d x x' h
    unfold onStore at h
    rcases hd : d x.st with ⟨r, y⟩
    rw [hd] at h
    cases r with
    | err e => cases e <;> exact nomatch h
    | _ => exact nomatch h
  have hq : ∀ {α : Type} (o : Option α) (x x' : St), Disk.req o .internalError x ≠ (.err .noCredentials, x') := by
    intro α o x x' h
    cases o <;> exact nomatch h
  have hdec : ∀ (mk : Bytes) (hs : List Store.Handle) (x x' : St), decodeHandles F mk hs x ≠ (.err .noCredentials, x') := by
    intro mk hs
    induction hs with
    | nil => exact fun x x' h => nomatch h
    | cons hd tl ih =>
      unfold decodeHandles
      split
      · exact hb _ _ (hm _) fun v => hb _ _ (hq _) fun c => hb _ _ ih fun l x x' h => nomatch h
      · exact ih
  exact hb _ _ (hm _) (fun mk => hb _ _ (ho _) fun hs => hdec mk hs) x x'

theorem sim_findCredential (hF : F.supported) (rpId id : Bytes) :
    Sim F (fun _ => True) (findCredential F rpId id) (Ctap.findCredential rpId id) Same := by
  have he : findCredential F rpId id = (iterCredentials F >>= fun l =>
      match l.filter fun e => e.2.id == id with
      | [] => M.pure none
      | [e] => M.pure (if e.2.rpId = rpId then some e.2 else none)
      | _ => fail .internalError) := by
    funext x
    simp only [findCredential, findCredentialItem, bind_eq]
    have hn := iter_noErr (F := F) x
    rcases hi : iterCredentials F x with ⟨r, x'⟩
    cases r with
    | ok l =>
      simp only
      generalize l.filter (fun e => e.2.id == id) = l'
      rcases l' with _ | ⟨e, _ | ⟨e', l'⟩⟩ <;> rfl
    | err e =>
      by_cases hne : e = .noCredentials
      · rw [hne] at hi
        exact absurd hi (hn x')
      · cases e <;> first | rfl | exact absurd rfl hne
    | panic => rfl
    | crash => rfl
  rw [he]
  unfold Ctap.findCredential
  refine (sim_iterCredentials hF fun _ => True).bind fun a b => ?_
  refine Sim.given (Q := a = b) (fun _ h => h.1) fun hab => ?_
  subst hab
  cases a.filter fun e => e.2.id == id with
  | nil => exact Sim.pure fun _ _ => rfl
  | cons e l =>
    cases l with
    | nil => exact Sim.pure fun _ _ => rfl
    | cons e' l => exact Sim.fail _

omit [Dev] in
theorem lookup_none {l : List (Nat × Cred)} {k : Nat} (h : l.lookup k = none) (c : Cred) : (k, c) ∉ l := by
  induction l with
  | nil => exact List.not_mem_nil
  | cons a l ih =>
    obtain ⟨k', c'⟩ := a
    rw [List.lookup_cons] at h
    split at h
    · exact nomatch h
    · rename_i hk
      simp only [List.mem_cons, Prod.mk.injEq, not_or, not_and]
      exact ⟨fun e => absurd e (by simpa using hk), ih h⟩

omit [Dev] in
theorem lookup_mem {l : List (Nat × Cred)} {k : Nat} {c : Cred} (h : l.lookup k = some c) : (k, c) ∈ l := by
  induction l with
  | nil => exact nomatch h
  | cons a l ih =>
    obtain ⟨k', c'⟩ := a
    rw [List.lookup_cons] at h
    split at h
    · rename_i hk
      cases h
      have : k = k' := by simpa using hk
      rw [this]
      exact List.mem_cons_self ..
    · exact List.mem_cons_of_mem _ (ih h)

theorem sim_getCredential (hF : F.supported) (key : Nat) : Sim F (fun _ => True) (getCredential F key) (Ctap.getCredential key) Same := by
  unfold getCredential Ctap.getCredential
  refine (Sim.guard _ _).bind fun _ _ => ?_
  refine Sim.given (Q := 1700 ≤ key ∧ key < 2000) (fun p h => ?_) fun ⟨h1, h2⟩ => ?_
  · have := h.2
    have h3 := Dev.maxResidentKeys_le
    simp only [Bool.and_eq_true, decide_eq_true_eq] at this
    omega
  refine (Sim.find _ key).bind fun o q => ?_
  refine Sim.given (Q := ∃ m, Holds m q ∧ o = m key) (fun p ⟨_, a1, m, a2, a3⟩ => ⟨m, by rw [a1]; exact a2, a3⟩) fun ⟨m, a2, a3⟩ => ?_
  subst a3
  refine Sim.weaken (P := fun p => p = q) ?_ (fun p h => h.2.1.symm) fun _ _ _ h => h
  cases hl : q.creds.lookup key with
  | none =>
    have hm : m key = none := by
      cases hm : m key with
      | none => rfl
      | some b =>
        obtain ⟨c, hc⟩ := a2.creds.only key h1 h2 (by rw [hm]; simp)
        exact absurd hc (lookup_none hl c)
    rw [hm]
    exact Sim.fail _
  | some c =>
    obtain ⟨_, _, _, mk, b, a4, a5, a6⟩ := a2.creds.stored _ (lookup_mem hl)
    dsimp only at a5 a6
    rw [a5]
    refine (Sim.req (R := fun a b' p => a = b ∧ b' = c ∧ p = q) _ (by simp) fun a b' ha hb' p hp => ?_).bind fun a b' => ?_
    · cases ha; cases hb'; exact ⟨rfl, rfl, hp⟩
    refine Sim.given (Q := a = b ∧ b' = c) (fun p h => ⟨h.1, h.2.1⟩) fun ⟨e1, e2⟩ => ?_
    subst e1 e2
    refine (sim_masterKeys hF _).bind fun mk' _ => ?_
    refine Sim.given (Q := mk' = mk) ?_ fun e => ?_
    · rintro _ ⟨rfl, _, p, ⟨_, _, rfl⟩, _, h⟩
      rcases h with h | h <;> rw [a4] at h <;> cases h
      rfl
    subst e
    rw [a6]
    exact Sim.pure fun _ _ => rfl

/-- Encoding a credential. -/
theorem sim_serialize {P : Persist → Prop} {c : Cred} (hc : IsCred c) (mk : Bytes) :
    Sim F P (serializeCredential mk c) (rng 16) fun b _ p => P p ∧ deserializeCredential (Ctap.encKey mk) b = some c := by
  intro x t hx hp
  obtain ⟨w, hw⟩ := encrypt_sk (Ctap.encKey mk) ((List.range 16).map (x.rnd x.n)) hc.sk
  obtain ⟨v, b, h1, h2, h3⟩ := cred_roundtrip hc (by simp) hw
  have h4 : serializeCredential mk c x = (.ok b, { x with n := x.n + 1 }) := by
    unfold serializeCredential
    rw [bind_eq]
    simp only [Disk.draw, hw, h1, h2]
    rfl
  rw [h4]
  refine ⟨fun a' x' e => ?_, fun _ _ h => (nomatch h), fun _ _ h => (nomatch h), fun _ h => (nomatch h)⟩
  cases e
  exact ⟨calm, _, _, rfl, hx, hp, h3⟩

theorem sim_storeCredential (hF : F.supported) {c : Cred} (hc : IsCred c) :
    Sim F (fun _ => True) (storeCredential F c) (Ctap.storeCredential c) Same := by
  unfold storeCredential Ctap.storeCredential
  refine (sim_iterCredentials hF fun _ => True).bind fun a b => ?_
  refine Sim.given (Q := a = b) (fun _ h => h.1) fun hab => ?_
  subst hab
  refine (Sim.liftE _).bind fun k k' => ?_
  refine Sim.given (Q := k = k' ∧ 1700 ≤ k ∧ k < 2000) (fun p h => ?_) fun ⟨e, h1, h2⟩ => ?_
  · have h1 := Ctap.chooseSlot_ok h.2.2
    have h2 := Dev.maxResidentKeys_le
    have h3 : Ctap.CREDENTIALS_START = 1700 := rfl
    exact ⟨h.2.1, by omega, by omega⟩
  subst e
  refine (sim_masterKeys hF _).bind fun mk _ => ?_
  refine ((sim_serialize hc mk).weaken (P' := fun p => p.master = some mk) (fun p h => h) fun _ _ _ h => h).weaken (fun p h => h.2.1)
    (fun _ _ _ h => h) |>.bind fun v _ => ?_
  exact (Sim.insert (P := fun p => p.master = some mk ∧ deserializeCredential (Ctap.encKey mk) v = some c) hF k v _ _
    fun m p h hp => h.putCred h1 h2 hp.1 hc hp.2).weaken (fun _ h => h) fun _ _ _ _ => rfl

theorem sim_deleteCredential (hF : F.supported) (id : Bytes) : Sim F (fun _ => True) (deleteCredential F id) (Ctap.deleteCredential id) Same := by
  unfold deleteCredential Ctap.deleteCredential
  refine (sim_findCredentialItem hF id).bind fun e e' => Sim.holds ?_
  refine Sim.given (Q := e = e' ∧ 1700 ≤ e.1 ∧ e.1 < 2000) (fun p ⟨⟨a1, a2⟩, m, h⟩ => ?_) fun ⟨a1, a2, a3⟩ => ?_
  · exact ⟨a1, (h.creds.stored e a2).1, (h.creds.stored e a2).2.1⟩
  subst a1
  exact (Sim.remove (P := fun _ => True) hF e.1 _ _ fun _ _ h _ => h.delCred a2 a3).weaken (fun _ _ => trivial) fun _ _ _ _ => rfl

theorem sim_updateCredential (hF : F.supported) (id : Bytes) {name displayName icon : Option Bytes} (h1 : ∀ b, name = some b → IsString b)
    (h2 : ∀ b, displayName = some b → IsString b) (h3 : ∀ b, icon = some b → IsString b) :
    Sim F (fun _ => True) (updateCredential F id name displayName icon) (Ctap.updateCredential id name displayName icon) Same := by
  unfold updateCredential Ctap.updateCredential
  refine (sim_findCredentialItem hF id).bind fun e e' => Sim.holds ?_
  refine Sim.given (Q := e = e' ∧ 1700 ≤ e.1 ∧ e.1 < 2000 ∧ IsCred e.2) (fun p ⟨⟨a1, a2⟩, m, h⟩ => ?_) fun ⟨a1, a2, a3, a4⟩ => ?_
  · exact ⟨a1, (h.creds.stored e a2).1, (h.creds.stored e a2).2.1, (h.creds.stored e a2).2.2.1⟩
  subst a1
  have hc : IsCred { e.2 with userName := name, userDisplayName := displayName, userIcon := icon } :=
    ⟨a4.id, a4.sk, a4.rpId, a4.userHandle, h2, a4.order, h1, h3, a4.credBlob, a4.largeBlobKey⟩
  refine (sim_masterKeys hF _).bind fun mk _ => ?_
  refine ((sim_serialize hc mk).weaken (P' := fun p => p.master = some mk) (fun p h => h) fun _ _ _ h => h).weaken (fun p h => h.2.1)
    (fun _ _ _ h => h) |>.bind fun v _ => ?_
  exact (Sim.insert (P := fun p => p.master = some mk ∧ deserializeCredential (Ctap.encKey mk) v = some _) hF e.1 v _ _
    fun m p h hp => h.putCred a2 a3 hp.1 hc hp.2).weaken (fun _ h => h) fun _ _ _ _ => rfl

/-- Every call. -/
theorem sim_call (hF : F.supported) (hT : TypedConfig) (c : Call α) (hc : c.Typed) : Sim F (fun _ => True) (c.onDisk F) c.onData Same := by
  cases c with
  | masterKeys => exact (sim_masterKeys hF _).weaken (fun _ h => h) fun _ _ _ h => h.1
  | iterCredentials => exact (sim_iterCredentials hF _).weaken (fun _ h => h) fun _ _ _ h => h.1
  | getCredential k => exact sim_getCredential hF k
  | findCredentialItem id => exact (sim_findCredentialItem hF id).weaken (fun _ h => h) fun _ _ _ h => h.1
  | findCredential r id => exact sim_findCredential hF r id
  | storeCredential c => exact sim_storeCredential hF hc
  | deleteCredential id => exact sim_deleteCredential hF id
  | updateCredential id n d i => exact sim_updateCredential hF id hc.1 hc.2.1 hc.2.2
  | countCredentials => exact (sim_countCredentials hF _).weaken (fun _ h => h) fun _ _ _ h => h.1
  | remainingCredentials => exact sim_remainingCredentials hF
  | newCreationOrder => exact sim_newCreationOrder hF
  | signatureCounter => exact sim_signatureCounter.weaken (fun _ h => h) fun _ _ _ h => h.1
  | incrSignatureCounter n => exact sim_incrSignatureCounter hF n
  | pinHash => exact sim_pinHash
  | pinCodePointLength => exact sim_pinCodePointLength
  | setPin h n => exact sim_setPin hF hc.1 hc.2
  | pinRetries => exact sim_pinRetries.weaken (fun _ h => h) fun _ _ _ h => h.1
  | decrPinRetries => exact sim_decrPinRetries hF
  | resetPinRetries => exact sim_resetPinRetries hF
  | minPinLength => exact sim_minPinLength
  | setMinPinLength n => exact sim_setMinPinLength hF hc
  | minPinLengthRpIds => exact sim_minPinLengthRpIds
  | setMinPinLengthRpIds ids => exact sim_setMinPinLengthRpIds hF hT hc.1 hc.2
  | getLargeBlobArray a b => exact sim_getLargeBlobArray hF a b
  | commitLargeBlobArray b => exact sim_commitLargeBlobArray hF hc
  | reset => exact sim_reset hF
  | hasForcePinChange => exact sim_hasForcePinChange.weaken (fun _ h => h) fun _ _ _ h => h.1
  | forcePinChange => exact sim_forcePinChange hF
  | enterpriseAttestation => exact sim_enterprise.weaken (fun _ h => h) fun _ _ _ h => h.1
  | attestationGet => exact sim_attestationGet.weaken (fun _ h => h) fun _ _ _ h => h.1
  | attestationSet a => exact sim_attestationSet hF hc
  | enableEnterpriseAttestation => exact sim_enableEnterpriseAttestation hF
  | hasAlwaysUv => exact sim_hasAlwaysUv
  | toggleAlwaysUv => exact sim_toggleAlwaysUv hF

end Verif.Disk
