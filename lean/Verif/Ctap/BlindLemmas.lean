import Verif.Ctap.BlindLogic
import Verif.Ctap.PropsKey
import Verif.Ctap.LiveLemmas

/-!
# No function outside credential management looks at hidden credentials
-/
namespace Verif.Ctap
set_option linter.unusedSectionVars false
variable [Dev] {H : Cred → Prop} {K : List Nat}

/-! ## User presence, key store -/

instance (n : Nat) : Same H K (presenceLoop n) := by
  induction n with
  | zero => unfold presenceLoop; same
  | succ n ih => unfold presenceLoop; same
instance : Same H K checkPresence := by unfold checkPresence; same
instance : Same H K checkPresenceE := by unfold checkPresenceE; same
instance (r : Verif.Crypto.WrapRes) : Same H K (liftWrap r) := by cases r <;> (unfold liftWrap; same)
instance (p : Bytes) (e : Bool) : Same H K (drawIv p e) := by unfold drawIv; same
instance (k p : Bytes) (e : Bool) : Same H K (aesEncrypt k p e) := by unfold aesEncrypt; same
instance : Same H K getMasterKeys := by unfold getMasterKeys; same
instance (k sk : Bytes) : Same H K (skToCbor k sk) := by unfold skToCbor; same
instance (c : CredSource) : Same H K (wrapCredential c) := by unfold wrapCredential; same
instance (b h : Bytes) : Same H K (unwrapCredential b h) := by unfold unwrapCredential; same
instance (u : Bool) : Same H K (credRandom u) := by unfold credRandom; same
instance : Same H K newSk := by unfold newSk; same

/-! ## Storage -/

instance : Same H K signatureCounter := by unfold signatureCounter; same
instance (n : Nat) : Same H K (incrSignatureCounter n) := by unfold incrSignatureCounter; same
instance : Same H K pinHash := by unfold pinHash; same
instance : Same H K pinCodePointLength := by unfold pinCodePointLength; same
instance (b : Bytes) (n : Nat) : Same H K (setPin b n) := by unfold setPin; same
instance : Same H K pinRetries := by unfold pinRetries; same
instance : Same H K decrPinRetries := by unfold decrPinRetries; same
instance : Same H K resetPinRetries := by unfold resetPinRetries; same
instance : Same H K minPinLength := by unfold minPinLength; same
instance (n : Nat) : Same H K (setMinPinLength n) := by unfold setMinPinLength; same
instance : Same H K minPinLengthRpIds := by unfold minPinLengthRpIds; same
instance (l : List Bytes) : Same H K (setMinPinLengthRpIds l) := by unfold setMinPinLengthRpIds; same
instance (a b : Nat) : Same H K (getLargeBlobArray a b) := by unfold getLargeBlobArray; same
instance (b : Bytes) : Same H K (commitLargeBlobArray b) := by unfold commitLargeBlobArray; same
instance : Same H K hasForcePinChange := by unfold hasForcePinChange; same
instance : Same H K forcePinChange := by unfold forcePinChange; same
instance : Same H K enterpriseAttestation := by unfold enterpriseAttestation; same
instance : Same H K attestationGet := by unfold attestationGet; same
instance : Same H K enableEnterpriseAttestation := by unfold enableEnterpriseAttestation; same
instance : Same H K hasAlwaysUv := by unfold hasAlwaysUv; same
instance : Same H K toggleAlwaysUv := by unfold toggleAlwaysUv; same

/-! ## PIN -/

instance (pr : Proto) : Same H K (regenerate pr) := by unfold regenerate; same
instance (pr : Proto) : Same H K (resetToken pr) := by unfold resetToken; same
instance (s : SharedSecret) (b : Bytes) : Same H K (s.encrypt b) := by unfold SharedSecret.encrypt; same
instance (pr : Proto) (k : CoseKey) : Same H K (getSharedSecret pr k) := by unfold getSharedSecret; same
instance : Same H K PinProtocol.fresh := by unfold PinProtocol.fresh; same
instance : Same H K ClientPin.fresh := by unfold ClientPin.fresh; same
instance (s : SharedSecret) (b : Bytes) : Same H K (checkAndStoreNewPin s b) := by unfold checkAndStoreNewPin; same
instance (a b : Bytes) : Same H K (comparePin a b) := by unfold comparePin; same
instance (pr : Proto) (s : SharedSecret) (b : Bytes) : Same H K (verifyPinHashEnc pr s b) := by
  unfold verifyPinHashEnc; same
instance : Same H K processGetPinRetries := by unfold processGetPinRetries; same
instance (pr : Proto) : Same H K (processGetKeyAgreement pr) := by unfold processGetKeyAgreement; same
instance (a : PinParams) : Same H K (processSetPin a) := by unfold processSetPin; same
instance (a : PinParams) : Same H K (processChangePin a) := by unfold processChangePin; same
instance (a : PinParams) : Same H K (processGetPinToken a) := by unfold processGetPinToken; same
instance (a : PinParams) : Same H K (processGetPinTokenWithPermissions a) := by
  unfold processGetPinTokenWithPermissions; same
instance : Same H K logIssued := by unfold logIssued; same
instance (a : PinParams) : Same H K (clientPinCommand a) := by unfold clientPinCommand; same
instance (m p : Bytes) (pr : Proto) : Same H K (verifyToken m p pr) := by unfold verifyToken; same
instance : Same H K resetClientPin := by unfold resetClientPin; same
instance (i : HmacSecretInput) (c : Bytes) : Same H K (processHmacSecret i c) := by unfold processHmacSecret; same
instance : Same H K clearTokenFlags := by unfold clearTokenFlags; same
instance : Same H K updateTimeouts := by unfold updateTimeouts; same
instance : Same H K checkUserVerified := by unfold checkUserVerified; same
instance (p : UInt8) : Same H K (hasPermission p) := by unfold hasPermission; same
instance : Same H K hasNoRpIdPermission := by unfold hasNoRpIdPermission; same
instance (r : Bytes) : Same H K (hasNoOrRpIdPermission r) := by unfold hasNoOrRpIdPermission; same
instance (r : Bytes) : Same H K (hasNoOrRpIdHashPermission r) := by unfold hasNoOrRpIdHashPermission; same
instance (r : Bytes) : Same H K (ensureRpIdPermission r) := by unfold ensureRpIdPermission; same

/-! ## Stateful commands -/


/-! ## Commands -/

instance (v : Option CVal) : Same H K (cborWriteM v) := by cases v <;> (unfold cborWriteM; same)
instance : Same H K incrementGlobalCounter := by unfold incrementGlobalCounter; same
instance (h : Bytes) (f : UInt8) : Same H K (generateAuthData h f) := by unfold generateAuthData; same
instance (p : Option Bytes) (pr : Option Proto) : Same H K (authPrecheck p pr) := by unfold authPrecheck; same
instance (u : UInt8) (a b c : Bytes) (pr : Option Proto) : Same H K (checkTokenFor u a b c pr) := by
  unfold checkTokenFor; same
instance (a : McParams) : Same H K (mcEnterprise a) := by unfold mcEnterprise; same
instance (a : McParams) : Same H K (mcWithoutParam a) := by unfold mcWithoutParam; same
instance (a : McParams) : Same H K (mcAuth a) := by unfold mcAuth; same
instance (a : McParams) : Same H K (mcMinPin a) := by unfold mcMinPin; same
instance (a : McParams) : Same H K (mcLargeBlobKey a) := by unfold mcLargeBlobKey; same
instance (b : Bool) : Same H K (mcMinPinOutput b) := by unfold mcMinPinOutput; same
instance (a : McParams) (b : Bool) : Same H K (mcExtOutput a b) := by unfold mcExtOutput; same
instance (a : McParams) (b : Bool) (x y : Bytes) : Same H K (mcAuthData a b x y) := by unfold mcAuthData; same
instance (b : Bool) (x y : Bytes) : Same H K (mcSign b x y) := by unfold mcSign; same
instance (a : Bytes) (b : Bool) : Same H K (generateCredRandom a b) := by unfold generateCredRandom; same
instance (c : Cred) (i : AssertionInput) : Same H K (gaHmacSecret c i) := by unfold gaHmacSecret; same
instance (c : Cred) (i : AssertionInput) : Same H K (gaExtOutput c i) := by unfold gaExtOutput; same
instance (c : Cred) (i : AssertionInput) (n : Option Nat) : Same H K (assertionResponse c i n) := by
  unfold assertionResponse; same
instance (a : GaParams) : Same H K (gaWithoutParam a) := by unfold gaWithoutParam; same
instance (a : GaParams) : Same H K (gaAuth a) := by unfold gaAuth; same
instance (a : GaParams) : Same H K (gaPresence a) := by unfold gaPresence; same
instance : Same H K infoEp := by unfold infoEp; same
instance : Same H K selection := by unfold selection; same
instance : Same H K configEnableEp := by unfold configEnableEp; same
instance (b : Bool) : Same H K (configCheckForce b) := by unfold configCheckForce; same
instance (a : MinPinParams) : Same H K (configSetMinPin a) := by unfold configSetMinPin; same
instance (a : ConfigSub) : Same H K (configEnforceUv a) := by unfold configEnforceUv; same
instance (a : ConfigParams) : Same H K (configAuthData a) := by unfold configAuthData; same
instance (a : ConfigParams) : Same H K (configAuth a) := by unfold configAuth; same
instance (a : ConfigParams) : Same H K (configDispatch a) := by unfold configDispatch; same
instance (a : ConfigParams) : Same H K (configCommand a) := by unfold configCommand; same
instance (a : LbParams) (n : Nat) : Same H K (lbGet a n) := by unfold lbGet; same
instance (a : LbParams) : Same H K (lbStart a) := by unfold lbStart; same
instance : Same H K lbNeedsAuth := by unfold lbNeedsAuth; same
instance (a : LbParams) (b : Bytes) : Same H K (lbAuth a b) := by unfold lbAuth; same
instance : Same H K lbComplete := by unfold lbComplete; same
instance (a : LbParams) (b : Bytes) : Same H K (lbAppend a b) := by unfold lbAppend; same
instance (a : LbParams) (b : Bytes) : Same H K (lbSet a b) := by unfold lbSet; same
instance (a : LbParams) : Same H K (largeBlobsCommand a) := by unfold largeBlobsCommand; same

/-! ## U2F -/

instance (a b c d : Bytes) (e : Attestation) : Same H K (u2fRegisterResponse a b c d e) := by
  unfold u2fRegisterResponse; same
instance : Same H K u2fAttestation := by unfold u2fAttestation; same
instance (a b : Bytes) : Same H K (u2fRegister a b) := by unfold u2fRegister; same
instance (a b c : Bytes) : Same H K (u2fSign a b c) := by unfold u2fSign; same
instance (a b c : Bytes) (f : U2fFlags) : Same H K (u2fAuthenticate a b c f) := by unfold u2fAuthenticate; same
instance : Same H K consumeUp := by
  have (t : Nat) : Same H K (modV fun v => { v with u2f := (v.u2f.consume t).2 }) := Same.u2f _
  unfold consumeUp; same
instance (f : U2fFlags) : Same H K (u2fCheckUp f) := by unfold u2fCheckUp; same
instance (c : U2fCommand) : Same H K (u2fDispatch c) := by unfold u2fDispatch; same
instance (m : Bytes) : Same H K (u2fCommand m) := by unfold u2fCommand; same


/-! ## Stateful commands -/

instance : Same H K (modSp fun _ => StatefulPerm.cleared) := Same.modSpE (by simp [StatefulPerm.cleared])
instance : Same H K getCommand := by
  have (t : Nat) : Same H K (modSp fun sp => sp.clearTimer t) := by
    refine Same.modSpE fun sp inp keys h => ?_
    unfold StatefulPerm.clearTimer at h
    split at h
    · simp [StatefulPerm.cleared] at h
    · exact h
  unfold getCommand; same
theorem Same.setCommand (inp : AssertionInput) (keys : List Nat) (ch : Channel) (h : ∀ k ∈ keys, k ∈ K) :
    Same H K (setCommand (.getAssertion inp keys) ch) := by
  unfold Ctap.setCommand
  refine Same.bindE inferInstance fun t => ?_
  unfold modSp
  refine Same.modVE fun v _ inp' keys' hc => ?_
  simp only [Option.some.injEq, Stateful.getAssertion.injEq] at hc
  obtain ⟨rfl, rfl⟩ := hc
  exact h
theorem Same.gaRemember (inp : AssertionInput) (keys : List Nat) (ch : Channel) (h : ∀ k ∈ keys, k ∈ K) :
    Same H K (gaRemember inp keys ch) := by
  unfold Ctap.gaRemember
  cases keys with
  | nil => infer_instance
  | cons k l =>
    have := Same.setCommand (H := H) inp (k :: l) ch h
    same
/-- The next key of a login that is under way is one of the known ones. -/
theorem Sim.nextAssertion : Sim H K (fun a b => a = b ∧ a.2 ∈ K) nextAssertionCredential nextAssertionCredential := by
  intro s1 s2 hs
  have h0 := (inferInstance : Same H K getCommand).out s1 s2 hs
  have hb (s : St) : nextAssertionCredential s = M.bind getCommand (fun c => match c with
    | some (.getAssertion inp keys) => do
      let k ← req keys.getLast? .notAllowed
      modSp fun sp => { sp with cmd := some (.getAssertion inp keys.dropLast) }
      M.pure (inp, k)
    | _ => fail .notAllowed) s := rfl
  rw [hb, hb, M.bind, M.bind]
  rw [getCommand_run, getCommand_run] at h0 ⊢
  obtain ⟨h1, h2⟩ := h0
  simp only [RelRes] at h1
  rw [← h1]
  dsimp only at h2 ⊢
  have hh := h2.held
  cases hc : (s1.v.sp.clearTimer s1.env.now).cmd with
  | none => exact ⟨rfl, h2⟩
  | some c =>
    cases c with
    | getAssertion inp keys =>
      have hK : ∀ k ∈ keys, k ∈ K := hh inp keys hc
      cases hk : keys.getLast? with
      | none => simp only [hk]; exact ⟨rfl, h2⟩
      | some k =>
        simp only [hk]
        have : Same H K (modSp fun sp => { sp with cmd := some (.getAssertion inp keys.dropLast) }) := by
          unfold modSp
          refine Same.modVE fun v _ inp' keys' hc => ?_
          simp only [Option.some.injEq, Stateful.getAssertion.injEq] at hc
          obtain ⟨rfl, rfl⟩ := hc
          exact fun k hk => hK k (List.dropLast_subset _ hk)
        have h3 := this.out _ _ h2
        exact ⟨⟨rfl, hK k (List.mem_of_getLast? hk)⟩, h3.2⟩
    | _ => exact ⟨rfl, h2⟩

/-! ## Credentials -/

theorem Orderly.filter {l : List (Nat × Cred)} (h : Orderly l) (f : Nat × Cred → Bool) : Orderly (l.filter f) where
  slots := h.slots.sublist (List.filter_sublist.map _)
  ids := h.ids.sublist (List.filter_sublist.map _)
  orders := h.orders.sublist (List.filter_sublist.map _)
  room := Nat.le_trans (List.length_filter_le _ _) h.room

theorem Orderly.perm {l l' : List (Nat × Cred)} (h : Orderly l) (hp : l'.Perm l) : Orderly l' where
  slots := h.slots.perm (hp.symm.map _)
  ids := h.ids.perm (hp.symm.map _)
  orders := h.orders.perm (hp.symm.map _)
  room := by rw [hp.length_eq]; exact h.room

theorem Compat.perm {l1 l2 m1 m2 : List (Nat × Cred)} (h : Compat H K l1 l2) (h1 : m1.Perm l1) (h2 : m2.Perm l2) :
    Compat H K m1 m2 where
  visible k c hc := by rw [h1.mem_iff, h2.mem_iff]; exact h.visible k c hc
  wf1 := h.wf1.perm h1
  wf2 := h.wf2.perm h2
  look k hk c := by rw [h1.mem_iff, h2.mem_iff]; exact h.look k hk c
  full k c hm hc := h.full k c (h1.mem_iff.1 hm) hc

theorem Compat.filterSlots {l1 l2 : List (Nat × Cred)} (h : Compat H K l1 l2) (f : Nat → Bool) :
    Compat H K (l1.filter fun e => f e.1) (l2.filter fun e => f e.1) where
  visible k c hc := by simp only [List.mem_filter]; rw [h.visible k c hc]
  wf1 := h.wf1.filter _
  wf2 := h.wf2.filter _
  look k hk c := by simp only [List.mem_filter]; rw [h.look k hk c]
  full k c hm hc := h.full k c (List.mem_filter.1 hm).1 hc

/-- An element of a list is determined by a key that differs between elements. -/
theorem eq_of_map_nodup {f : α → β} : ∀ {l : List α}, (l.map f).Nodup → ∀ {a b : α}, a ∈ l → b ∈ l → f a = f b → a = b
  | [], _, _, _, h, _, _ => absurd h (by simp)
  | x :: l, h, a, b, ha, hb, e => by
    rw [List.map_cons, List.nodup_cons] at h
    rcases List.mem_cons.1 ha with rfl | ha1 <;> rcases List.mem_cons.1 hb with rfl | hb1
    · rfl
    · exact absurd (List.mem_map.2 ⟨b, hb1, e.symm⟩) h.1
    · exact absurd (List.mem_map.2 ⟨a, ha1, e⟩) h.1
    · exact eq_of_map_nodup h.2 ha1 hb1 e

theorem nodup_of_map {f : α → β} {l : List α} (h : (l.map f).Nodup) : l.Nodup := by
  unfold List.Nodup at h ⊢
  rw [List.pairwise_map] at h
  exact h.imp fun hne e => hne (by rw [e])

theorem lookup_iff : ∀ {l : List (Nat × Cred)}, (l.map (·.1)).Nodup → ∀ {k : Nat} {c : Cred}, l.lookup k = some c ↔ (k, c) ∈ l
  | [], _, k, c => by simp
  | (k', c') :: l, h, k, c => by
    rw [List.map_cons, List.nodup_cons] at h
    rw [List.lookup_cons]
    by_cases hk : k = k'
    · subst hk
      simp only [beq_self_eq_true, Option.some.injEq, List.mem_cons, Prod.mk.injEq, true_and]
      constructor
      · exact fun h => .inl h.symm
      · rintro (h1 | h1)
        · exact h1.symm
        · exact absurd (List.mem_map.2 ⟨_, h1, rfl⟩) h.1
    · have : (k == k') = false := by simp [hk]
      simp only [this, List.mem_cons, Prod.mk.injEq, hk, false_and, false_or]
      exact lookup_iff h.2

theorem Compat.lookup {l1 l2 : List (Nat × Cred)} (h : Compat H K l1 l2) {k : Nat} (hk : k ∈ K) :
    l1.lookup k = l2.lookup k := by
  apply Option.ext
  intro c
  rw [lookup_iff h.wf1.slots, lookup_iff h.wf2.slots]
  exact h.look k hk c

theorem Sim.iter : Sim H K (Compat H K) iterCredentials iterCredentials := by
  unfold iterCredentials
  refine Sim.bind (inferInstance : Same H K getMasterKeys).out fun _ _ _ => Sim.bind Sim.read fun p1 p2 ⟨_, hc⟩ => ?_
  refine Sim.effect fun s1 s2 hs => ?_
  exact hc.perm (Oracle.shuffle_perm _ _ _) (Oracle.shuffle_perm _ _ _)

theorem Same.getCredential {k : Nat} (hk : k ∈ K) : Same H K (getCredential k) := by
  unfold Ctap.getCredential
  refine Same.bindE inferInstance fun _ => ⟨Sim.bind Sim.read fun p1 p2 ⟨_, hc⟩ => ?_⟩
  rw [hc.lookup hk]
  exact Same.out (m := _ >>= _)

/-- The credential that `find_credential` finds in a list with different ids. -/
theorem find_in {l : List (Nat × Cred)} (h : (l.map (·.2.id)).Nodup) (id : Bytes) :
    (l.filter fun e => e.2.id == id) = [] ∨ ∃ e, (l.filter fun e => e.2.id == id) = [e] := by
  cases hl : l.filter fun e => e.2.id == id with
  | nil => exact .inl rfl
  | cons a t =>
    cases t with
    | nil => exact .inr ⟨a, rfl⟩
    | cons b t =>
      have hn : ((l.filter fun e => e.2.id == id).map (·.2.id)).Nodup := h.sublist (List.filter_sublist.map _)
      have ha : a ∈ l.filter fun e => e.2.id == id := by rw [hl]; simp
      have hb : b ∈ l.filter fun e => e.2.id == id := by rw [hl]; simp
      simp only [List.mem_filter, beq_iff_eq] at ha hb
      rw [hl] at hn
      simp [ha.2, hb.2] at hn

/-- What `find_credential` does with a list with different ids. -/
def found (rp id : Bytes) (l : List (Nat × Cred)) : Option Cred :=
  match l.filter fun e => e.2.id == id with
  | [e] => if e.2.rpId = rp then some e.2 else none
  | _ => none

theorem found_visible {l : List (Nat × Cred)} (h : Orderly l) (rp id : Bytes) (uv : Bool) (c : Cred) :
    (found rp id l).filter (fun c => listedOk c.policy uv) = some c ↔
      ∃ k, (k, c) ∈ l ∧ c.rpId = rp ∧ c.id = id ∧ VisibleById c.policy uv := by
  have hm : ∀ e, e ∈ (l.filter fun e => e.2.id == id) ↔ e ∈ l ∧ e.2.id = id := by simp
  unfold found
  rcases find_in h.ids id with h1 | ⟨e, h1⟩ <;> rw [h1] at hm ⊢
  · simp only [Option.filter_none, reduceCtorEq, false_iff]
    rintro ⟨k, h2, _, h3, _⟩
    exact absurd ((hm (k, c)).2 ⟨h2, h3⟩) (by simp)
  · have he := (hm e).1 (by simp)
    constructor
    · intro h2
      by_cases hr : e.2.rpId = rp
      · simp only [hr, if_true] at h2
        rw [Option.filter_eq_some_iff] at h2
        obtain ⟨h3, h4⟩ := h2
        cases h3
        exact ⟨e.1, he.1, hr, he.2, listedOk_iff.1 h4⟩
      · simp [hr] at h2
    · rintro ⟨k, h2, h3, h4, h5⟩
      have := (hm (k, c)).2 ⟨h2, h4⟩
      simp only [List.mem_singleton] at this
      subst this
      simp only [h3, if_true]
      rw [Option.filter_eq_some_iff]
      exact ⟨rfl, listedOk_iff.2 h5⟩

theorem Sim.find {rp id : Bytes} {uv : Bool}
    (hb : ∀ c, H c → c.rpId = rp → c.id = id → ¬ VisibleById c.policy uv) :
    Sim H K (fun a b => a.filter (fun c => listedOk c.policy uv) = b.filter (fun c => listedOk c.policy uv))
      (findCredential rp id) (findCredential rp id) := by
  unfold findCredential
  refine Sim.bind Sim.iter fun l1 l2 hc => ?_
  have key : (found rp id l1).filter (fun c => listedOk c.policy uv) = (found rp id l2).filter (fun c => listedOk c.policy uv) := by
    refine Option.ext fun c => ?_
    rw [found_visible hc.wf1, found_visible hc.wf2]
    constructor
    · rintro ⟨k, h1, h2, h3, h4⟩
      exact ⟨k, (hc.visible k c fun hH => hb c hH h2 h3 h4).1 h1, h2, h3, h4⟩
    · rintro ⟨k, h1, h2, h3, h4⟩
      exact ⟨k, (hc.visible k c fun hH => hb c hH h2 h3 h4).2 h1, h2, h3, h4⟩
  rcases find_in hc.wf1.ids id with h1 | ⟨e, h1⟩ <;> rcases find_in hc.wf2.ids id with h2 | ⟨e', h2⟩ <;>
    (simp only [found, h1, h2] at key ⊢; exact Sim.pure (by first | exact key | rfl))

/-- No hidden credential can be seen by one of these ids. -/
def Unlisted (H : Cred → Prop) (rp : Bytes) (uv : Bool) (l : List Descriptor) : Prop :=
  ∀ d ∈ l, ∀ c, H c → c.rpId = rp → c.id = d.id → ¬ VisibleById c.policy uv

theorem Same.isExcluded {rp id : Bytes} {uv : Bool} (hb : ∀ c, H c → c.rpId = rp → c.id = id → ¬ VisibleById c.policy uv) :
    Same H K (isExcluded rp id uv) := by
  unfold Ctap.isExcluded
  refine ⟨Sim.bind (Sim.find hb) fun a b hab => ?_⟩
  rw [hab]
  refine Same.out (m := _) (self := ?_)
  same

theorem Same.checkExcludeList {rp : Bytes} {uv : Bool} : ∀ {l : List Descriptor}, Unlisted H rp uv l →
    Same H K (checkExcludeList rp uv l)
  | [], _ => by unfold Ctap.checkExcludeList; same
  | d :: l, h => by
    have := Same.isExcluded (K := K) (h d (by simp))
    have := Same.checkExcludeList (l := l) fun d hd => h d (by simp [hd])
    unfold Ctap.checkExcludeList
    same

theorem Same.anyFromAllowList {rp : Bytes} {uv : Bool} : ∀ {l : List Descriptor}, Unlisted H rp uv l →
    Same H K (anyFromAllowList rp uv l)
  | [], _ => by unfold Ctap.anyFromAllowList; same
  | d :: l, h => by
    have := Same.anyFromAllowList (l := l) fun d hd => h d (by simp [hd])
    unfold Ctap.anyFromAllowList
    refine ⟨Sim.bind (Sim.find (h d (by simp))) fun a b hab => ?_⟩
    rw [hab]
    refine Same.out (m := _) (self := ?_)
    same

theorem visibleByRp_iff (c : Cred) (uv : Bool) : (uv || c.isDiscoverable) = true ↔ VisibleByRp c.policy uv := by
  cases uv <;> simp [Cred.isDiscoverable, VisibleByRp]

theorem discoverable_same {rp : Bytes} {uv : Bool} (hb : ∀ c, H c → c.rpId = rp → ¬ VisibleByRp c.policy uv)
    {l1 l2 : List (Nat × Cred)} (hc : Compat H K l1 l2) :
    discoverableKeys rp uv l1 = discoverableKeys rp uv l2 ∧ ∀ k ∈ discoverableKeys rp uv l1, k ∈ K := by
  let f : Nat × Cred → Bool := fun e => e.2.rpId == rp && (uv || e.2.isDiscoverable)
  have hf (e : Nat × Cred) : f e = true → ¬ H e.2 := by
    intro h hH
    simp only [f, Bool.and_eq_true, beq_iff_eq] at h
    exact hb _ hH h.1 ((visibleByRp_iff _ _).1 h.2)
  have hp : (l1.filter f).Perm (l2.filter f) := by
    rw [List.perm_ext_iff_of_nodup (nodup_of_map (hc.wf1.filter f).slots) (nodup_of_map (hc.wf2.filter f).slots)]
    rintro ⟨k, c⟩
    simp only [List.mem_filter]
    constructor
    · rintro ⟨h1, h2⟩; exact ⟨(hc.visible k c (hf _ h2)).1 h1, h2⟩
    · rintro ⟨h1, h2⟩; exact ⟨(hc.visible k c (hf _ h2)).2 h1, h2⟩
  constructor
  · unfold discoverableKeys
    congr 1
    refine List.Perm.eq_of_pairwise (le := fun a b : Nat × Cred => a.2.order ≤ b.2.order) ?_ (sortByOrder_sorted _)
      (sortByOrder_sorted _) ((sortByOrder_perm _).trans (hp.trans (sortByOrder_perm _).symm))
    intro a b ha hb h1 h2
    rw [(sortByOrder_perm _).mem_iff] at ha hb
    exact eq_of_map_nodup (hc.wf2.filter f).orders (hp.mem_iff.1 ha) hb (Nat.le_antisymm h1 h2)
  · intro k hk
    obtain ⟨c, h1, h2, h3⟩ := mem_discoverable.1 hk
    exact hc.full k c h1 fun hH => hb c hH h2 h3

theorem Sim.gaFind {a : GaParams} (hb : ∀ c, H c → ¬ a.Sees c) :
    Sim H K (fun x y => x = y ∧ ∀ k ∈ x.2, k ∈ K) (gaFindCredential a) (gaFindCredential a) := by
  unfold gaFindCredential GaParams.Sees at *
  cases hl : a.allowList with
  | some l =>
    simp only [hl] at hb ⊢
    have := Same.anyFromAllowList (H := H) (K := K) (rp := a.rpId) (uv := a.authParam.isSome) (l := l)
      fun d hd c hH h1 h2 h3 => hb c hH ⟨h1, ⟨d, hd, h2.symm⟩, h3⟩
    exact Sim.bind this.out fun x y hxy => by subst hxy; exact Sim.pure ⟨rfl, by simp⟩
  | none =>
    simp only [hl] at hb ⊢
    refine Sim.bind Sim.iter fun l1 l2 hc => ?_
    obtain ⟨h1, h2⟩ := discoverable_same (fun c hH h1 h2 => hb c hH ⟨h1, h2⟩) hc
    rw [← h1]
    generalize discoverableKeys a.rpId a.authParam.isSome l1 = keys at h2 ⊢
    have h3 : ∀ k ∈ keys.dropLast, k ∈ K := fun k hk => h2 k (List.dropLast_subset _ hk)
    cases hk : keys.getLast? with
    | none => exact Sim.pure ⟨rfl, h3⟩
    | some k =>
      have := Same.getCredential (H := H) (h2 k (List.mem_of_getLast? hk))
      exact Sim.bind this.out fun x y hxy => by subst hxy; exact Sim.pure ⟨rfl, h3⟩

theorem Same.getAssertion {a : GaParams} (hb : ∀ c, H c → ¬ a.Sees c) (ch : Channel) : Same H K (getAssertion a ch) := by
  unfold Ctap.getAssertion
  refine Same.bindE inferInstance fun _ => Same.bindE inferInstance fun _ => Same.bindE inferInstance fun _ =>
    ⟨Sim.bind (Sim.gaFind hb) ?_⟩
  rintro ⟨c, rest⟩ _ ⟨rfl, hr⟩
  have (inp : AssertionInput) := Same.gaRemember (H := H) inp rest ch hr
  refine Same.out (m := _) (self := ?_)
  same

theorem Same.makeCredential {a : McParams} (hk : a.options.rk = false) (hb : ∀ c, H c → ¬ a.Sees c) :
    Same H K (makeCredential a) := by
  have := Same.checkExcludeList (H := H) (K := K) (rp := a.rp.id) (uv := a.authParam.isSome) (l := a.excludeList.getD [])
    fun d hd c hH h1 h2 h3 => hb c hH ⟨h1, ⟨d, hd, h2.symm⟩, h3⟩
  have (sk : Bytes) (l : Option Bytes) : Same H K (mcCreate a sk l) := by
    unfold mcCreate; simp only [hk, Bool.false_eq_true, if_false]; same
  have (b : Bool) : Same H K (mcFinish a b) := by unfold mcFinish; same
  unfold Ctap.makeCredential; same

instance : Same H K getNextAssertion := by
  unfold getNextAssertion
  refine ⟨Sim.bind Sim.nextAssertion ?_⟩
  rintro ⟨inp, k⟩ _ ⟨rfl, hk⟩
  have := Same.getCredential (H := H) hk
  refine Same.out (m := _) (self := ?_)
  same

instance : Same H K resetStorage := by
  have : Same H K (writeP (Persist.clear NUM_PERSISTENT_KEYS) [.erased]) := by
    refine ⟨Sim.write fun p1 p2 hp hc => ?_⟩
    constructor
    · rw [hp]; rfl
    · exact hc.filterSlots fun k => k < NUM_PERSISTENT_KEYS
  unfold resetStorage; same

instance : Same H K resetCommand := by
  have : Same H K (modV fun v => { v with u2f := U2fUp.new }) := Same.u2f _
  unfold resetCommand; same

/-- The answers to `authenticatorGetInfo` differ only in the number of credentials for which there is room. -/
theorem Sim.getInfo : Sim H K (fun r r' => ∃ i n, r = .getInfo i ∧ r' = .getInfo { i with remaining := n }) getInfo getInfo := by
  have hr : Sim H K (fun _ _ => True) remainingCredentials remainingCredentials := by
    unfold remainingCredentials countCredentials
    refine Sim.bind (V := fun a b => a ≤ Dev.maxResidentKeys ∧ b ≤ Dev.maxResidentKeys)
      (Sim.bind Sim.read fun p1 p2 ⟨_, hc⟩ => Sim.pure ⟨hc.wf1.room, hc.wf2.room⟩) fun a b ⟨h1, h2⟩ => ?_
    simp only [h1, h2, if_true]
    exact Sim.pure trivial
  have hb {β : Type} {m : M β} {f g : β → M Response} {V : Response → Response → Prop} [h : Same H K m]
      (h2 : ∀ x, Sim H K V (f x) (g x)) : Sim H K V (m >>= f) (m >>= g) :=
    Sim.bind h.out fun a b hab => by subst hab; exact h2 a
  unfold Ctap.getInfo
  refine hb fun al => hb fun ep => hb fun h => hb fun f => hb fun m => Sim.bind hr fun r r' _ => ?_
  exact Sim.pure ⟨_, r', rfl, rfl⟩

/-! ## The state machine -/

theorem Held.of_cleared {v : Vol} {sp : StatefulPerm} (h : Held K v) (hs : sp = v.sp ∨ sp.cmd = none) (u : U2fUp) :
    Held K { v with u2f := u, sp := sp } := by
  rcases hs with rfl | hs
  · exact h
  · intro inp keys hc; simp [hs] at hc

instance (ch : Channel) : Same H K (clearOtherChannels ch) := by
  unfold clearOtherChannels
  refine Same.modVE fun v h => h.of_cleared ?_ _
  unfold StatefulPerm.clearOldChannels
  split
  · split
    · exact .inr rfl
    · exact .inl rfl
  · exact .inl rfl

theorem Same.fido {cmd : Command} (hb : cmd.Blind H) (hi : cmd ≠ .getInfo) (ch : Channel) : Same H K (fidoCommand ch cmd) := by
  cases cmd with
  | makeCredential a => exact Same.makeCredential hb.1 hb.2
  | getAssertion a => exact Same.getAssertion hb ch
  | getInfo => exact absurd rfl hi
  | credMgmt a => exact absurd hb id
  | _ => unfold fidoCommand; same

theorem Same.processParsed {cmd : Command} (hb : cmd.Blind H) (hi : cmd ≠ .getInfo) (ch : Channel) :
    Same H K (processParsed cmd ch) := by
  have : Same H K (channelCommand ch cmd) := by
    unfold channelCommand
    cases ch with
    | main cid => exact Same.fido hb hi _
    | vendor cid =>
      unfold vendorChannelCommand
      cases cmd with
      | getInfo => exact absurd rfl hi
      | _ => same
  unfold Ctap.processParsed; same

instance (r : Response) : Same H K (logCounter r) := by unfold logCounter; same
instance (r : Response) : Same H K (encodeResponse r) := by unfold encodeResponse; same
instance (r : Response) : Same H K (respond r) := by unfold respond; same

theorem Sim.errorByte {V : Bytes → Bytes → Prop} (hV : ∀ b, V b b) {m1 m2 : M Bytes} (h : Sim H K V m1 m2) :
    Sim H K V (errorByte m1) (errorByte m2) := by
  intro s1 s2 hs
  obtain ⟨h3, h4⟩ := h s1 s2 hs
  simp only [Ctap.errorByte]
  rcases e1 : m1 s1 with ⟨r1, t1⟩
  rcases e2 : m2 s2 with ⟨r2, t2⟩
  rw [e1, e2] at h3 h4
  cases r1 <;> cases r2 <;> simp only [RelRes] at h3
  · exact ⟨h3, h4⟩
  · subst h3; exact ⟨hV _, h4⟩
  · exact ⟨trivial, h4⟩
  · exact ⟨trivial, h4⟩

/-- The bytes of two answers to `authenticatorGetInfo`. -/
def InfoAlike (b b' : Bytes) : Prop := b = b' ∨ ∃ (r : InfoResponse) (n : Nat) (v v' : Verif.Cbor.Value) (e e' : Bytes),
  r.toCbor = some v ∧ v.write (some 4) = .ok e ∧ { r with remaining := n }.toCbor = some v' ∧ v'.write (some 4) = .ok e' ∧
  b = 0x00 :: e ∧ b' = 0x00 :: e'

theorem Sim.respondInfo (r : InfoResponse) (n : Nat) :
    Sim H K InfoAlike (respond (.getInfo r)) (respond (.getInfo { r with remaining := n })) := by
  have he (r : InfoResponse) : ∃ v e, r.toCbor = some v ∧ v.write (some 4) = .ok e ∧
      encodeResponse (.getInfo r) = M.pure (0x00 :: e) := by
    obtain ⟨o, ho, h⟩ := encodeResponse_eq (.getInfo r)
    obtain ⟨v, hv⟩ := InfoResponse.toCbor_some r
    simp only [Response.toCbor, hv, Option.map_some, Option.some.injEq] at ho
    subst ho
    obtain ⟨e, h1, h2⟩ := h
    refine ⟨v, e, hv, ?_, funext fun s => h2 s⟩
    unfold cborWrite at h1
    split at h1
    · rename_i he; cases h1; exact he
    · cases h1
  obtain ⟨v, e, h1, h2, h3⟩ := he r
  obtain ⟨v', e', h1', h2', h3'⟩ := he { r with remaining := n }
  have hr (r : InfoResponse) (b : Bytes) (h : encodeResponse (.getInfo r) = M.pure b) :
      respond (.getInfo r) = (Ctap.effect (fun _ => Res.ok ()) >>= fun _ => M.pure b) := by
    unfold respond; rw [h]; rfl
  rw [hr _ _ h3, hr _ _ h3']
  exact Sim.bind (inferInstance : Same H K (Ctap.effect fun _ => Res.ok ())).out fun _ _ _ =>
    Sim.pure (.inr ⟨r, n, v, v', e, e', h1, h2, h1', h2', rfl, rfl⟩)

theorem Sim.parsedInfo (ch : Channel) : Sim H K (fun r r' => ∃ i n, r = .getInfo i ∧ r' = .getInfo { i with remaining := n })
    (processParsed .getInfo ch) (processParsed .getInfo ch) := by
  have hc : Sim H K (fun r r' => ∃ i n, r = .getInfo i ∧ r' = .getInfo { i with remaining := n })
      (channelCommand ch .getInfo) (channelCommand ch .getInfo) := by
    cases ch <;> exact Sim.getInfo
  have hb {β : Type} {m : M β} {f g : β → M Response} {V : Response → Response → Prop} (h : Same H K m)
      (h2 : ∀ x, Sim H K V (f x) (g x)) : Sim H K V (m >>= f) (m >>= g) :=
    Sim.bind h.out fun a b hab => by subst hab; exact h2 a
  unfold Ctap.processParsed
  exact hb inferInstance fun _ => hb inferInstance fun _ => hb inferInstance fun _ => hb inferInstance fun _ => hc

theorem Sim.commandInfo (ch : Channel) {msg : Bytes} (hm : Command.deserialize msg = .ok .getInfo) :
    Sim H K InfoAlike (processCommand ch msg) (processCommand ch msg) := by
  unfold processCommand
  simp only [hm]
  refine Sim.errorByte (fun b => .inl rfl) (Sim.bind (Sim.parsedInfo ch) ?_)
  rintro _ _ ⟨i, n, rfl, rfl⟩
  exact Sim.respondInfo i n

theorem Same.command (ch : Channel) {msg : Bytes} (hb : ∀ cmd, Command.deserialize msg = .ok cmd → cmd.Blind H)
    (hi : Command.deserialize msg ≠ .ok .getInfo) : Same H K (processCommand ch msg) := by
  unfold processCommand
  cases hm : Command.deserialize msg with
  | error e => infer_instance
  | ok cmd =>
    have := Same.processParsed (K := K) (hb cmd hm) (fun h => hi (by rw [hm, h])) ch
    refine ⟨Sim.errorByte (fun _ => rfl) ?_⟩
    exact (inferInstance : Same H K (Ctap.processParsed cmd ch >>= fun r => respond r)).out

instance (m : Bytes) : Same H K (processU2f m) := by unfold processU2f; same
instance : Same H K touchButton := by
  have (t : Nat) : Same H K (modV fun v => { v with u2f := v.u2f.grant t }) := Same.u2f _
  unfold touchButton; same

/-- One input, on two devices that differ in hidden credentials. -/
theorem step_alike {i : Input} (hb : i.Blind H) {s1 s2 : St} (hs : Rel H K s1 s2) :
    SameAnswer i (stepM i s1).1 (stepM i s2).1 ∧ Rel H K (stepM i s1).2 (stepM i s2).2 := by
  have hs1 (h : Same H K (stepM i)) : SameAnswer i (stepM i s1).1 (stepM i s2).1 ∧ Rel H K (stepM i s1).2 (stepM i s2).2 := by
    obtain ⟨h1, h2⟩ := h.out _ _ hs
    refine ⟨?_, h2⟩
    rw [h1.eq]
    exact .same _
  cases i with
  | ctap2 ch msg =>
    by_cases hi : Command.deserialize msg = .ok .getInfo
    · have h0 : Sim H K (fun r r' => ∃ b b', r = .ctap2 b ∧ r' = .ctap2 b' ∧ InfoAlike b b')
          (stepM (.ctap2 ch msg)) (stepM (.ctap2 ch msg)) := by
        unfold stepM
        exact Sim.bind (Sim.commandInfo ch hi) fun b b' h => Sim.pure ⟨b, b', rfl, rfl, h⟩
      obtain ⟨h1, h2⟩ := h0 _ _ hs
      refine ⟨?_, h2⟩
      cases e1 : (stepM (.ctap2 ch msg) s1).1 <;> cases e2 : (stepM (.ctap2 ch msg) s2).1 <;> simp only [e1, e2, RelRes] at h1
      · obtain ⟨b, b', rfl, rfl, rfl | ⟨r, n, v, v', e, e', h3, h4, h5, h6, rfl, rfl⟩⟩ := h1
        · exact .same _
        · exact .info r n v v' e e' hi h3 h4 h5 h6
      · subst h1; exact .same _
      · exact .same _
      · exact .same _
    · refine hs1 ?_
      have := Same.command (K := K) ch hb hi
      unfold stepM; same
  | ctap1 m => refine hs1 ?_; unfold stepM; same
  | touch => refine hs1 ?_; unfold stepM; same
  | wait ms =>
    refine hs1 ⟨fun t1 t2 ht => ⟨rfl, ?_⟩⟩
    exact ⟨by show ({ t2.env with now := t2.env.now + ms } : Env) = { t1.env with now := t1.env.now + ms }; rw [ht.env],
      ht.vol, ht.data, ht.creds, ht.held⟩

instance : Same H K bootM := by
  have (c : ClientPin) (t : Nat) : Same H K (modV fun _ =>
      { pin := c, u2f := U2fUp.new
        sp := { timer := makeTimer t 10000, cmd := some .reset, channel := none }
        lb := LargeBlobs.new }) := Same.modVE fun _ _ inp keys hc => by simp at hc
  unfold bootM; same

theorem Rel.oracle {s1 s2 : St} (h : Rel H K s1 s2) (o : Oracle) : Rel H K (s1.withOracle o) (s2.withOracle o) :=
  ⟨by show ({ s2.env with o := o, k := 0 } : Env) = { s1.env with o := o, k := 0 }; rw [h.env], h.vol, h.data, h.creds, h.held⟩

theorem Alike.rel {s1 s2 : St} (h : Alike H s1 s2) : ∃ K, Rel H K s1 s2 := by
  classical
  let login : List Nat := match s1.v.sp.cmd with
    | some (.getAssertion _ keys) => keys
    | _ => []
  let vis : List Nat := (s1.p.creds.filter fun e => decide (¬ H e.2)).map (·.1)
  have hv : ∀ k, k ∈ vis ↔ ∃ c, (k, c) ∈ s1.p.creds ∧ ¬ H c := by
    intro k
    simp only [vis, List.mem_map, List.mem_filter, decide_eq_true_eq]
    constructor
    · rintro ⟨⟨k', c⟩, ⟨h1, h2⟩, rfl⟩; exact ⟨c, h1, h2⟩
    · rintro ⟨c, h1, h2⟩; exact ⟨(k, c), ⟨h1, h2⟩, rfl⟩
  refine ⟨login ++ vis, h.env, h.volatile, h.data, ⟨h.visible, h.orderly1, h.orderly2, ?_, ?_⟩, ?_⟩
  · intro k hk c
    rcases List.mem_append.1 hk with hk | hk
    · have hl : s1.p.creds.lookup k = s2.p.creds.lookup k := by
        simp only [login] at hk
        split at hk
        · rename_i inp keys hc; exact h.login inp keys hc k hk
        · simp at hk
      rw [← lookup_iff h.orderly1.slots, ← lookup_iff h.orderly2.slots, hl]
    · obtain ⟨c', h1, h2⟩ := (hv k).1 hk
      have h3 := (h.visible k c' h2).1 h1
      constructor
      · intro h4
        have := eq_of_map_nodup h.orderly1.slots h4 h1 rfl
        rw [this]; exact h3
      · intro h4
        have := eq_of_map_nodup h.orderly2.slots h4 h3 rfl
        rw [this]; exact h1
  · intro k c h1 h2
    exact List.mem_append.2 (.inr ((hv k).2 ⟨c, h1, h2⟩))
  · intro inp keys hc k hk
    refine List.mem_append.2 (.inl ?_)
    simp only [login, hc]
    exact hk

theorem Rel.alike {s1 s2 : St} (h : Rel H K s1 s2) : Alike H s1 s2 :=
  ⟨h.env, h.vol, h.data, h.creds.visible, h.creds.wf1, h.creds.wf2, fun inp keys hc k hk =>
    h.creds.lookup (h.held inp keys hc k hk)⟩

end Verif.Ctap
