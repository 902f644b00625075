import Verif.Ctap.Logic

/-!
# What each function can change

For each function of the model: it preserves every predicate that is stable under the elementary changes listed
as instance arguments.
-/
namespace Verif.Ctap
set_option linter.unusedSectionVars false
variable [Dev] {I : St → Prop} [SEnv I]

/-! ## User presence, key store -/

instance [h : SPresence I] (t : Nat) : Pres I (logE (.presence t)) := presLogE fun s hs => h.out s t hs

instance [SPresence I] (n : Nat) : Pres I (presenceLoop n) := by
  induction n with
  | zero => unfold presenceLoop; pres
  | succ n ih => unfold presenceLoop; pres

instance [SPresence I] : Pres I checkPresence := by unfold checkPresence; pres
instance [SPresence I] : Pres I checkPresenceE := by unfold checkPresenceE; pres

instance (r : Verif.Crypto.WrapRes) : Pres I (liftWrap r) := by cases r <;> (unfold liftWrap; pres)
instance (p : Bytes) (e : Bool) : Pres I (drawIv p e) := by unfold drawIv; pres
instance (k p : Bytes) (e : Bool) : Pres I (aesEncrypt k p e) := by unfold aesEncrypt; pres

instance [h : SMaster I] : Pres I getMasterKeys := by
  unfold getMasterKeys
  refine Pres.mapErrE (Pres.bind' inferInstance fun s p s1 _ h1 hs1 => ?_)
  obtain ⟨rfl, rfl⟩ := readP_ok h1
  cases hm : s.p.master with
  | some x =>
    have : Pres I (do guardE (x.length == 128) .internalError; M.pure x) := by pres
    exact this.out _ hs1
  | none =>
    refine bind_snd ((inferInstance : Pres I (rng 128)).out _ hs1) fun x s2 h2 => ?_
    have hl := rng_length h2
    have hs2 : I s2 := by have := (inferInstance : Pres I (rng 128)).out _ hs1; rwa [h2] at this
    obtain ⟨_, rfl⟩ := rng_ok h2
    have hw : ∀ s3 : St, I s3 → s3.p.master = none → I (writeP (fun p => { p with master := some x }) [] s3).2 := by
      intro s3 h3 hn
      rcases writeP_snd (fun p => { p with master := some x }) [] s3 with h4 | h4 <;> rw [h4]
      · exact SEnv.out _ _ (next_now_le _) rfl h3
      · exact SEnv.out _ _ (next_now_le _) rfl (h.out s3 ⟨x, hl, hn⟩ h3)
    exact bind_snd (hw _ hs2 hm) fun _ s4 h4 => by have := hw _ hs2 hm; rw [h4] at this; exact this
instance (k sk : Bytes) : Pres I (skToCbor k sk) := by unfold skToCbor; pres
instance [SMaster I] (c : CredSource) : Pres I (wrapCredential c) := by unfold wrapCredential; pres
instance [SMaster I] (b h : Bytes) : Pres I (unwrapCredential b h) := by unfold unwrapCredential; pres
instance [SMaster I] (u : Bool) : Pres I (credRandom u) := by unfold credRandom; pres
instance : Pres I newSk := by unfold newSk; pres

/-! ## Storage -/

instance [SMaster I] : Pres I iterCredentials := by unfold iterCredentials; pres
instance [SMaster I] (k : Nat) : Pres I (getCredential k) := by unfold getCredential; pres
instance [SMaster I] (id : Bytes) : Pres I (findCredentialItem id) := by unfold findCredentialItem; pres
instance [SMaster I] (r id : Bytes) : Pres I (findCredential r id) := by unfold findCredential; pres

instance [h : SCreds I] (k : Nat) (c : Cred) : Pres I (writeP fun p => p.putCred k c) :=
  presWriteP fun s hs => h.out s _ hs
instance [h : SCreds I] (k : Nat) : Pres I (writeP fun p => p.delCred k) :=
  presWriteP fun s hs => h.out s _ hs

instance [SMaster I] [SCreds I] (c : Cred) : Pres I (storeCredential c) := by unfold storeCredential; pres
instance [SMaster I] [SCreds I] (id : Bytes) : Pres I (deleteCredential id) := by unfold deleteCredential; pres
instance [SMaster I] [SCreds I] (id : Bytes) (a b c : Option Bytes) : Pres I (updateCredential id a b c) := by
  unfold updateCredential; pres
instance : Pres I countCredentials := by unfold countCredentials; pres
instance : Pres I remainingCredentials := by unfold remainingCredentials; pres
instance [SMaster I] : Pres I newCreationOrder := by unfold newCreationOrder; pres
instance : Pres I signatureCounter := by unfold signatureCounter; pres

instance [h : SCounter I] (n : Nat) : Pres I (incrSignatureCounter n) := by
  unfold incrSignatureCounter
  refine @Pres.bind _ _ _ _ _ _ fun old => presWriteP fun s hs => ?_
  have := h.out s (some ((old + n) % 2 ^ 32)) (decide (old + n < 2 ^ 32)) hs
  simpa using this

instance : Pres I pinHash := by unfold pinHash; pres
instance : Pres I pinCodePointLength := by unfold pinCodePointLength; pres
instance [h : SPin I] (b : Bytes) (n : Nat) : Pres I (setPin b n) := by
  unfold setPin; exact presWriteP fun s hs => h.out s _ _ hs
instance : Pres I pinRetries := by unfold pinRetries; pres
instance [h : SRetries I] (n : Nat) : Pres I (writeP fun p => { p with pinRetries := some n }) :=
  presWriteP fun s hs => h.out s _ hs
instance [SRetries I] : Pres I decrPinRetries := by unfold decrPinRetries; pres
instance [h : SRetries I] : Pres I resetPinRetries := by
  unfold resetPinRetries; exact presWriteP fun s hs => h.out s _ hs
instance : Pres I minPinLength := by unfold minPinLength; pres
instance [h : SMinPin I] (n : Nat) : Pres I (setMinPinLength n) := by
  unfold setMinPinLength; exact presWriteP fun s hs => h.out s _ hs
instance : Pres I minPinLengthRpIds := by unfold minPinLengthRpIds; pres
instance [h : SRpIds I] (l : List Bytes) : Pres I (setMinPinLengthRpIds l) := by
  unfold setMinPinLengthRpIds
  exact @Pres.bind _ _ _ _ _ _ fun _ => presWriteP fun s hs => h.out s _ hs
instance (a b : Nat) : Pres I (getLargeBlobArray a b) := by unfold getLargeBlobArray; pres
instance [h : SLargeBlob I] (b : Bytes) : Pres I (commitLargeBlobArray b) := by
  unfold commitLargeBlobArray
  exact @Pres.bind _ _ _ _ _ _ fun _ => presWriteP fun s hs => h.out s _ hs
instance [h : SErase I] : Pres I resetStorage := by
  unfold resetStorage
  refine Pres.bind' (presWriteP fun s hs => h.out s hs) fun s _ s1 _ h1 hs1 => ?_
  have hn : s1.p = { s1.p with master := none } := by rw [writeP_ok h1]; rfl
  rw [mapErr_snd]
  rcases writeP_snd (fun p => { p with master := none }) [] s1 with h4 | h4 <;> rw [h4]
  · exact SEnv.out _ _ (next_now_le _) rfl hs1
  · have := SEnv.out s1 s1.env.next (next_now_le _) rfl hs1
    rw [← hn]; exact this
instance : Pres I hasForcePinChange := by unfold hasForcePinChange; pres
instance [h : SForce I] : Pres I forcePinChange := by
  unfold forcePinChange; exact presWriteP fun s hs => h.out s _ hs
instance : Pres I enterpriseAttestation := by unfold enterpriseAttestation; pres
instance : Pres I attestationGet := by unfold attestationGet; pres
instance [h : SEp I] : Pres I (writeP fun p => { p with enterprise := true }) :=
  presWriteP fun s hs => h.out s _ hs
instance [SEp I] : Pres I enableEnterpriseAttestation := by unfold enableEnterpriseAttestation; pres
instance : Pres I hasAlwaysUv := by unfold hasAlwaysUv; pres
instance [h : SAlwaysUv I] (b : Bool) : Pres I (writeP fun p => { p with alwaysUv := b }) :=
  presWriteP fun s hs => h.out s _ hs
instance [SAlwaysUv I] : Pres I toggleAlwaysUv := by unfold toggleAlwaysUv; pres

/-! ## PIN -/

omit [Dev] [SEnv I] in
theorem setProto_eq (c : ClientPin) (pr : Proto) (p : PinProtocol) :
    ∃ x y, c.setProto pr p = { c with p1 := x, p2 := y } := by
  cases pr
  · exact ⟨p, c.p2, rfl⟩
  · exact ⟨c.p1, p, rfl⟩

theorem Pres.setProto [h : SKeys I] (pr : Proto) (g : ClientPin → PinProtocol) :
    Pres I (modPin fun c => c.setProto pr (g c)) := by
  unfold modPin
  refine presModV fun s hs => ?_
  obtain ⟨x, y, e⟩ := setProto_eq s.v.pin pr (g s.v.pin)
  simp only [e]
  exact h.out s x y hs

instance [SKeys I] (pr : Proto) : Pres I (regenerate pr) := by
  unfold regenerate; exact @Pres.bind _ _ _ _ _ _ fun _ => Pres.setProto _ _
instance [SKeys I] (pr : Proto) : Pres I (resetToken pr) := by
  unfold resetToken; exact @Pres.bind _ _ _ _ _ _ fun _ => Pres.setProto _ _
instance (s : SharedSecret) (b : Bytes) : Pres I (s.encrypt b) := by unfold SharedSecret.encrypt; pres
omit [SEnv I] in
instance (pr : Proto) (k : CoseKey) : Pres I (getSharedSecret pr k) := by unfold getSharedSecret; pres
instance : Pres I PinProtocol.fresh := by unfold PinProtocol.fresh; pres
instance : Pres I ClientPin.fresh := by unfold ClientPin.fresh; pres
instance [SPin I] (s : SharedSecret) (b : Bytes) : Pres I (checkAndStoreNewPin s b) := by
  unfold checkAndStoreNewPin; pres
instance [h : SCompare I] (b : Bool) : Pres I (logE (.pinCompare b)) := presLogE fun s hs => h.out s b hs
instance [SCompare I] (a b : Bytes) : Pres I (comparePin a b) := by unfold comparePin; pres
theorem Pres.mis [h : SMis I] (f : ClientPin → Nat) : Pres I (modPin fun c => { c with mismatches := f c }) := by
  unfold modPin; exact presModV fun s hs => h.out s _ hs
instance [SMis I] : Pres I (modPin fun c => { c with mismatches := 0 }) := Pres.mis _
instance [SMis I] : Pres I (modPin fun c => { c with mismatches := c.mismatches + 1 }) := Pres.mis _
instance [SRetries I] [SCompare I] [SMis I] [SKeys I] (pr : Proto) (s : SharedSecret) (b : Bytes) :
    Pres I (verifyPinHashEnc pr s b) := by unfold verifyPinHashEnc; pres
instance : Pres I processGetPinRetries := by unfold processGetPinRetries; pres
omit [SEnv I] in
instance (pr : Proto) : Pres I (processGetKeyAgreement pr) := by unfold processGetKeyAgreement; pres
instance [SPin I] [SRetries I] (a : PinParams) : Pres I (processSetPin a) := by unfold processSetPin; pres
instance [SPin I] [SRetries I] [SCompare I] [SMis I] [SKeys I] (a : PinParams) : Pres I (processChangePin a) := by
  unfold processChangePin; pres
instance (priority := low) [h : STok I] (f : TokenState → TokenState) : Pres I (modTok f) := by
  unfold modTok modPin; exact presModV fun s hs => h.out s _ hs
instance [SRetries I] [SCompare I] [SMis I] [SKeys I] [STok I] (a : PinParams) :
    Pres I (processGetPinToken a) := by unfold processGetPinToken; pres
instance [SRetries I] [SCompare I] [SMis I] [SKeys I] [STok I] (a : PinParams) :
    Pres I (processGetPinTokenWithPermissions a) := by unfold processGetPinTokenWithPermissions; pres
instance [h : SIssued I] (t : Nat) (p : UInt8) (r : Option Bytes) : Pres I (logE (.tokenIssued t p r)) :=
  presLogE fun s hs => h.out s t p r hs
omit [SEnv I] in
instance [SIssued I] : Pres I logIssued := by unfold logIssued; pres
instance [SPin I] [SRetries I] [SCompare I] [SMis I] [SKeys I] [STok I] [SIssued I] (a : PinParams) :
    Pres I (clientPinCommand a) := by unfold clientPinCommand; pres
omit [SEnv I] in
instance (m p : Bytes) (pr : Proto) : Pres I (verifyToken m p pr) := by unfold verifyToken; pres
theorem Pres.resetPin [h1 : SMis I] [h2 : STok I] :
    Pres I (modPin fun c => { c with mismatches := 0, tok := TokenState.new }) := by
  unfold modPin; exact presModV fun s hs => h2.out _ TokenState.new (h1.out s 0 hs)
instance [SMis I] [STok I] [SKeys I] : Pres I resetClientPin := by
  have : Pres I (modPin fun c => { c with mismatches := 0, tok := TokenState.new }) := Pres.resetPin
  unfold resetClientPin; pres
instance (i : HmacSecretInput) (c : Bytes) : Pres I (processHmacSecret i c) := by unfold processHmacSecret; pres
instance [h : SConsumed I] : Pres I (logE .tokenConsumed) := presLogE fun s hs => h.out s hs
omit [SEnv I] in
instance [STok I] [SConsumed I] : Pres I clearTokenFlags := by unfold clearTokenFlags; pres
omit [SEnv I] in
instance [STok I] : Pres I updateTimeouts := by unfold updateTimeouts; pres
omit [SEnv I] in
instance : Pres I checkUserVerified := by unfold checkUserVerified; pres
omit [SEnv I] in
instance (p : UInt8) : Pres I (hasPermission p) := by unfold hasPermission; pres
omit [SEnv I] in
instance : Pres I hasNoRpIdPermission := by unfold hasNoRpIdPermission; pres
omit [SEnv I] in
instance (r : Bytes) : Pres I (hasNoOrRpIdPermission r) := by unfold hasNoOrRpIdPermission; pres
omit [SEnv I] in
instance (r : Bytes) : Pres I (hasNoOrRpIdHashPermission r) := by unfold hasNoOrRpIdHashPermission; pres
omit [SEnv I] in
instance [STok I] (r : Bytes) : Pres I (ensureRpIdPermission r) := by unfold ensureRpIdPermission; pres

/-! ## Stateful commands -/

instance (priority := low) [h : SSp I] (f : StatefulPerm → StatefulPerm) : Pres I (modSp f) := by
  unfold modSp; exact presModV fun s hs => h.out s _ hs
theorem presCleared [h : SSpGo I] : Pres I (modSp fun _ => StatefulPerm.cleared) := by
  unfold modSp; exact presModV fun s hs => h.drop s hs
omit [Dev] [SEnv I] in
instance [SSpGo I] : Pres I (modSp fun _ => StatefulPerm.cleared) := presCleared
omit [SEnv I] in
instance [h : SSpGo I] : Pres I getCommand := by
  have (t : Nat) : Pres I (modSp fun sp => sp.clearTimer t) := by
    unfold modSp
    refine presModV fun s hs => ?_
    show I { s with v := { s.v with sp := s.v.sp.clearTimer t } }
    unfold StatefulPerm.clearTimer
    by_cases he : Verif.Hid.Timer.isElapsed s.v.sp.timer t = true
    · simp only [he, if_true]; exact h.drop s hs
    · simp only [he]; exact hs
  unfold getCommand; pres
theorem getCommand_run (s : St) : getCommand s =
    (.ok (s.v.sp.clearTimer s.env.now).cmd, { s with v := { s.v with sp := s.v.sp.clearTimer s.env.now } }) := rfl
omit [SEnv I] in
theorem presSetCommand [h : SSpSet I] (c : Stateful) (ch : Channel) (hc : c ≠ .reset) : Pres I (setCommand c ch) :=
  ⟨fun s hs => h.out s c ch hc hs⟩
omit [SEnv I] in
instance [SSpSet I] (i : AssertionInput) (l : List Nat) (ch : Channel) : Pres I (setCommand (.getAssertion i l) ch) :=
  presSetCommand _ _ (by simp)
omit [SEnv I] in
instance [h : SSpEnum I] (i : Nat) (ch : Channel) : Pres I (setCommand (.enumerateRps i) ch) :=
  ⟨fun s hs => h.out s _ ch (.inl ⟨i, rfl⟩) hs⟩
omit [SEnv I] in
instance [h : SSpEnum I] (l : List Nat) (ch : Channel) : Pres I (setCommand (.enumerateCredentials l) ch) :=
  ⟨fun s hs => h.out s _ ch (.inr ⟨l, rfl⟩) hs⟩
omit [SEnv I] in
/-- Progress of a stateful command. -/
theorem presNext [h : SSpGo I] {s : St} {c c' : Stateful} (hs : I s) (hc : (s.v.sp.clearTimer s.env.now).cmd = some c)
    (hn : c.Next c') :
    I { s with v := { s.v with sp := { s.v.sp.clearTimer s.env.now with cmd := some c' } } } := by
  have := (inferInstance : Pres I getCommand).out s hs
  rw [getCommand_run] at this
  exact h.next _ c c' hc hn this
theorem getLast?_split {l : List α} {k : α} (h : l.getLast? = some k) : l = l.dropLast ++ [k] := by
  obtain ⟨ys, rfl⟩ := List.getLast?_eq_some_iff.1 h
  simp
omit [SEnv I] in
instance [h : SSpGo I] : Pres I nextAssertionCredential := by
  refine ⟨fun s hs => ?_⟩
  have h0 := (inferInstance : Pres I getCommand).out s hs
  have hb : nextAssertionCredential s = M.bind getCommand (fun c => match c with
    | some (.getAssertion inp keys) => do
      let k ← req keys.getLast? .notAllowed
      modSp fun sp => { sp with cmd := some (.getAssertion inp keys.dropLast) }
      M.pure (inp, k)
    | _ => fail .notAllowed) s := rfl
  rw [hb, M.bind, getCommand_run]
  rw [getCommand_run] at h0
  dsimp only at h0 ⊢
  cases hc : (s.v.sp.clearTimer s.env.now).cmd with
  | none => exact h0
  | some c =>
    cases c with
    | getAssertion inp keys =>
      cases hk : keys.getLast? with
      | none => simp only [hk]; exact h0
      | some k =>
        have hn : Stateful.Next (.getAssertion inp keys) (.getAssertion inp keys.dropLast) := by
          have := Stateful.Next.assertion inp keys.dropLast k
          rwa [← getLast?_split hk] at this
        simp only [hk]
        exact presNext hs hc hn
    | _ => exact h0
omit [SEnv I] in
instance [h : SSpGo I] : Pres I nextEnumerateRp := by
  refine ⟨fun s hs => ?_⟩
  have h0 := (inferInstance : Pres I getCommand).out s hs
  have hb : nextEnumerateRp s = M.bind getCommand (fun c => match c with
    | some (.enumerateRps i) => do
      modSp fun sp => { sp with cmd := some (.enumerateRps (i + 1)) }
      M.pure i
    | _ => fail .notAllowed) s := rfl
  rw [hb, M.bind, getCommand_run]
  rw [getCommand_run] at h0
  dsimp only at h0 ⊢
  cases hc : (s.v.sp.clearTimer s.env.now).cmd with
  | none => exact h0
  | some c =>
    cases c with
    | enumerateRps i => exact presNext hs hc (.rp i)
    | _ => exact h0
omit [SEnv I] in
instance [h : SSpGo I] : Pres I nextEnumerateCredential := by
  refine ⟨fun s hs => ?_⟩
  have h0 := (inferInstance : Pres I getCommand).out s hs
  have hb : nextEnumerateCredential s = M.bind getCommand (fun c => match c with
    | some (.enumerateCredentials keys) => do
      let k ← req keys.getLast? .notAllowed
      modSp fun sp => { sp with cmd := some (.enumerateCredentials keys.dropLast) }
      M.pure k
    | _ => fail .notAllowed) s := rfl
  rw [hb, M.bind, getCommand_run]
  rw [getCommand_run] at h0
  dsimp only at h0 ⊢
  cases hc : (s.v.sp.clearTimer s.env.now).cmd with
  | none => exact h0
  | some c =>
    cases c with
    | enumerateCredentials keys =>
      cases hk : keys.getLast? with
      | none => simp only [hk]; exact h0
      | some k =>
        have hn : Stateful.Next (.enumerateCredentials keys) (.enumerateCredentials keys.dropLast) := by
          have := Stateful.Next.credential keys.dropLast k
          rwa [← getLast?_split hk] at this
        simp only [hk]
        exact presNext hs hc hn
    | _ => exact h0

/-! ## Commands -/

instance (v : Option CVal) : Pres I (cborWriteM v) := by cases v <;> (unfold cborWriteM; pres)
instance [h : SIncr I] : Pres I incrementGlobalCounter := by
  have hE : SEnv I := inferInstance
  have (n : Nat) (h0 : 0 < n) (h8 : n ≤ 8) : Pres I (incrSignatureCounter n) := by
    constructor
    intro s hs
    unfold incrSignatureCounter
    refine bind_snd ((inferInstance : Pres I signatureCounter).out s hs) fun old s1 h1 => ?_
    have hs1 : I s1 := by have := (inferInstance : Pres I signatureCounter).out s hs; rwa [h1] at this
    have ho : old = s1.p.counter.getD 1 := by
      simp only [signatureCounter, bind_ok, pure_ok] at h1
      obtain ⟨p, s2, h2, rfl, rfl⟩ := h1
      obtain ⟨rfl, rfl⟩ := readP_ok h2
      rfl
    subst ho
    rcases writeP_snd (fun p => { p with counter := some ((s1.p.counter.getD 1 + n) % 2 ^ 32) })
        (if s1.p.counter.getD 1 + n < 2 ^ 32 then [] else [.wrapped]) s1 with h' | h' <;> rw [h']
    · exact hE.out s1 _ (next_now_le _) rfl hs1
    · exact hE.out { s1 with p := _, log := _ } _ (next_now_le _) rfl (h.out s1 n h0 h8 hs1)
  unfold incrementGlobalCounter
  have h1 (r : Bytes) : Pres I (incrSignatureCounter (Verif.Cbor.beNat r % 8 + 1)) :=
    this _ (by omega) (by omega)
  pres
instance (h : Bytes) (f : UInt8) : Pres I (generateAuthData h f) := by unfold generateAuthData; pres
instance [SPresence I] (p : Option Bytes) (pr : Option Proto) : Pres I (authPrecheck p pr) := by
  unfold authPrecheck; pres
instance [STok I] (u : UInt8) (a b c : Bytes) (pr : Option Proto) : Pres I (checkTokenFor u a b c pr) := by
  unfold checkTokenFor; pres
instance (a : McParams) : Pres I (mcEnterprise a) := by unfold mcEnterprise; pres
instance (a : McParams) : Pres I (mcWithoutParam a) := by unfold mcWithoutParam; pres
instance [STok I] (a : McParams) : Pres I (mcAuth a) := by unfold mcAuth; pres
instance [SMaster I] (a b : Bytes) (u : Bool) : Pres I (isExcluded a b u) := by unfold isExcluded; pres
instance [SMaster I] [SPresence I] (a : Bytes) (u : Bool) (l : List Descriptor) :
    Pres I (checkExcludeList a u l) := by
  induction l with
  | nil => unfold checkExcludeList; pres
  | cons d l ih => unfold checkExcludeList; pres
instance (a : McParams) : Pres I (mcMinPin a) := by unfold mcMinPin; pres
instance (a : McParams) : Pres I (mcLargeBlobKey a) := by unfold mcLargeBlobKey; pres
instance [SMaster I] [SCreds I] (a : McParams) (sk : Bytes) (l : Option Bytes) : Pres I (mcCreate a sk l) := by
  unfold mcCreate; pres
instance (b : Bool) : Pres I (mcMinPinOutput b) := by unfold mcMinPinOutput; pres
instance (a : McParams) (b : Bool) : Pres I (mcExtOutput a b) := by unfold mcExtOutput; pres
instance (a : McParams) (b : Bool) (x y : Bytes) : Pres I (mcAuthData a b x y) := by unfold mcAuthData; pres
instance (b : Bool) (x y : Bytes) : Pres I (mcSign b x y) := by unfold mcSign; pres
instance [SMaster I] [SCreds I] (a : McParams) (b : Bool) : Pres I (mcFinish a b) := by unfold mcFinish; pres
instance [SMaster I] [SCreds I] [SPresence I] [STok I] [SConsumed I] (a : McParams) :
    Pres I (makeCredential a) := by unfold makeCredential; pres
instance [SMaster I] (a : Bytes) (b : Bool) : Pres I (generateCredRandom a b) := by unfold generateCredRandom; pres
instance [SMaster I] (c : Cred) (i : AssertionInput) : Pres I (gaHmacSecret c i) := by unfold gaHmacSecret; pres
instance [SMaster I] (c : Cred) (i : AssertionInput) : Pres I (gaExtOutput c i) := by unfold gaExtOutput; pres
instance [SMaster I] (c : Cred) (i : AssertionInput) (n : Option Nat) : Pres I (assertionResponse c i n) := by
  unfold assertionResponse; pres
instance [SMaster I] (a : Bytes) (u : Bool) (l : List Descriptor) : Pres I (anyFromAllowList a u l) := by
  induction l with
  | nil => unfold anyFromAllowList; pres
  | cons d l ih => unfold anyFromAllowList; pres
instance (a : GaParams) : Pres I (gaWithoutParam a) := by unfold gaWithoutParam; pres
instance [STok I] (a : GaParams) : Pres I (gaAuth a) := by unfold gaAuth; pres
instance [SMaster I] (a : GaParams) : Pres I (gaFindCredential a) := by unfold gaFindCredential; pres
instance [SPresence I] [STok I] [SConsumed I] (a : GaParams) : Pres I (gaPresence a) := by unfold gaPresence; pres
omit [SEnv I] in
instance [SSpSet I] (i : AssertionInput) (l : List Nat) (ch : Channel) : Pres I (gaRemember i l ch) := by
  unfold gaRemember; pres
instance [SMaster I] [SPresence I] [STok I] [SConsumed I] [SSpSet I] [SIncr I] (a : GaParams) (ch : Channel) :
    Pres I (getAssertion a ch) := by unfold getAssertion; pres
instance [SMaster I] [SSpGo I] : Pres I getNextAssertion := by unfold getNextAssertion; pres
instance : Pres I infoEp := by unfold infoEp; pres
instance : Pres I getInfo := by unfold getInfo; pres
omit [Dev] [SEnv I] in
theorem Pres.u2f [h : SU2f I] (f : Vol → U2fUp) : Pres I (modV fun v => { v with u2f := f v }) :=
  presModV fun s hs => h.out s _ hs
instance [SSpGo I] [SPresence I] [SErase I] [SMaster I] [SMis I] [STok I] [SKeys I] [SU2f I] :
    Pres I resetCommand := by
  have : Pres I (modV fun v => { v with u2f := U2fUp.new }) := Pres.u2f _
  unfold resetCommand; pres
instance [SPresence I] : Pres I selection := by unfold selection; pres

instance [SMaster I] : Pres I storedRpIds := by unfold storedRpIds; pres
instance [SMaster I] (b : Bytes) : Pres I (checkRpIdPermissions b) := by unfold checkRpIdPermissions; pres
instance : Pres I cmMetadata := by unfold cmMetadata; pres
instance [SMaster I] [SSpEnum I] (ch : Channel) : Pres I (cmRpsBegin ch) := by unfold cmRpsBegin; pres
instance [SMaster I] [SSpGo I] : Pres I cmRpsNext := by unfold cmRpsNext; pres
instance [SMaster I] [SSpEnum I] (a : CmSubParams) (ch : Channel) : Pres I (cmCredsBegin a ch) := by
  unfold cmCredsBegin; pres
instance [SMaster I] [SSpGo I] : Pres I cmCredsNext := by unfold cmCredsNext; pres
instance [SMaster I] [SCreds I] (a : CmSubParams) : Pres I (cmDelete a) := by unfold cmDelete; pres
instance [SMaster I] [SCreds I] (a : CmSubParams) : Pres I (cmUpdate a) := by unfold cmUpdate; pres
instance (a : CmParams) : Pres I (cmAuthData a) := by unfold cmAuthData; pres
instance (a : CmParams) : Pres I (cmAuth a) := by unfold cmAuth; pres
instance [SMaster I] [SSpGo I] [SSpEnum I] [SCreds I] (a : CmParams) (ch : Channel) : Pres I (cmDispatch a ch) := by
  unfold cmDispatch; pres
instance [SMaster I] [SSpGo I] [SSpEnum I] [SCreds I] (a : CmParams) (ch : Channel) : Pres I (credentialManagement a ch) := by
  unfold credentialManagement; pres

instance [SEp I] : Pres I configEnableEp := by unfold configEnableEp; pres
instance (b : Bool) : Pres I (configCheckForce b) := by unfold configCheckForce; pres
instance [SForce I] [SMinPin I] [SRpIds I] (a : MinPinParams) : Pres I (configSetMinPin a) := by
  unfold configSetMinPin; pres
instance (a : ConfigSub) : Pres I (configEnforceUv a) := by unfold configEnforceUv; pres
instance (a : ConfigParams) : Pres I (configAuthData a) := by unfold configAuthData; pres
instance (a : ConfigParams) : Pres I (configAuth a) := by unfold configAuth; pres
instance [SForce I] [SMinPin I] [SRpIds I] [SEp I] [SAlwaysUv I] (a : ConfigParams) :
    Pres I (configDispatch a) := by unfold configDispatch; pres
instance [SForce I] [SMinPin I] [SRpIds I] [SEp I] [SAlwaysUv I] (a : ConfigParams) :
    Pres I (configCommand a) := by unfold configCommand; pres

instance (priority := low) [h : SLb I] (f : LargeBlobs → LargeBlobs) : Pres I (modLb f) := by
  unfold modLb; exact presModV fun s hs => h.out s _ hs
instance (a : LbParams) (n : Nat) : Pres I (lbGet a n) := by unfold lbGet; pres
instance [SLb I] (a : LbParams) : Pres I (lbStart a) := by unfold lbStart; pres
instance : Pres I lbNeedsAuth := by unfold lbNeedsAuth; pres
omit [SEnv I] in
instance (a : LbParams) (b : Bytes) : Pres I (lbAuth a b) := by unfold lbAuth; pres
instance [SLb I] [SLargeBlob I] : Pres I lbComplete := by unfold lbComplete; pres
instance [SLb I] [SLargeBlob I] (a : LbParams) (b : Bytes) : Pres I (lbAppend a b) := by unfold lbAppend; pres
instance [SLb I] [SLargeBlob I] (a : LbParams) (b : Bytes) : Pres I (lbSet a b) := by unfold lbSet; pres
instance [SLb I] [SLargeBlob I] (a : LbParams) : Pres I (largeBlobsCommand a) := by unfold largeBlobsCommand; pres

/-! ## U2F -/

omit [SEnv I] in
instance [SU2f I] [h1 : SU2fConsume I] [h2 : SU2fPrompt I] : Pres I consumeUp := by
  have (t : Nat) : Pres I (modV fun v => { v with u2f := (v.u2f.consume t).2 }) := Pres.u2f _
  have hl : ∀ (b : Bool) (t : Nat), Pres I (logE (if b then .u2fConsume t else .u2fPrompt t)) := by
    intro b t
    cases b
    · exact presLogE fun s hs => h2.out s t hs
    · exact presLogE fun s hs => h1.out s t hs
  unfold consumeUp
  refine @Pres.bind _ _ _ _ _ _ fun t => @Pres.bind _ _ _ _ _ _ fun v => @Pres.bind _ _ _ _ _ (this _) fun _ =>
    @Pres.bind _ _ _ _ _ (hl _ _) fun _ => inferInstance
instance (a b c d : Bytes) (e : Attestation) : Pres I (u2fRegisterResponse a b c d e) := by
  unfold u2fRegisterResponse; pres
instance : Pres I u2fAttestation := by unfold u2fAttestation; pres
instance [SMaster I] (a b : Bytes) : Pres I (u2fRegister a b) := by unfold u2fRegister; pres
instance [SIncr I] (a b c : Bytes) : Pres I (u2fSign a b c) := by unfold u2fSign; pres
instance [SMaster I] [SIncr I] (a b c : Bytes) (f : U2fFlags) : Pres I (u2fAuthenticate a b c f) := by
  unfold u2fAuthenticate; pres
omit [SEnv I] in
instance [SU2f I] [SU2fConsume I] [SU2fPrompt I] (f : U2fFlags) : Pres I (u2fCheckUp f) := by
  unfold u2fCheckUp; pres
instance [SMaster I] [SIncr I] [SU2f I] [SU2fConsume I] [SU2fPrompt I] (c : U2fCommand) :
    Pres I (u2fDispatch c) := by unfold u2fDispatch; pres
instance [SMaster I] [SIncr I] [SU2f I] [SU2fConsume I] [SU2fPrompt I] (m : Bytes) :
    Pres I (u2fCommand m) := by unfold u2fCommand; pres

/-! ## The state machine -/

omit [Dev] [SEnv I] in
instance [h1 : SU2f I] [h2 : SSpGo I] (ch : Channel) : Pres I (clearOtherChannels ch) := by
  unfold clearOtherChannels
  refine presModV fun s hs => ?_
  have h3 := h1.out s U2fUp.new hs
  unfold StatefulPerm.clearOldChannels
  split
  · split
    · exact h2.drop _ h3
    · exact h3
  · exact h3

omit [SEnv I] in
instance [∀ a, Pres I (makeCredential a)] [∀ a ch, Pres I (getAssertion a ch)] [Pres I getNextAssertion]
    [Pres I getInfo] [∀ a, Pres I (clientPinCommand a)] [Pres I resetCommand]
    [∀ a ch, Pres I (credentialManagement a ch)] [Pres I selection] [∀ a, Pres I (largeBlobsCommand a)]
    [∀ a, Pres I (configCommand a)] (ch : Channel) (c : Command) : Pres I (fidoCommand ch c) := by
  unfold fidoCommand; pres

omit [SEnv I] in
instance [Pres I getInfo] (c : Command) : Pres I (vendorChannelCommand c) := by unfold vendorChannelCommand; pres

omit [SEnv I] in
instance [Pres I getInfo] [∀ ch c, Pres I (fidoCommand ch c)] (ch : Channel) (c : Command) :
    Pres I (channelCommand ch c) := by unfold channelCommand; pres

omit [SEnv I] in
instance [Pres I updateTimeouts] [∀ ch, Pres I (clearOtherChannels ch)] [Pres I getCommand]
    [Pres I (modSp fun _ => StatefulPerm.cleared)] [∀ ch c, Pres I (channelCommand ch c)] (ch : Channel)
    (c : Command) : Pres I (processParsed c ch) := by unfold processParsed; pres

omit [Dev] [SEnv I] in
instance [h : SCounterEv I] (n : Nat) (b : CounterKind) : Pres I (logE (.counter n b)) :=
  presLogE fun s hs => h.out s n b hs

omit [Dev] [SEnv I] in
instance [SCounterEv I] (r : Response) : Pres I (logCounter r) := by unfold logCounter; pres

omit [SEnv I] in
instance (r : Response) : Pres I (encodeResponse r) := by unfold encodeResponse; pres

instance [∀ r, Pres I (logCounter r)] (r : Response) : Pres I (respond r) := by unfold respond; pres

omit [Dev] [SEnv I] in
instance {m : M Bytes} [h : Pres I m] : Pres I (errorByte m) := by
  constructor
  intro s hs
  have := h.out s hs
  simp only [errorByte]
  rcases h : m s with ⟨r, s1⟩
  rw [h] at this
  cases r <;> exact this

omit [SEnv I] in
instance [∀ c ch, Pres I (processParsed c ch)] [∀ r, Pres I (respond r)] (ch : Channel) (m : Bytes) :
    Pres I (processCommand ch m) := by unfold processCommand; pres

instance [∀ m, Pres I (u2fCommand m)] [SCounterEv I] (m : Bytes) : Pres I (processU2f m) := by
  unfold processU2f; pres

omit [Dev] [SEnv I] in
instance [SU2f I] [h : SU2fTouch I] : Pres I touchButton := by
  have (t : Nat) : Pres I (modV fun v => { v with u2f := v.u2f.grant t }) := Pres.u2f _
  have (t : Nat) : Pres I (logE (.u2fTouch t)) := presLogE fun s hs => h.out s t hs
  unfold touchButton; pres

omit [SEnv I] in
theorem presWait [h : SEnv I] (ms : Nat) : Pres I (stepM (.wait ms)) :=
  ⟨fun s hs => h.out s _ (Nat.le_add_right _ _) rfl hs⟩

instance [∀ ch m, Pres I (processCommand ch m)] [∀ m, Pres I (processU2f m)] [Pres I touchButton] (i : Input) :
    Pres I (stepM i) := by
  cases i with
  | wait ms => exact presWait ms
  | _ => unfold stepM; pres

omit [Dev] [SEnv I] in
theorem rng_res (n : Nat) (s : St) : (rng n s).1 = .crash ∨ ∃ b, (rng n s).1 = .ok b := by
  simp only [rng, effect]
  split
  · exact .inl rfl
  · exact .inr ⟨_, rfl⟩

omit [SEnv I] in
theorem fresh_no_err (s : St) (e : Status) : (ClientPin.fresh s).1 ≠ .err e := by
  have h : ∀ (n : Nat) (s : St) (e : Status), (rng n s).1 ≠ .err e := by
    intro n s e h; rcases rng_res n s with h1 | ⟨b, h1⟩ <;> rw [h1] at h <;> simp at h
  have hb : ∀ {α β : Type} (m : M α) (f : α → M β), (∀ s e, (m s).1 ≠ .err e) → (∀ a s e, (f a s).1 ≠ .err e) →
      ∀ s e, ((m >>= f) s).1 ≠ .err e := by
    intro α β m f h1 h2 s e
    simp only [bind_def, M.bind]
    have := h1 s
    rcases hm : m s with ⟨r, s1⟩
    rw [hm] at this
    cases r with
    | ok a => exact h2 a s1 e
    | err e' => exact absurd rfl (this e')
    | _ => simp
  have hp : ∀ {α : Type} (a : α) s e, (M.pure a s).1 ≠ .err e := by intro α a s e; simp [M.pure]
  have hf : ∀ s e, (PinProtocol.fresh s).1 ≠ .err e :=
    hb _ _ (h 32) fun _ => hb _ _ (h 32) fun _ => hp _
  exact hb _ _ hf (fun _ => hb _ _ hf fun _ => hp _) s e

/-- The outcomes of a power-up. -/
theorem bootM_cases (s : St) : ∃ e : Env, s.env.now ≤ e.now ∧ e.o = s.env.o ∧
    (((bootM s).1.alive = false ∧ (bootM s).2 = { s with env := e }) ∨
     ∃ p1 p2, (bootM s).2 =
      { env := e, p := s.p, log := .boot e.now :: s.log
        v := { pin := { p1 := p1, p2 := p2, mismatches := 0, tok := TokenState.new }, u2f := U2fUp.new
               sp := { timer := makeTimer e.now 10000, cmd := some .reset, channel := none }
               lb := LargeBlobs.new } }) := by
  let I : St → Prop := fun s' => ∃ e : Env, s.env.now ≤ e.now ∧ e.o = s.env.o ∧ s' = { s with env := e }
  have : SEnv I := ⟨by rintro _ e' h h' ⟨e, h1, h2, rfl⟩; exact ⟨e', Nat.le_trans h1 h, h'.trans h2, rfl⟩⟩
  have hI : I s := ⟨s.env, Nat.le_refl _, rfl, rfl⟩
  have hp : Pres I ClientPin.fresh := by unfold ClientPin.fresh PinProtocol.fresh; pres
  have h1 := hp.out s hI
  simp only [bootM, bind_def, M.bind]
  rcases h : ClientPin.fresh s with ⟨r, s1⟩
  rw [h] at h1
  obtain ⟨e, h2, h3, rfl⟩ := h1
  refine ⟨e, h2, h3, ?_⟩
  cases r with
  | ok c =>
    right
    simp only [ClientPin.fresh, bind_ok, pure_ok] at h
    obtain ⟨p1, _, _, p2, _, _, rfl, _⟩ := h
    exact ⟨p1, p2, rfl⟩
  | err _ => exact absurd (congrArg Prod.fst h) (fresh_no_err s _)
  | panic => exact .inl ⟨rfl, rfl⟩
  | crash => exact .inl ⟨rfl, rfl⟩

instance [h : SBoot I] : Pres I bootM := by
  constructor
  intro s hs
  rename_i hE
  obtain ⟨e, he, ho, ⟨_, h1⟩ | ⟨p1, p2, h1⟩⟩ := bootM_cases s <;> rw [h1]
  · exact hE.out _ _ he ho hs
  · exact h.out _ _ (hE.out _ e he ho hs)

/-- `step_instances I`: the state machine preserves `I` since its commands do. -/
syntax "step_instances" term : command
macro_rules
  | `(step_instances $t) => do
    let cmds ← #[`(command| instance (ch : Channel) (c : Command) : Pres $t (fidoCommand ch c) := inferInstance),
      `(command| instance (ch : Channel) (c : Command) : Pres $t (channelCommand ch c) := inferInstance),
      `(command| instance (ch : Channel) (c : Command) : Pres $t (processParsed c ch) := inferInstance),
      `(command| instance (ch : Channel) (m : Bytes) : Pres $t (processCommand ch m) := inferInstance),
      `(command| instance (m : Bytes) : Pres $t (processU2f m) := inferInstance),
      `(command| instance (i : Input) : Pres $t (stepM i) := inferInstance)].mapM id
    return Lean.mkNullNode cmds

/-- An invariant holds in all reachable states. -/
theorem reach_inv {P : Oracle → Prop} {b : Bool} {s : St} (hr : Reach P b s)
    (h0 : ∀ env att, I { env := env, p := { attestation := att }, v := Vol.off, log := [] })
    [hO : SOra P I] [hb : Pres I bootM] [hs : ∀ i, Pres I (stepM i)] : I s := by
  induction hr with
  | factory env att => exact h0 env att
  | boot o ho h ih => exact hb.out _ (hO.out _ _ ho ih)
  | step o ho i h ih => exact (hs i).out _ (hO.out _ _ ho ih)

end Verif.Ctap
