import Verif.Ctap.VeilLogic

/-!
# No function looks at the PIN beyond comparing guesses
-/
namespace Verif.Ctap
set_option linter.unusedSectionVars false
variable [Dev]

instance (n : Nat) : PSame (presenceLoop n) := by
  induction n with
  | zero => unfold presenceLoop; psame
  | succ n ih => unfold presenceLoop; psame

/-! ## User presence, key store -/

instance : PSame checkPresence := by unfold checkPresence; psame
instance : PSame checkPresenceE := by unfold checkPresenceE; psame
instance (r : Verif.Crypto.WrapRes) : PSame (liftWrap r) := by cases r <;> (unfold liftWrap; psame)
instance (p : Bytes) (e : Bool) : PSame (drawIv p e) := by unfold drawIv; psame
instance (k p : Bytes) (e : Bool) : PSame (aesEncrypt k p e) := by unfold aesEncrypt; psame
instance : PSame getMasterKeys := by unfold getMasterKeys; psame
instance (k sk : Bytes) : PSame (skToCbor k sk) := by unfold skToCbor; psame
instance (c : CredSource) : PSame (wrapCredential c) := by unfold wrapCredential; psame
instance (b h : Bytes) : PSame (unwrapCredential b h) := by unfold unwrapCredential; psame
instance (u : Bool) : PSame (credRandom u) := by unfold credRandom; psame
instance : PSame newSk := by unfold newSk; psame

/-! ## Storage -/

instance (l : List (Nat × Cred)) : PSame (effect fun s => Res.ok (s.env.o.shuffle s.env.k l)) :=
  PSame.effectE fun s1 s2 h => by rw [h]
instance : PSame iterCredentials := by unfold iterCredentials; psame
instance (k : Nat) : PSame (getCredential k) := by unfold getCredential; psame
instance (id : Bytes) : PSame (findCredentialItem id) := by unfold findCredentialItem; psame
instance (r id : Bytes) : PSame (findCredential r id) := by unfold findCredential; psame
instance (c : Cred) : PSame (storeCredential c) := by unfold storeCredential; psame
instance (id : Bytes) : PSame (deleteCredential id) := by unfold deleteCredential; psame
instance (id : Bytes) (a b c : Option Bytes) : PSame (updateCredential id a b c) := by unfold updateCredential; psame
instance : PSame countCredentials := by unfold countCredentials; psame
instance : PSame remainingCredentials := by unfold remainingCredentials; psame
instance : PSame newCreationOrder := by unfold newCreationOrder; psame
instance : PSame signatureCounter := by unfold signatureCounter; psame
instance (n : Nat) : PSame (incrSignatureCounter n) := by unfold incrSignatureCounter; psame
instance : PSame pinCodePointLength := by
  unfold pinCodePointLength
  refine ⟨PSim.bind PSim.read (fun p1 p2 ⟨_, h⟩ => ?_) (effect_grows _) (effect_grows _)
    (fun _ _ => List.suffix_refl _) fun _ _ => List.suffix_refl _, grows_bind (effect_grows _) fun _ _ => List.suffix_refl _⟩
  exact PSim.pure h.symm
instance (b : Bytes) (n : Nat) : PSame (setPin b n) := by unfold setPin; psame
instance : PSame pinRetries := by unfold pinRetries; psame
instance : PSame decrPinRetries := by unfold decrPinRetries; psame
instance : PSame resetPinRetries := by unfold resetPinRetries; psame
instance : PSame minPinLength := by unfold minPinLength; psame
instance (n : Nat) : PSame (setMinPinLength n) := by unfold setMinPinLength; psame
instance : PSame minPinLengthRpIds := by unfold minPinLengthRpIds; psame
instance (l : List Bytes) : PSame (setMinPinLengthRpIds l) := by unfold setMinPinLengthRpIds; psame
instance (a b : Nat) : PSame (getLargeBlobArray a b) := by unfold getLargeBlobArray; psame
instance (b : Bytes) : PSame (commitLargeBlobArray b) := by unfold commitLargeBlobArray; psame
instance : PSame resetStorage := by unfold resetStorage; psame
instance : PSame hasForcePinChange := by unfold hasForcePinChange; psame
instance : PSame forcePinChange := by unfold forcePinChange; psame
instance : PSame enterpriseAttestation := by unfold enterpriseAttestation; psame
instance : PSame attestationGet := by unfold attestationGet; psame
instance : PSame enableEnterpriseAttestation := by unfold enableEnterpriseAttestation; psame
instance : PSame hasAlwaysUv := by unfold hasAlwaysUv; psame
instance : PSame toggleAlwaysUv := by unfold toggleAlwaysUv; psame

/-! ## PIN -/

instance (pr : Proto) : PSame (regenerate pr) := by unfold regenerate; psame
instance (pr : Proto) : PSame (resetToken pr) := by unfold resetToken; psame
instance (s : SharedSecret) (b : Bytes) : PSame (s.encrypt b) := by unfold SharedSecret.encrypt; psame
instance (pr : Proto) (k : CoseKey) : PSame (getSharedSecret pr k) := by unfold getSharedSecret; psame
instance : PSame PinProtocol.fresh := by unfold PinProtocol.fresh; psame
instance : PSame ClientPin.fresh := by unfold ClientPin.fresh; psame
instance (s : SharedSecret) (b : Bytes) : PSame (checkAndStoreNewPin s b) := by unfold checkAndStoreNewPin; psame
instance (a b : Bytes) : PSame (comparePin a b) := by unfold comparePin; psame
/-- The only place where the hash matters: two comparisons that both fail are alike. -/
theorem PSim.comparePin (x y dec : Bytes) : PSim (fun a b => a = false ∧ b = false) (Ctap.comparePin x dec) (Ctap.comparePin y dec) := by
  intro s1 s2 hs
  have h (z : Bytes) (s : St) : Ctap.comparePin z dec s = (.ok (z == dec), { s with log := .pinCompare (z == dec) :: s.log }) := rfl
  rw [h, h]
  cases hx : x == dec
  · cases hy : y == dec
    · exact .inl ⟨⟨rfl, rfl⟩, hs.env, hs.vol, hs.data, hs.pin⟩
    · exact .inr (.inr ⟨[_], rfl, _, List.mem_cons_self, rfl⟩)
  · exact .inr (.inl ⟨[_], rfl, _, List.mem_cons_self, rfl⟩)

theorem PSame.simBind {m : M α} {f g : α → M β} (h1 : PSame m) (h2 : ∀ a, PSim Eq (f a) (g a))
    (h3 : ∀ a s, s.log <:+ (f a s).2.log) (h4 : ∀ a s, s.log <:+ (g a s).2.log) : PSim Eq (m >>= f) (m >>= g) :=
  PSim.bind h1.out (fun a b h => by subst h; exact h2 a) h1.grows h1.grows h3 h4

theorem PSame.pinHashSim {f : Option Bytes → M α} (h1 : ∀ x y, PSim Eq (f (some x)) (f (some y))) (h2 : ∀ a, PSame (f a)) :
    PSame (pinHash >>= f) :=
  ⟨PSim.bind PSim.pinHash (fun a b h => by
    cases a <;> cases b
    · exact (h2 _).out
    · cases h
    · cases h
    · exact h1 _ _) pinHash_grows pinHash_grows (fun p => (h2 p).grows) fun p => (h2 p).grows,
    grows_bind pinHash_grows fun p => (h2 p).grows⟩

instance (pr : Proto) (s : SharedSecret) (b : Bytes) : PSame (verifyPinHashEnc pr s b) := by
  unfold verifyPinHashEnc
  refine PSame.pinHashSim (fun x y => ?_) (by psame)
  dsimp only
  refine PSame.simBind inferInstance (fun v => ?_) (fun _ => PSame.grows (self := by psame)) fun _ => PSame.grows (self := by psame)
  refine PSame.simBind inferInstance (fun _ => ?_) (fun _ => PSame.grows (self := by psame)) fun _ => PSame.grows (self := by psame)
  refine PSame.simBind inferInstance (fun _ => ?_) (fun _ => PSame.grows (self := by psame)) fun _ => PSame.grows (self := by psame)
  split
  · exact PSame.out
  · refine PSim.bind (PSim.comparePin x y _) ?_ PSame.grows PSame.grows (fun _ => PSame.grows (self := by psame))
      fun _ => PSame.grows (self := by psame)
    rintro _ _ ⟨rfl, rfl⟩
    exact PSame.out (self := by psame)
instance : PSame processGetPinRetries := by unfold processGetPinRetries; psame
instance (pr : Proto) : PSame (processGetKeyAgreement pr) := by unfold processGetKeyAgreement; psame
instance (a : PinParams) : PSame (processSetPin a) := by unfold processSetPin; psame
instance (a : PinParams) : PSame (processChangePin a) := by unfold processChangePin; psame
instance (a : PinParams) : PSame (processGetPinToken a) := by unfold processGetPinToken; psame
instance (a : PinParams) : PSame (processGetPinTokenWithPermissions a) := by unfold processGetPinTokenWithPermissions; psame
instance : PSame logIssued := by unfold logIssued; psame
instance (a : PinParams) : PSame (clientPinCommand a) := by unfold clientPinCommand; psame
instance (m p : Bytes) (pr : Proto) : PSame (verifyToken m p pr) := by unfold verifyToken; psame
instance : PSame resetClientPin := by unfold resetClientPin; psame
instance (i : HmacSecretInput) (c : Bytes) : PSame (processHmacSecret i c) := by unfold processHmacSecret; psame
instance : PSame clearTokenFlags := by unfold clearTokenFlags; psame
instance : PSame updateTimeouts := by unfold updateTimeouts; psame
instance : PSame checkUserVerified := by unfold checkUserVerified; psame
instance (p : UInt8) : PSame (hasPermission p) := by unfold hasPermission; psame
instance : PSame hasNoRpIdPermission := by unfold hasNoRpIdPermission; psame
instance (r : Bytes) : PSame (hasNoOrRpIdPermission r) := by unfold hasNoOrRpIdPermission; psame
instance (r : Bytes) : PSame (hasNoOrRpIdHashPermission r) := by unfold hasNoOrRpIdHashPermission; psame
instance (r : Bytes) : PSame (ensureRpIdPermission r) := by unfold ensureRpIdPermission; psame

/-! ## Stateful commands -/

instance : PSame getCommand := by unfold getCommand; psame
instance (i : AssertionInput) (l : List Nat) (ch : Channel) : PSame (setCommand (.getAssertion i l) ch) := by unfold setCommand; psame
instance (i : Nat) (ch : Channel) : PSame (setCommand (.enumerateRps i) ch) := by unfold setCommand; psame
instance (l : List Nat) (ch : Channel) : PSame (setCommand (.enumerateCredentials l) ch) := by unfold setCommand; psame
instance : PSame nextAssertionCredential := by unfold nextAssertionCredential; psame
instance : PSame nextEnumerateRp := by unfold nextEnumerateRp; psame
instance : PSame nextEnumerateCredential := by unfold nextEnumerateCredential; psame

/-! ## Commands -/

instance (v : Option CVal) : PSame (cborWriteM v) := by cases v <;> (unfold cborWriteM; psame)
instance : PSame incrementGlobalCounter := by unfold incrementGlobalCounter; psame
instance (h : Bytes) (f : UInt8) : PSame (generateAuthData h f) := by unfold generateAuthData; psame
instance (p : Option Bytes) (pr : Option Proto) : PSame (authPrecheck p pr) := by unfold authPrecheck; psame
instance (u : UInt8) (a b c : Bytes) (pr : Option Proto) : PSame (checkTokenFor u a b c pr) := by unfold checkTokenFor; psame
instance (a : McParams) : PSame (mcEnterprise a) := by unfold mcEnterprise; psame
instance (a : McParams) : PSame (mcWithoutParam a) := by unfold mcWithoutParam; psame
instance (a : McParams) : PSame (mcAuth a) := by unfold mcAuth; psame
instance (a b : Bytes) (u : Bool) : PSame (isExcluded a b u) := by unfold isExcluded; psame
instance (a : Bytes) (u : Bool) (l : List Descriptor) : PSame (checkExcludeList a u l) := by
  induction l with
  | nil => unfold checkExcludeList; psame
  | cons d l ih => unfold checkExcludeList; psame
instance (a : McParams) : PSame (mcMinPin a) := by unfold mcMinPin; psame
instance (a : McParams) : PSame (mcLargeBlobKey a) := by unfold mcLargeBlobKey; psame
instance (a : McParams) (sk : Bytes) (l : Option Bytes) : PSame (mcCreate a sk l) := by unfold mcCreate; psame
instance (b : Bool) : PSame (mcMinPinOutput b) := by unfold mcMinPinOutput; psame
instance (a : McParams) (b : Bool) : PSame (mcExtOutput a b) := by unfold mcExtOutput; psame
instance (a : McParams) (b : Bool) (x y : Bytes) : PSame (mcAuthData a b x y) := by unfold mcAuthData; psame
instance (b : Bool) (x y : Bytes) : PSame (mcSign b x y) := by unfold mcSign; psame
instance (a : McParams) (b : Bool) : PSame (mcFinish a b) := by unfold mcFinish; psame
instance (a : McParams) : PSame (makeCredential a) := by unfold makeCredential; psame
instance (a : Bytes) (b : Bool) : PSame (generateCredRandom a b) := by unfold generateCredRandom; psame
instance (c : Cred) (i : AssertionInput) : PSame (gaHmacSecret c i) := by unfold gaHmacSecret; psame
instance (c : Cred) (i : AssertionInput) : PSame (gaExtOutput c i) := by unfold gaExtOutput; psame
instance (c : Cred) (i : AssertionInput) (n : Option Nat) : PSame (assertionResponse c i n) := by unfold assertionResponse; psame
instance (a : Bytes) (u : Bool) (l : List Descriptor) : PSame (anyFromAllowList a u l) := by
  induction l with
  | nil => unfold anyFromAllowList; psame
  | cons d l ih => unfold anyFromAllowList; psame
instance (a : GaParams) : PSame (gaWithoutParam a) := by unfold gaWithoutParam; psame
instance (a : GaParams) : PSame (gaAuth a) := by unfold gaAuth; psame
instance (a : GaParams) : PSame (gaFindCredential a) := by unfold gaFindCredential; psame
instance (a : GaParams) : PSame (gaPresence a) := by unfold gaPresence; psame
instance (i : AssertionInput) (l : List Nat) (ch : Channel) : PSame (gaRemember i l ch) := by unfold gaRemember; psame
instance (a : GaParams) (ch : Channel) : PSame (getAssertion a ch) := by unfold getAssertion; psame
instance : PSame getNextAssertion := by unfold getNextAssertion; psame
instance : PSame infoEp := by unfold infoEp; psame
instance : PSame getInfo := by unfold getInfo; psame
instance : PSame resetCommand := by unfold resetCommand; psame
instance : PSame selection := by unfold selection; psame
instance : PSame storedRpIds := by unfold storedRpIds; psame
instance (b : Bytes) : PSame (checkRpIdPermissions b) := by unfold checkRpIdPermissions; psame
instance : PSame cmMetadata := by unfold cmMetadata; psame
instance (ch : Channel) : PSame (cmRpsBegin ch) := by unfold cmRpsBegin; psame
instance : PSame cmRpsNext := by unfold cmRpsNext; psame
instance (a : CmSubParams) (ch : Channel) : PSame (cmCredsBegin a ch) := by unfold cmCredsBegin; psame
instance : PSame cmCredsNext := by unfold cmCredsNext; psame
instance (a : CmSubParams) : PSame (cmDelete a) := by unfold cmDelete; psame
instance (a : CmSubParams) : PSame (cmUpdate a) := by unfold cmUpdate; psame
instance (a : CmParams) : PSame (cmAuthData a) := by unfold cmAuthData; psame
instance (a : CmParams) : PSame (cmAuth a) := by unfold cmAuth; psame
instance (a : CmParams) (ch : Channel) : PSame (cmDispatch a ch) := by unfold cmDispatch; psame
instance (a : CmParams) (ch : Channel) : PSame (credentialManagement a ch) := by unfold credentialManagement; psame
instance : PSame configEnableEp := by unfold configEnableEp; psame
instance (b : Bool) : PSame (configCheckForce b) := by unfold configCheckForce; psame
instance (a : MinPinParams) : PSame (configSetMinPin a) := by unfold configSetMinPin; psame
instance (a : ConfigSub) : PSame (configEnforceUv a) := by unfold configEnforceUv; psame
instance (a : ConfigParams) : PSame (configAuthData a) := by unfold configAuthData; psame
instance (a : ConfigParams) : PSame (configAuth a) := by unfold configAuth; psame
instance (a : ConfigParams) : PSame (configDispatch a) := by unfold configDispatch; psame
instance (a : ConfigParams) : PSame (configCommand a) := by unfold configCommand; psame
instance (a : LbParams) (n : Nat) : PSame (lbGet a n) := by unfold lbGet; psame
instance (a : LbParams) : PSame (lbStart a) := by unfold lbStart; psame
instance : PSame lbNeedsAuth := by unfold lbNeedsAuth; psame
instance (a : LbParams) (b : Bytes) : PSame (lbAuth a b) := by unfold lbAuth; psame
instance : PSame lbComplete := by unfold lbComplete; psame
instance (a : LbParams) (b : Bytes) : PSame (lbAppend a b) := by unfold lbAppend; psame
instance (a : LbParams) (b : Bytes) : PSame (lbSet a b) := by unfold lbSet; psame
instance (a : LbParams) : PSame (largeBlobsCommand a) := by unfold largeBlobsCommand; psame

/-! ## U2F -/

instance : PSame consumeUp := by unfold consumeUp; psame
instance (a b c d : Bytes) (e : Attestation) : PSame (u2fRegisterResponse a b c d e) := by unfold u2fRegisterResponse; psame
instance : PSame u2fAttestation := by unfold u2fAttestation; psame
instance (a b : Bytes) : PSame (u2fRegister a b) := by unfold u2fRegister; psame
instance (a b c : Bytes) : PSame (u2fSign a b c) := by unfold u2fSign; psame
instance (a b c : Bytes) (f : U2fFlags) : PSame (u2fAuthenticate a b c f) := by unfold u2fAuthenticate; psame
instance (f : U2fFlags) : PSame (u2fCheckUp f) := by unfold u2fCheckUp; psame
instance (c : U2fCommand) : PSame (u2fDispatch c) := by unfold u2fDispatch; psame
instance (m : Bytes) : PSame (u2fCommand m) := by unfold u2fCommand; psame

/-! ## The state machine -/

instance (ch : Channel) : PSame (clearOtherChannels ch) := by unfold clearOtherChannels; psame
instance (ch : Channel) (c : Command) : PSame (fidoCommand ch c) := by unfold fidoCommand; psame
instance (c : Command) : PSame (vendorChannelCommand c) := by unfold vendorChannelCommand; psame
instance (ch : Channel) (c : Command) : PSame (channelCommand ch c) := by unfold channelCommand; psame
instance (c : Command) (ch : Channel) : PSame (processParsed c ch) := by unfold processParsed; psame
instance (r : Response) : PSame (logCounter r) := by unfold logCounter; psame
instance (r : Response) : PSame (encodeResponse r) := by unfold encodeResponse; psame
instance (r : Response) : PSame (respond r) := by unfold respond; psame
instance {m : M Bytes} [h : PSame m] : PSame (errorByte m) := by
  have hl : ∀ s, (errorByte m s).2 = (m s).2 := by
    intro s; simp only [errorByte]; rcases e1 : m s with ⟨r1, t1⟩; cases r1 <;> rfl
  constructor
  · intro s1 s2 hs
    rw [hl, hl]
    refine (h.out s1 s2 hs).imp (fun h3 => ⟨?_, h3.2⟩) id
    have h4 := h3.1.eq
    simp only [errorByte]
    rcases e1 : m s1 with ⟨r1, t1⟩
    rcases e2 : m s2 with ⟨r2, t2⟩
    rw [e1, e2] at h4
    cases h4
    cases r1 <;> exact RelRes.refl (fun _ => rfl) _
  · intro s; rw [hl]; exact h.grows s
instance (ch : Channel) (m : Bytes) : PSame (processCommand ch m) := by unfold processCommand; psame
instance (m : Bytes) : PSame (processU2f m) := by unfold processU2f; psame
instance : PSame touchButton := by unfold touchButton; psame
instance (ms : Nat) : PSame (fun s => (.ok .nothing, { s with env := { s.env with now := s.env.now + ms } }) : M Reply) :=
  ⟨fun t1 t2 ht => .inl ⟨rfl, by
    show ({ t2.env with now := t2.env.now + ms } : Env) = { t1.env with now := t1.env.now + ms }; rw [ht.env],
      ht.vol, ht.data, ht.pin⟩, fun _ => List.suffix_refl _⟩
instance (i : Input) : PSame (stepM i) := by unfold stepM; psame
instance : PSame bootM := by unfold bootM; psame

end Verif.Ctap
