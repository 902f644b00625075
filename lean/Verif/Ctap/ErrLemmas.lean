import Verif.Ctap.Frame

/-!
# No failure is reported as a success

No computation of the CTAP layer fails with the status code of success.  `NE`: for pure functions; `NF`: for the others.
-/
namespace Verif.Ctap
open Verif.Cbor (Value)
set_option linter.unusedSectionVars false
variable [Dev]

class NE (x : Except Status α) : Prop where
  out : x ≠ .error .ok

class NF (m : M α) : Prop where
  out : ∀ s, (m s).1 ≠ .err .ok

theorem NE.error {e : Status} (h : e ≠ .ok) : NE (.error e : Except Status α) := ⟨fun h' => h (Except.error.inj h')⟩
instance (a : α) : NE (.ok a : Except Status α) := ⟨fun h => nomatch h⟩
theorem NE.bindE {x : Except Status α} {f : α → Except Status β} (h1 : NE x) (h2 : ∀ a, NE (f a)) : NE (x >>= f) := by
  cases x with
  | error e => exact ⟨fun h => h1.out (congrArg _ (Except.error.inj h))⟩
  | ok a => exact ⟨(h2 a).out⟩
theorem NE.iteE {c : Prop} [Decidable c] {x y : Except Status α} (h1 : NE x) (h2 : NE y) : NE (if c then x else y) := by
  split <;> assumption

theorem NE.passed {x : Except Status α} {e : Status} [h : NE x] (he : x = .error e) :
    NE (.error e : Except Status β) := NE.error fun h' => h.out (by rw [he, h'])

/-- The rule application for `NE`. -/
macro "ne" : tactic => `(tactic| repeat (first
  | infer_instance
  | with_reducible refine NE.bindE ?_ ?_
  | with_reducible refine NE.iteE ?_ ?_
  | with_reducible exact NE.error (by decide)
  | with_reducible exact NE.passed (by assumption)
  | intro _
  | split
  | dsimp only))

theorem NF.bindE {m : M α} {f : α → M β} (h1 : NF m) (h2 : ∀ a, NF (f a)) : NF (m >>= f) := by
  constructor
  intro s
  have h4 := h1.out s
  simp only [bind_def, M.bind]
  rcases h : m s with ⟨r, s1⟩
  rw [h] at h4
  cases r with
  | ok a => exact (h2 _).out _
  | err e => exact fun h5 => h4 (congrArg Res.err (Res.err.inj h5))
  | panic => exact fun h5 => nomatch h5
  | crash => exact fun h5 => nomatch h5
theorem NF.fail {e : Status} (h : e ≠ .ok) : NF (fail e : M α) := ⟨fun _ h' => h (Res.err.inj h')⟩
instance : NF (panicM : M α) := ⟨fun _ h => nomatch h⟩
instance (a : α) : NF (M.pure a) := ⟨fun _ h => nomatch h⟩
theorem NF.guardE {c : Bool} {e : Status} (h : e ≠ .ok) : NF (guardE c e) := by
  cases c
  · exact NF.fail h
  · exact ⟨fun _ h => nomatch h⟩
theorem NF.req {o : Option α} {e : Status} (h : e ≠ .ok) : NF (req o e) := by
  cases o
  · exact NF.fail h
  · exact ⟨fun _ h => nomatch h⟩
instance {x : Except Status α} [h : NE x] : NF (liftE x) := by
  cases x with
  | error e => exact NF.fail fun he => h.out (congrArg _ he)
  | ok a => exact ⟨fun _ h => nomatch h⟩
instance : NF getV := ⟨fun _ h => nomatch h⟩
instance : NF clock := ⟨fun _ h => nomatch h⟩
instance (f : Vol → Vol) : NF (modV f) := ⟨fun _ h => nomatch h⟩
instance (f : ClientPin → ClientPin) : NF (modPin f) := ⟨fun _ h => nomatch h⟩
instance (f : TokenState → TokenState) : NF (modTok f) := ⟨fun _ h => nomatch h⟩
instance (f : StatefulPerm → StatefulPerm) : NF (modSp f) := ⟨fun _ h => nomatch h⟩
instance (e : Ev) : NF (logE e) := ⟨fun _ h => nomatch h⟩
theorem NF.effect {f : St → Res α} (hf : ∀ s, f s ≠ .err .ok) : NF (effect f) := by
  constructor
  intro s
  simp only [Verif.Ctap.effect]
  split
  · exact fun h => nomatch h
  · exact hf s
theorem StoreErr.toStatus_ne (e : StoreErr) : e.toStatus ≠ .ok := by cases e <;> decide
instance : NF readP := NF.effect fun s => by
  split
  · exact fun h => StoreErr.toStatus_ne _ (Res.err.inj h)
  · exact fun h => nomatch h
instance (n : Nat) : NF (rng n) := NF.effect fun s h => nomatch h
instance (f : St → α) : NF (effect fun s => .ok (f s)) := NF.effect fun s h => nomatch h
instance (f : Persist → Persist) (evs : List Ev) : NF (writeP f evs) := by
  constructor
  intro s
  simp only [writeP]
  split
  · exact fun h => nomatch h
  split
  · exact fun h => nomatch h
  · exact fun h => StoreErr.toStatus_ne _ (Res.err.inj h)
  · exact fun h => StoreErr.toStatus_ne _ (Res.err.inj h)
theorem NF.whenE {c : Bool} {m : M Unit} (h : NF m) : NF (whenM c m) := by
  cases c
  · exact ⟨fun _ h => nomatch h⟩
  · exact h
theorem NF.iteE {c : Prop} [Decidable c] {m n : M α} (h1 : NF m) (h2 : NF n) : NF (if c then m else n) := by
  split <;> assumption
theorem NF.mapErrE {f : Status → Status} {m : M α} (hf : ∀ e, e ≠ .ok → f e ≠ .ok) (hm : NF m) : NF (mapErr f m) := by
  constructor
  intro s
  have h1 := hm.out s
  simp only [mapErr]
  rcases h : m s with ⟨r, s1⟩
  rw [h] at h1
  cases r with
  | ok a => exact fun h => nomatch h
  | err e => exact fun h' => hf e (fun he => h1 (congrArg _ he)) (Res.err.inj h')
  | panic => exact fun h => nomatch h
  | crash => exact fun h => nomatch h

/-- The rule application for `NF`. -/
macro "nf" : tactic => `(tactic| repeat (first
  | infer_instance
  | with_reducible refine NF.bindE ?_ ?_
  | with_reducible refine NF.mapErrE (by first | (intro e _; decide) | (intro e he; (try split) <;> first | decide | exact he)) ?_
  | with_reducible refine NF.whenE ?_
  | with_reducible refine NF.iteE ?_ ?_
  | with_reducible exact NF.fail (by first | decide | (split <;> decide))
  | with_reducible exact NF.guardE (by first | decide | (split <;> decide))
  | with_reducible exact NF.req (by first | decide | (split <;> decide))
  | intro _
  | split
  | dsimp only))

/-! ## Pure functions -/

instance (v : Value) : NE (extractUnsigned v) := by unfold extractUnsigned; ne
instance (v : Value) : NE (extractInteger v) := by unfold extractInteger; ne
instance (v : Value) : NE (extractBytes v) := by unfold extractBytes; ne
instance (v : Value) : NE (extractText v) := by unfold extractText; ne
instance (v : Value) : NE (extractArray v) := by unfold extractArray; ne
instance (v : Value) : NE (extractMap v) := by unfold extractMap; ne
instance (v : Value) : NE (extractBool v) := by unfold extractBool; ne
instance (o : Option α) : NE (okOrMissing o) := by unfold okOrMissing; ne
instance (f : α → Except Status β) [∀ a, NE (f a)] (o : Option α) : NE (optE f o) := by unfold optE; ne
instance (d : β) (f : α → Except Status β) [∀ a, NE (f a)] (o : Option α) : NE (orDefault d f o) := by
  unfold orDefault; ne
instance (v : Value) : NE (Policy.ofCbor v) := by unfold Policy.ofCbor; ne
instance (bs : Bytes) : NE (cborRead bs) := by unfold cborRead; ne
instance (v : Value) : NE (cborWrite v) := by unfold cborWrite; ne
instance (k c : Bytes) (e : Bool) : NE (aesDecrypt k c e) := by unfold aesDecrypt; ne
instance (k : Bytes) (v : Value) : NE (skFromCbor k v) := by unfold skFromCbor; ne
instance (ek wk bytes : Bytes) : NE (decryptCredId ek wk bytes) := by unfold decryptCredId; ne
instance (pr : Proto) (key msg sig : Bytes) : NE (verifyMac pr key msg sig) := by unfold verifyMac; ne
instance (s : SharedSecret) (ct : Bytes) : NE (s.decrypt ct) := by unfold SharedSecret.decrypt; ne
instance (s : SharedSecret) (msg sig : Bytes) : NE (s.verify msg sig) := by unfold SharedSecret.verify; ne
instance (k : CoseKey) : NE k.ecdhCoordinates := by unfold CoseKey.ecdhCoordinates; ne
instance (p : PinProtocol) (pr : Proto) (k : CoseKey) : NE (p.decapsulate pr k) := by unfold PinProtocol.decapsulate; ne
instance (ss : SharedSecret) (e : Bytes) : NE (decryptPin ss e) := by unfold decryptPin; ne
instance (new : Cred) (l : List (Nat × Cred)) : NE (chooseSlot new l) := by unfold chooseSlot; ne
instance (sk : Bytes) : NE (pubKey sk) := by unfold pubKey; ne
instance (sk m : Bytes) : NE (signEncode sk m) := by unfold signEncode; ne
instance (c : Cred) (t : Option Nat) : NE (credResponse c t) := by unfold credResponse; ne

/-! ## Parsing -/

instance (keys : List Value) (v : Value) : NE (fields keys v) := by
  unfold fields
  have h : NE (extractMap v) := inferInstance
  split
  · exact NE.error fun he => h.out (by simp_all)
  · infer_instance
instance (f : α → Except Status β) [∀ a, NE (f a)] (l : List α) : NE (mapE f l) := by
  induction l with
  | nil => unfold mapE; ne
  | cons a l ih => unfold mapE; ne
instance (f : Value → Except Status β) [∀ a, NE (f a)] (v : Value) : NE (arrayOf f v) := by unfold arrayOf; ne
instance (o : Option Bool) : NE (checkLargeBlobKey o) := by unfold checkLargeBlobKey; ne
instance (n : Nat) : NE (EpMode.parse n) := by unfold EpMode.parse; ne
instance (v : Value) : NE (RpEntity.ofCbor v) := by unfold RpEntity.ofCbor; ne
instance (v : Value) : NE (UserEntity.ofCbor v) := by unfold UserEntity.ofCbor; ne
instance (v : Value) : NE (credTypeOfCbor v) := by unfold credTypeOfCbor; ne
instance (v : Value) : NE (CredParam.ofCbor v) := by unfold CredParam.ofCbor; ne
instance (v : Value) : NE (Transport.ofCbor v) := by unfold Transport.ofCbor; ne
instance (v : Value) : NE (Descriptor.ofCbor v) := by unfold Descriptor.ofCbor; ne
instance (v : Value) : NE (McExt.ofCbor v) := by unfold McExt.ofCbor; ne
instance (v : Value) : NE (CoseKey.ofCbor v) := by unfold CoseKey.ofCbor; ne
instance (v : Value) : NE (Proto.ofCbor v) := by unfold Proto.ofCbor; ne
instance (v : Value) : NE (HmacSecretInput.ofCbor v) := by unfold HmacSecretInput.ofCbor; ne
instance (v : Value) : NE (GaExt.ofCbor v) := by unfold GaExt.ofCbor; ne
instance (v : Value) : NE (McOptions.ofCbor v) := by unfold McOptions.ofCbor; ne
instance (v : Value) : NE (GaOptions.ofCbor v) := by unfold GaOptions.ofCbor; ne
instance (v : Value) : NE (McParams.ofCbor v) := by unfold McParams.ofCbor; ne
instance (v : Value) : NE (GaParams.ofCbor v) := by unfold GaParams.ofCbor; ne
instance (v : Value) : NE (PinSub.ofCbor v) := by unfold PinSub.ofCbor; ne
instance (v : Value) : NE (PinParams.ofCbor v) := by unfold PinParams.ofCbor; ne
instance (p : LbParams) : NE p.check := by unfold LbParams.check; ne
instance (v : Value) : NE (LbParams.ofCbor v) := by unfold LbParams.ofCbor; ne
instance (v : Value) : NE (ConfigSub.ofCbor v) := by unfold ConfigSub.ofCbor; ne
instance (v : Value) : NE (MinPinParams.ofCbor v) := by unfold MinPinParams.ofCbor; ne
instance (v : Value) : NE (ConfigParams.ofCbor v) := by unfold ConfigParams.ofCbor; ne
instance (v : Value) : NE (CmSub.ofCbor v) := by unfold CmSub.ofCbor; ne
instance (v : Value) : NE (CmSubParams.ofCbor v) := by unfold CmSubParams.ofCbor; ne
instance (v : Value) : NE (CmParams.ofCbor v) := by unfold CmParams.ofCbor; ne
instance (m : Bytes) : NE (Command.deserialize m) := by unfold Command.deserialize; ne

/-! ## User presence, the cipher, encodings -/

instance (n : Nat) : NF (presenceLoop n) := by
  induction n with
  | zero => unfold presenceLoop; nf
  | succ n ih => unfold presenceLoop; nf
instance : NF checkPresence := by unfold checkPresence; nf

/-- The same for a computation that returns its failure as a value. -/
class NV (m : M (Except Status α)) : Prop where
  out : ∀ s, (m s).1 ≠ .ok (.error .ok)

theorem NV.bindE {m : M α} {f : α → M (Except Status β)} (h2 : ∀ a, NV (f a)) : NV (m >>= f) := by
  constructor
  intro s
  simp only [bind_def, M.bind]
  rcases h : m s with ⟨r, s1⟩
  cases r with
  | ok a => exact (h2 _).out _
  | err e => exact fun h5 => nomatch h5
  | panic => exact fun h5 => nomatch h5
  | crash => exact fun h5 => nomatch h5
theorem NV.pure {x : Except Status α} (h : x ≠ .error .ok) : NV (M.pure x) := ⟨fun _ h' => h (Res.ok.inj h')⟩
instance : NV (panicM : M (Except Status α)) := ⟨fun _ h => nomatch h⟩
instance (n : Nat) : NV (presenceLoop n) := by
  induction n with
  | zero => unfold presenceLoop; exact NV.pure (fun h => nomatch h)
  | succ n ih =>
    unfold presenceLoop
    refine NV.bindE fun w => ?_
    cases w with
    | touched => exact NV.bindE fun _ => NV.bindE fun _ => NV.pure (fun h => nomatch h)
    | declined => exact NV.pure (fun h => nomatch h)
    | canceled => exact NV.pure (fun h => nomatch h)
    | fail => exact NV.pure (fun h => nomatch h)
    | timeout =>
      refine NV.bindE fun r => ?_
      cases r with
      | ok => exact ih
      | canceled => exact NV.pure (fun h => nomatch h)
      | ioError => infer_instance
instance : NF checkPresenceE := by
  constructor
  intro s
  unfold checkPresenceE checkPresence
  have h1 := (inferInstance : NF (presenceLoop (30000 / 100 + 1))).out s
  have h2 := (inferInstance : NV (presenceLoop (30000 / 100 + 1))).out s
  simp only [bind_def, M.bind]
  rcases h : presenceLoop (30000 / 100 + 1) s with ⟨r, s1⟩
  rw [h] at h1 h2
  cases r with
  | ok x =>
    have : NE x := ⟨fun hx => h2 (congrArg _ hx)⟩
    exact (inferInstance : NF (liftE x)).out _
  | err e => exact fun h5 => h1 (congrArg Res.err (Res.err.inj h5))
  | panic => exact fun h5 => nomatch h5
  | crash => exact fun h5 => nomatch h5
instance (r : Verif.Crypto.WrapRes) : NF (liftWrap r) := by cases r <;> (unfold liftWrap; nf)
instance (o : Option Value) : NF (cborWriteM o) := by unfold cborWriteM; nf

/-! ## KeyStore -/

instance (plaintext : Bytes) (embedsIv : Bool) : NF (drawIv plaintext embedsIv) := by unfold drawIv; nf
instance (key plaintext : Bytes) (embedsIv : Bool) : NF (aesEncrypt key plaintext embedsIv) := by unfold aesEncrypt; nf
instance : NF (getMasterKeys) := by unfold getMasterKeys; nf
instance (wrapKey sk : Bytes) : NF (skToCbor wrapKey sk) := by unfold skToCbor; nf
instance (c : CredSource) : NF (wrapCredential c) := by unfold wrapCredential; nf
instance (bytes rpIdHash : Bytes) : NF (unwrapCredential bytes rpIdHash) := by unfold unwrapCredential; nf
instance (hasUv : Bool) : NF (credRandom hasUv) := by unfold credRandom; nf
instance : NF (newSk) := by unfold newSk; nf

/-! ## Storage -/

instance : NF (iterCredentials) := by unfold iterCredentials; nf
instance (key : Nat) : NF (getCredential key) := by unfold getCredential; nf
instance (id : Bytes) : NF (findCredentialItem id) := by unfold findCredentialItem; nf
instance (rpId id : Bytes) : NF (findCredential rpId id) := by unfold findCredential; nf
instance (new : Cred) : NF (storeCredential new) := by unfold storeCredential; nf
instance (id : Bytes) : NF (deleteCredential id) := by unfold deleteCredential; nf
instance (id : Bytes) (name displayName icon : Option Bytes) : NF (updateCredential id name displayName icon) := by unfold updateCredential; nf
instance : NF (countCredentials) := by unfold countCredentials; nf
instance : NF (remainingCredentials) := by unfold remainingCredentials; nf
instance : NF (newCreationOrder) := by unfold newCreationOrder; nf
instance : NF (signatureCounter) := by unfold signatureCounter; nf
instance (increment : Nat) : NF (incrSignatureCounter increment) := by unfold incrSignatureCounter; nf
instance : NF (pinHash) := by unfold pinHash; nf
instance : NF (pinCodePointLength) := by unfold pinCodePointLength; nf
instance (hash : Bytes) (len : Nat) : NF (setPin hash len) := by unfold setPin; nf
instance : NF (pinRetries) := by unfold pinRetries; nf
instance : NF (decrPinRetries) := by unfold decrPinRetries; nf
instance : NF (resetPinRetries) := by unfold resetPinRetries; nf
instance : NF (minPinLength) := by unfold minPinLength; nf
instance (n : Nat) : NF (setMinPinLength n) := by unfold setMinPinLength; nf
instance : NF (minPinLengthRpIds) := by unfold minPinLengthRpIds; nf
instance (ids : List Bytes) : NF (setMinPinLengthRpIds ids) := by unfold setMinPinLengthRpIds; nf
instance (offset count : Nat) : NF (getLargeBlobArray offset count) := by unfold getLargeBlobArray; nf
instance (b : Bytes) : NF (commitLargeBlobArray b) := by unfold commitLargeBlobArray; nf
instance : NF (resetStorage) := by unfold resetStorage; nf
instance : NF (hasForcePinChange) := by unfold hasForcePinChange; nf
instance : NF (forcePinChange) := by unfold forcePinChange; nf
instance : NF (enterpriseAttestation) := by unfold enterpriseAttestation; nf
instance : NF (attestationGet) := by
  unfold attestationGet
  refine NF.mapErrE (fun e _ => by unfold attestationError; split <;> decide) ?_
  nf
instance : NF (enableEnterpriseAttestation) := by unfold enableEnterpriseAttestation; nf
instance : NF (hasAlwaysUv) := by unfold hasAlwaysUv; nf
instance : NF (toggleAlwaysUv) := by unfold toggleAlwaysUv; nf

/-! ## Pin -/

instance : NF (PinProtocol.fresh) := by unfold PinProtocol.fresh; nf
instance (pr : Proto) : NF (regenerate pr) := by unfold regenerate; nf
instance (pr : Proto) : NF (resetToken pr) := by unfold resetToken; nf
instance (s : SharedSecret) (pt : Bytes) : NF (SharedSecret.encrypt s pt) := by unfold SharedSecret.encrypt; nf
instance (pr : Proto) (k : CoseKey) : NF (getSharedSecret pr k) := by unfold getSharedSecret; nf
instance : NF (ClientPin.fresh) := by unfold ClientPin.fresh; nf
instance (ss : SharedSecret) (newPinEnc : Bytes) : NF (checkAndStoreNewPin ss newPinEnc) := by unfold checkAndStoreNewPin; nf
instance (stored dec : Bytes) : NF (comparePin stored dec) := by unfold comparePin; nf
instance (pr : Proto) (ss : SharedSecret) (pinHashEnc : Bytes) : NF (verifyPinHashEnc pr ss pinHashEnc) := by unfold verifyPinHashEnc; nf
instance : NF (processGetPinRetries) := by unfold processGetPinRetries; nf
instance (pr : Proto) : NF (processGetKeyAgreement pr) := by unfold processGetKeyAgreement; nf
instance (a : PinParams) : NF (processSetPin a) := by unfold processSetPin; nf
instance (a : PinParams) : NF (processChangePin a) := by unfold processChangePin; nf
instance (a : PinParams) : NF (processGetPinToken a) := by unfold processGetPinToken; nf
instance (a : PinParams) : NF (processGetPinTokenWithPermissions a) := by unfold processGetPinTokenWithPermissions; nf
instance : NF (logIssued) := by unfold logIssued; nf
instance (a : PinParams) : NF (clientPinCommand a) := by unfold clientPinCommand; nf
instance (msg param : Bytes) (pr : Proto) : NF (verifyToken msg param pr) := by unfold verifyToken; nf
instance : NF (resetClientPin) := by unfold resetClientPin; nf
instance (i : HmacSecretInput) (credRandom : Bytes) : NF (processHmacSecret i credRandom) := by unfold processHmacSecret; nf
instance : NF (clearTokenFlags) := by unfold clearTokenFlags; nf
instance : NF (updateTimeouts) := by unfold updateTimeouts; nf
instance : NF (checkUserVerified) := by unfold checkUserVerified; nf
instance (perm : UInt8) : NF (hasPermission perm) := by unfold hasPermission; nf
instance : NF (hasNoRpIdPermission) := by unfold hasNoRpIdPermission; nf
instance (rpId : Bytes) : NF (hasNoOrRpIdPermission rpId) := by unfold hasNoOrRpIdPermission; nf
instance (hash : Bytes) : NF (hasNoOrRpIdHashPermission hash) := by unfold hasNoOrRpIdHashPermission; nf
instance (rpId : Bytes) : NF (ensureRpIdPermission rpId) := by unfold ensureRpIdPermission; nf

/-! ## Core -/

instance : NF (getCommand) := by unfold getCommand; nf
instance (c : Stateful) (ch : Channel) : NF (setCommand c ch) := by unfold setCommand; nf
instance : NF (nextAssertionCredential) := by unfold nextAssertionCredential; nf
instance : NF (nextEnumerateRp) := by unfold nextEnumerateRp; nf
instance : NF (nextEnumerateCredential) := by unfold nextEnumerateCredential; nf
instance : NF (incrementGlobalCounter) := by unfold incrementGlobalCounter; nf
instance (rpIdHash : Bytes) (flags : UInt8) : NF (generateAuthData rpIdHash flags) := by unfold generateAuthData; nf
instance (param : Option Bytes) (proto : Option Proto) : NF (authPrecheck param proto) := by unfold authPrecheck; nf
instance (perm : UInt8) (rpId cdh param : Bytes) (proto : Option Proto) : NF (checkTokenFor perm rpId cdh param proto) := by unfold checkTokenFor; nf
instance (a : McParams) : NF (mcEnterprise a) := by unfold mcEnterprise; nf
instance (a : McParams) : NF (mcWithoutParam a) := by unfold mcWithoutParam; nf
instance (a : McParams) : NF (mcAuth a) := by unfold mcAuth; nf
instance (rpId id : Bytes) (hasUv : Bool) : NF (isExcluded rpId id hasUv) := by unfold isExcluded; nf
instance (rpId : Bytes) (hasUv : Bool) (l : List Descriptor) : NF (checkExcludeList rpId hasUv l) := by
  induction l with
  | nil => unfold checkExcludeList; nf
  | cons d l ih => unfold checkExcludeList; nf
instance (a : McParams) : NF (mcMinPin a) := by unfold mcMinPin; nf
instance (a : McParams) : NF (mcLargeBlobKey a) := by unfold mcLargeBlobKey; nf
instance (a : McParams) (sk : Bytes) (lbk : Option Bytes) : NF (mcCreate a sk lbk) := by unfold mcCreate; nf
instance (minPin : Bool) : NF (mcMinPinOutput minPin) := by unfold mcMinPinOutput; nf
instance (a : McParams) (minPin : Bool) : NF (mcExtOutput a minPin) := by unfold mcExtOutput; nf
instance (a : McParams) (minPin : Bool) (id sk : Bytes) : NF (mcAuthData a minPin id sk) := by unfold mcAuthData; nf
instance (epAtt : Bool) (sk data : Bytes) : NF (mcSign epAtt sk data) := by unfold mcSign; nf
instance (a : McParams) (epAtt : Bool) : NF (mcFinish a epAtt) := by unfold mcFinish; nf
instance (a : McParams) : NF (makeCredential a) := by unfold makeCredential; nf
instance (sk : Bytes) (hasUv : Bool) : NF (generateCredRandom sk hasUv) := by unfold generateCredRandom; nf
instance (c : Cred) (i : AssertionInput) : NF (gaHmacSecret c i) := by unfold gaHmacSecret; nf
instance (c : Cred) (i : AssertionInput) : NF (gaExtOutput c i) := by unfold gaExtOutput; nf
instance (c : Cred) (i : AssertionInput) (number : Option Nat) : NF (assertionResponse c i number) := by unfold assertionResponse; nf
instance (rpId : Bytes) (hasUv : Bool) (l : List Descriptor) : NF (anyFromAllowList rpId hasUv l) := by
  induction l with
  | nil => unfold anyFromAllowList; nf
  | cons d l ih => unfold anyFromAllowList; nf
instance (a : GaParams) : NF (gaWithoutParam a) := by unfold gaWithoutParam; nf
instance (a : GaParams) : NF (gaAuth a) := by unfold gaAuth; nf
instance (a : GaParams) : NF (gaFindCredential a) := by unfold gaFindCredential; nf
instance (a : GaParams) : NF (gaPresence a) := by unfold gaPresence; nf
instance (inp : AssertionInput) (keys : List Nat) (ch : Channel) : NF (gaRemember inp keys ch) := by unfold gaRemember; nf
instance (a : GaParams) (ch : Channel) : NF (getAssertion a ch) := by unfold getAssertion; nf
instance : NF (getNextAssertion) := by unfold getNextAssertion; nf
instance : NF (infoEp) := by unfold infoEp; nf
instance : NF (getInfo) := by unfold getInfo; nf
instance : NF (resetCommand) := by unfold resetCommand; nf
instance : NF (selection) := by unfold selection; nf

/-! ## CredMgmt -/

instance : NF (storedRpIds) := by unfold storedRpIds; nf
instance (id : Bytes) : NF (checkRpIdPermissions id) := by unfold checkRpIdPermissions; nf
instance : NF (cmMetadata) := by unfold cmMetadata; nf
instance (ch : Channel) : NF (cmRpsBegin ch) := by unfold cmRpsBegin; nf
instance : NF (cmRpsNext) := by unfold cmRpsNext; nf
instance (sp : CmSubParams) (ch : Channel) : NF (cmCredsBegin sp ch) := by unfold cmCredsBegin; nf
instance : NF (cmCredsNext) := by unfold cmCredsNext; nf
instance (sp : CmSubParams) : NF (cmDelete sp) := by unfold cmDelete; nf
instance (sp : CmSubParams) : NF (cmUpdate sp) := by unfold cmUpdate; nf
instance (a : CmParams) : NF (cmAuthData a) := by unfold cmAuthData; nf
instance (a : CmParams) : NF (cmAuth a) := by unfold cmAuth; nf
instance (a : CmParams) (ch : Channel) : NF (cmDispatch a ch) := by unfold cmDispatch; nf
instance (a : CmParams) (ch : Channel) : NF (credentialManagement a ch) := by unfold credentialManagement; nf

/-! ## Config -/

instance : NF (configEnableEp) := by unfold configEnableEp; nf
instance (force : Bool) : NF (configCheckForce force) := by unfold configCheckForce; nf
instance (a : MinPinParams) : NF (configSetMinPin a) := by unfold configSetMinPin; nf
instance (sub : ConfigSub) : NF (configEnforceUv sub) := by unfold configEnforceUv; nf
instance (a : ConfigParams) : NF (configAuthData a) := by unfold configAuthData; nf
instance (a : ConfigParams) : NF (configAuth a) := by unfold configAuth; nf
instance (a : ConfigParams) : NF (configDispatch a) := by unfold configDispatch; nf
instance (a : ConfigParams) : NF (configCommand a) := by unfold configCommand; nf
instance (f : LargeBlobs → LargeBlobs) : NF (modLb f) := by unfold modLb; nf
instance (a : LbParams) (n : Nat) : NF (lbGet a n) := by unfold lbGet; nf
instance (a : LbParams) : NF (lbStart a) := by unfold lbStart; nf
instance : NF (lbNeedsAuth) := by unfold lbNeedsAuth; nf
instance (a : LbParams) (set : Bytes) : NF (lbAuth a set) := by unfold lbAuth; nf
instance : NF (lbComplete) := by unfold lbComplete; nf
instance (a : LbParams) (set : Bytes) : NF (lbAppend a set) := by unfold lbAppend; nf
instance (a : LbParams) (set : Bytes) : NF (lbSet a set) := by unfold lbSet; nf
instance (a : LbParams) : NF (largeBlobsCommand a) := by unfold largeBlobsCommand; nf
instance (ch : Channel) (c : Command) : NF (fidoCommand ch c) := by cases c <;> (unfold fidoCommand; nf)
instance (c : Command) : NF (vendorChannelCommand c) := by unfold vendorChannelCommand; nf

/-! ## Step -/

instance (ch : Channel) : NF (clearOtherChannels ch) := by unfold clearOtherChannels; nf
instance (ch : Channel) (cmd : Command) : NF (channelCommand ch cmd) := by unfold channelCommand; nf
instance (cmd : Command) (ch : Channel) : NF (processParsed cmd ch) := by unfold processParsed; nf

end Verif.Ctap
