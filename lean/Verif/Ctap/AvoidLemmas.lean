import Verif.Ctap.Avoid

/-!
# No function used by registration and assertion reports NO_CREDENTIALS, CREDENTIAL_EXCLUDED or NOT_ALLOWED by
accident
-/
namespace Verif.Ctap
set_option linter.unusedSectionVars false

/-- The errors in question. -/
class Special (e : Status) : Prop where
  out : e = .noCredentials ∨ e = .credentialExcluded ∨ e = .notAllowed

instance : Special .noCredentials := ⟨.inl rfl⟩
instance : Special .credentialExcluded := ⟨.inr (.inl rfl)⟩
instance : Special .notAllowed := ⟨.inr (.inr rfl)⟩

section
variable [Dev] {e : Status} [he : Special e]

/-- Unfold a function and apply the rules, for all these errors. -/
macro "special" ids:ident,+ : tactic => `(tactic|
  ((rcases he.out with h | h | h) <;> subst h <;> unfold $(ids.getElems)* <;> av))

theorem Special.ne {x : Status} (h1 : x ≠ .noCredentials) (h2 : x ≠ .credentialExcluded)
    (h3 : x ≠ .notAllowed := by decide) : Out.err x ≠ Out.err e := by
  intro h
  cases h
  rcases he.out with h | h | h
  · exact h1 h
  · exact h2 h
  · exact h3 h

instance : AvEnv AnySt (.err e) := by
  rcases he.out with rfl | rfl | rfl <;> infer_instance

theorem liftE_special {x : Except Status α} (h : ∀ y, x = .error y → y ≠ .noCredentials ∧ y ≠ .credentialExcluded ∧ y ≠ .notAllowed) :
    Av AnySt (.err e) (liftE x) := Av.liftE fun y hy => Special.ne (h y hy).1 (h y hy).2.1 (h y hy).2.2

instance : Av AnySt (.err e) getMasterKeys := by special getMasterKeys
instance : Av AnySt (.err e) iterCredentials := by
  unfold iterCredentials
  refine Av.bindE inferInstance inferInstance fun _ => Av.bindE inferInstance inferInstance fun _ => ?_
  exact Av.effect fun _ _ => by simp [Res.out]
instance (k : Nat) : Av AnySt (.err e) (getCredential k) := by special getCredential
instance (r i : Bytes) : Av AnySt (.err e) (findCredential r i) := by special findCredential
instance (p : Bytes) (b : Bool) : Av AnySt (.err e) (drawIv p b) := by special drawIv
instance (w : Verif.Crypto.WrapRes) : Av AnySt (.err e) (liftWrap w) := by special liftWrap
instance (k p : Bytes) (b : Bool) : Av AnySt (.err e) (aesEncrypt k p b) := by special aesEncrypt
instance (c : CredSource) : Av AnySt (.err e) (wrapCredential c) := by
  unfold wrapCredential
  exact Av.mapErrE (fun _ => Special.ne (by decide) (by decide)) fun h => absurd rfl (h e)
instance (i r : Bytes) : Av AnySt (.err e) (unwrapCredential i r) := by
  unfold unwrapCredential
  exact Av.mapErrE (fun _ => Special.ne (by decide) (by decide)) fun h => absurd rfl (h e)
instance : Av AnySt (.err e) newSk := by special newSk
instance : Av AnySt (.err e) pinHash := by special pinHash
instance : Av AnySt (.err e) minPinLength := by special minPinLength
instance : Av AnySt (.err e) minPinLengthRpIds := by special minPinLengthRpIds
instance : Av AnySt (.err e) hasAlwaysUv := by special hasAlwaysUv
instance : Av AnySt (.err e) enterpriseAttestation := by special enterpriseAttestation
instance : Av AnySt (.err e) attestationGet := by
  unfold attestationGet
  exact Av.mapErrE (fun x => by
    unfold attestationError
    split
    · exact Special.ne (by decide) (by decide)
    · exact Special.ne (by decide) (by decide)) fun h => absurd rfl (h e)
instance : Av AnySt (.err e) signatureCounter := by special signatureCounter
instance (n : Nat) : Av AnySt (.err e) (incrSignatureCounter n) := by
  unfold incrSignatureCounter
  exact Av.bindE inferInstance inferInstance fun _ => inferInstance
instance : Av AnySt (.err e) incrementGlobalCounter := by
  unfold incrementGlobalCounter
  exact Av.whenE (Av.bindE inferInstance inferInstance fun _ => inferInstance)
instance (r : Bytes) (f : UInt8) : Av AnySt (.err e) (generateAuthData r f) := by special generateAuthData
instance : Av AnySt (.err e) newCreationOrder := by special newCreationOrder

theorem chooseSlot_err {c : Cred} {l : List (Nat × Cred)} {y : Status} (h : chooseSlot c l = .error y) :
    y = .internalError ∨ y = .keyStoreFull := by
  unfold chooseSlot at h
  cases hf : l.foldlM (slotStep c) { used := [], old := none } with
  | none => simp only [hf] at h; cases h; exact .inl rfl
  | some a =>
    simp only [hf] at h
    cases ho : a.old with
    | some k => simp only [ho] at h; cases h
    | none =>
      simp only [ho] at h
      split at h
      · cases h; exact .inr rfl
      · cases hff : firstFree a.used with
        | some k => simp only [hff] at h; cases h
        | none => simp only [hff] at h; cases h; exact .inl rfl

instance (c : Cred) : Av AnySt (.err e) (storeCredential c) := by
  unfold storeCredential
  refine Av.bindE inferInstance inferInstance fun _ => Av.bindE inferInstance (liftE_special fun y hy => ?_) fun _ => ?_
  · rcases chooseSlot_err hy with rfl | rfl <;> decide
  · exact Av.bindE inferInstance inferInstance fun _ => Av.bindE inferInstance inferInstance fun _ => inferInstance

/-- Errors of the presence check. -/
theorem presenceLoop_err : ∀ (n : Nat) {y : Status} {s s' : St}, presenceLoop n s = (.ok (.error y), s') →
    y = .userActionTimeout ∨ y = .operationDenied ∨ y = .keepaliveCancel ∨ y = .hardwareFailure
  | 0, y, s, s', h => by
    simp only [presenceLoop, pure_ok, Except.error.injEq] at h
    exact .inl h.1.symm
  | n + 1, y, s, s', h => by
    simp only [presenceLoop, bind_ok] at h
    obtain ⟨w, s1, _, h⟩ := h
    cases w with
    | touched =>
      simp only [bind_ok, pure_ok] at h
      obtain ⟨_, _, _, _, _, _, h, _⟩ := h
      cases h
    | timeout =>
      simp only [bind_ok] at h
      obtain ⟨r, s2, _, h⟩ := h
      cases r with
      | ok => exact presenceLoop_err n h
      | canceled =>
        simp only [pure_ok, Except.error.injEq] at h
        exact .inr (.inr (.inl h.1.symm))
      | ioError => simp [panicM_ok] at h
    | declined => simp only [pure_ok, Except.error.injEq] at h; exact .inr (.inl h.1.symm)
    | canceled => simp only [pure_ok, Except.error.injEq] at h; exact .inr (.inr (.inl h.1.symm))
    | fail => simp only [pure_ok, Except.error.injEq] at h; exact .inr (.inr (.inr h.1.symm))

theorem presenceLoop_av (n : Nat) : Av AnySt (.err e) (presenceLoop n) := by
  induction n with
  | zero => unfold presenceLoop; infer_instance
  | succ n ih =>
    unfold presenceLoop
    refine Av.bindE inferInstance (Av.effect fun _ _ => by simp [Res.out]) fun w => ?_
    cases w
    case timeout =>
      refine Av.bindE inferInstance (Av.effect fun _ _ => by simp [Res.out]) fun r => ?_
      cases r
      · exact ih
      · infer_instance
      · exact Av.panicM (by simp)
    all_goals av

instance : Av AnySt (.err e) checkPresence := presenceLoop_av _

instance : Av AnySt (.err e) checkPresenceE := by
  constructor
  intro s _ h
  rcases hm : checkPresenceE s with ⟨r, s'⟩
  rw [hm] at h
  cases r with
  | err y =>
    simp only [Res.out, Option.some.injEq, Out.err.injEq] at h
    subst h
    rw [checkPresenceE, bind_err] at hm
    rcases hm with hm | ⟨a, s1, h1, h2⟩
    · exact (presenceLoop_av _).elim trivial hm
    · cases a with
      | ok _ => simp [liftE, M.pure] at h2
      | error z =>
        simp only [liftE, fail, Prod.mk.injEq, Res.err.injEq] at h2
        obtain ⟨rfl, _⟩ := h2
        rcases presenceLoop_err _ h1 with h | h | h | h <;> subst h <;> rcases he.out with h | h | h <;> cases h
  | ok _ => simp [Res.out] at h
  | panic => simp [Res.out] at h
  | crash => simp [Res.out] at h

instance : Av AnySt (.err e) clearTokenFlags := by special clearTokenFlags
instance (p : Option Bytes) (q : Option Proto) : Av AnySt (.err e) (authPrecheck p q) := by
  rcases he.out with rfl | rfl | rfl
  all_goals
    unfold authPrecheck
    split
    · infer_instance
    · refine Av.bindE inferInstance inferInstance fun _ => Av.bindE inferInstance inferInstance fun h => ?_
      exact Av.fail (by cases h <;> simp)
    · av

theorem verifyMac_err {pr : Proto} {k m g : Bytes} {y : Status} (h : verifyMac pr k m g = .error y) :
    y = .invalidParameter ∨ y = .pinAuthInvalid := by
  cases pr <;> simp only [verifyMac] at h <;> split at h
  · cases h; exact .inl rfl
  · split at h <;> cases h; exact .inr rfl
  · cases h; exact .inl rfl
  · split at h <;> cases h; exact .inr rfl

instance (m p : Bytes) (pr : Proto) : Av AnySt (.err e) (verifyToken m p pr) := by
  unfold verifyToken
  refine Av.bindE inferInstance inferInstance fun v => Av.bindE inferInstance
    (Av.guardE (Special.ne (by decide) (by decide))) fun _ => liftE_special fun y hy => ?_
  rcases verifyMac_err hy with rfl | rfl <;> decide
instance (p : UInt8) : Av AnySt (.err e) (hasPermission p) := by special hasPermission
instance : Av AnySt (.err e) checkUserVerified := by special checkUserVerified
instance (r : Bytes) : Av AnySt (.err e) (ensureRpIdPermission r) := by special ensureRpIdPermission
instance (p : UInt8) (r c a : Bytes) (q : Option Proto) : Av AnySt (.err e) (checkTokenFor p r c a q) := by
  special checkTokenFor

theorem epMode_err {n : Nat} {y : Status} (h : EpMode.parse n = .error y) :
    y ≠ .noCredentials ∧ y ≠ .credentialExcluded ∧ y ≠ .notAllowed := by
  unfold EpMode.parse at h
  repeat' split at h
  all_goals first | (cases h; done) | (cases h; decide)

instance (a : McParams) : Av AnySt (.err e) (mcEnterprise a) := by
  unfold mcEnterprise
  split
  · infer_instance
  · refine Av.bindE inferInstance (Av.req (Special.ne (by decide) (by decide))) fun _ => ?_
    refine Av.bindE inferInstance inferInstance fun _ => ?_
    refine Av.bindE inferInstance (Av.guardE (Special.ne (by decide) (by decide))) fun _ => ?_
    exact Av.bindE inferInstance (liftE_special fun _ => epMode_err) fun _ => inferInstance
instance (a : McParams) : Av AnySt (.err e) (mcWithoutParam a) := by special mcWithoutParam
instance (a : McParams) : Av AnySt (.err e) (mcAuth a) := by special mcAuth
instance (r i : Bytes) (u : Bool) : Av AnySt (.err e) (isExcluded r i u) := by special isExcluded
instance (a : McParams) : Av AnySt (.err e) (mcMinPin a) := by special mcMinPin
instance (a : McParams) : Av AnySt (.err e) (mcLargeBlobKey a) := by special mcLargeBlobKey
instance (a : McParams) (k : Bytes) (l : Option Bytes) : Av AnySt (.err e) (mcCreate a k l) := by special mcCreate

theorem cborWrite_err {v : Verif.Cbor.Value} {y : Status} (h : cborWrite v = .error y) : y = .internalError := by
  unfold cborWrite at h
  cases hw : v.write (some 4) with
  | ok b => simp [hw] at h
  | error x => simp only [hw] at h; cases h; rfl

instance (v : Option Verif.Cbor.Value) : Av AnySt (.err e) (cborWriteM v) := by
  cases v with
  | none => exact Av.panicM (by simp)
  | some v => exact liftE_special fun y hy => by rw [cborWrite_err hy]; decide
instance (m : Bool) : Av AnySt (.err e) (mcMinPinOutput m) := by special mcMinPinOutput
instance (a : McParams) (m : Bool) : Av AnySt (.err e) (mcExtOutput a m) := by special mcExtOutput

theorem pubKey_err {k : Bytes} {y : Status} (h : pubKey k = .error y) : y = .internalError := by
  unfold pubKey at h
  cases hw : Dev.ecdsaPub k with
  | some b => simp [hw] at h
  | none => simp only [hw] at h; cases h; rfl
theorem signEncode_err {k m : Bytes} {y : Status} (h : signEncode k m = .error y) : y = .internalError := by
  unfold signEncode at h
  cases hw : Dev.ecdsaSign k m with
  | some b => simp [hw] at h
  | none => simp only [hw] at h; cases h; rfl
instance (k : Bytes) : Av AnySt (.err e) (liftE (pubKey k)) :=
  liftE_special fun y hy => by rw [pubKey_err hy]; decide
instance (k m : Bytes) : Av AnySt (.err e) (liftE (signEncode k m)) :=
  liftE_special fun y hy => by rw [signEncode_err hy]; decide
instance (a : McParams) (m : Bool) (i k : Bytes) : Av AnySt (.err e) (mcAuthData a m i k) := by special mcAuthData
instance (p : Bool) (k d : Bytes) : Av AnySt (.err e) (mcSign p k d) := by
  unfold mcSign
  refine Av.iteE (Av.bindE inferInstance inferInstance fun o => Av.bindE inferInstance
    (Av.req (Special.ne (by decide) (by decide))) fun att => ?_) (Av.bindE inferInstance inferInstance fun _ => inferInstance)
  split
  · exact Av.panicM (by simp)
  · infer_instance
instance (a : McParams) (p : Bool) : Av AnySt (.err e) (mcFinish a p) := by
  unfold mcFinish
  refine Av.bindE inferInstance inferInstance fun _ => Av.bindE inferInstance inferInstance fun _ => ?_
  refine Av.bindE inferInstance inferInstance fun _ => Av.bindE inferInstance inferInstance fun _ => ?_
  refine Av.bindE inferInstance inferInstance fun _ => Av.bindE inferInstance inferInstance fun x => ?_
  obtain ⟨a, b⟩ := x
  infer_instance

/-! ## Assertion -/

instance (a : GaParams) : Av AnySt (.err e) (gaWithoutParam a) := by special gaWithoutParam
instance (a : GaParams) : Av AnySt (.err e) (gaAuth a) := by special gaAuth
theorem anyFromAllowList_av (r : Bytes) (u : Bool) (l : List Descriptor) : Av AnySt (.err e) (anyFromAllowList r u l) := by
  induction l with
  | nil => unfold anyFromAllowList; infer_instance
  | cons d l ih => unfold anyFromAllowList; av
instance (r : Bytes) (u : Bool) (l : List Descriptor) : Av AnySt (.err e) (anyFromAllowList r u l) :=
  anyFromAllowList_av r u l
instance (a : GaParams) : Av AnySt (.err e) (gaFindCredential a) := by special gaFindCredential
instance (a : GaParams) : Av AnySt (.err e) (gaPresence a) := by special gaPresence
instance (c : Stateful) (ch : Channel) : Av AnySt (.err e) (setCommand c ch) := by special setCommand
instance (i : AssertionInput) (k : List Nat) (ch : Channel) : Av AnySt (.err e) (gaRemember i k ch) := by
  special gaRemember
instance (u : Bool) : Av AnySt (.err e) (credRandom u) := by special credRandom
instance (k : Bytes) (u : Bool) : Av AnySt (.err e) (generateCredRandom k u) := by special generateCredRandom
theorem decapsulate_err {p : PinProtocol} {pr : Proto} {k : CoseKey} {y : Status}
    (h : p.decapsulate pr k = .error y) : y = .unsupportedAlgorithm ∨ y = .invalidParameter := by
  unfold PinProtocol.decapsulate CoseKey.ecdhCoordinates at h
  by_cases h1 : k.alg ≠ -25 ∧ k.alg ≠ -7
  · simp only [if_pos h1] at h; cases h; exact .inl rfl
  · simp only [if_neg h1] at h
    by_cases h2 : k.kty ≠ 2 ∨ k.crv ≠ 1
    · simp only [if_pos h2] at h; cases h; exact .inl rfl
    · simp only [if_neg h2] at h
      cases h3 : Dev.ecdh p.sk k.x k.y with
      | none => simp only [h3] at h; cases h; exact .inr rfl
      | some z => simp only [h3] at h; cases h
theorem aesDecrypt_err {k c : Bytes} {b : Bool} {y : Status} (h : aesDecrypt k c b = .error y) : y = .invalidParameter := by
  unfold aesDecrypt at h
  cases hd : Verif.Crypto.aesCbcDecrypt (Dev.aesDec k) c b <;> simp only [hd] at h <;> cases h <;> rfl
instance (pr : Proto) (k : CoseKey) : Av AnySt (.err e) (getSharedSecret pr k) := by
  unfold getSharedSecret
  refine Av.bindE inferInstance inferInstance fun _ => liftE_special fun y hy => ?_
  rcases decapsulate_err hy with rfl | rfl <;> decide
instance (i : HmacSecretInput) (r : Bytes) : Av AnySt (.err e) (processHmacSecret i r) := by
  unfold processHmacSecret
  refine Av.bindE inferInstance inferInstance fun _ => Av.bindE inferInstance (liftE_special fun y hy => ?_) fun _ => ?_
  · rcases verifyMac_err hy with rfl | rfl <;> decide
  refine Av.bindE inferInstance (liftE_special fun y hy => ?_) fun _ => ?_
  · rw [aesDecrypt_err hy]; decide
  refine Av.bindE inferInstance (Av.guardE (Special.ne (by decide) (by decide))) fun _ => ?_
  unfold SharedSecret.encrypt
  infer_instance
instance (c : Cred) (i : AssertionInput) : Av AnySt (.err e) (gaHmacSecret c i) := by special gaHmacSecret
instance (c : Cred) (i : AssertionInput) : Av AnySt (.err e) (gaExtOutput c i) := by special gaExtOutput
instance (c : Cred) (i : AssertionInput) (n : Option Nat) : Av AnySt (.err e) (assertionResponse c i n) := by
  special assertionResponse

end
end Verif.Ctap
