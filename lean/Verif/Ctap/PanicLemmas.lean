import Verif.Ctap.PropsLb
import Verif.Ctap.PropsKey
import Verif.Crypto.CbcProps

/-!
# No panic: lemmas

`NP m`: from states that satisfy `Sane`, the computation `m` does not panic.
-/
namespace Verif.Ctap
open Verif.Cbor (Value)
set_option linter.unusedSectionVars false

/-! ## Maps with fixed keys -/

theorem insertEntry_perm (e : Value × Value) (l : List (Value × Value)) : (Verif.Cbor.insertEntry e l).Perm (e :: l) := by
  induction l with
  | nil => exact .refl _
  | cons x l ih =>
    unfold Verif.Cbor.insertEntry
    split
    · exact .refl _
    · exact ((ih.cons x).trans (.swap e x l))

theorem sortEntries_perm (m : List (Value × Value)) : (Verif.Cbor.sortEntries m).Perm m := by
  have : ∀ acc : List (Value × Value), (m.foldl (fun acc e => Verif.Cbor.insertEntry e acc) acc).Perm (m ++ acc) := by
    induction m with
    | nil => intro acc; exact .refl _
    | cons e m ih =>
      intro acc
      refine (ih _).trans ?_
      refine ((insertEntry_perm e acc).append_left m).trans ?_
      exact List.perm_middle
  have h := this []
  rw [List.append_nil] at h
  exact h

theorem hasDup_pairwise {m : List (Value × Value)} (h : m.Pairwise fun a b => a.1.cmp b.1 ≠ .eq ∧ b.1.cmp a.1 ≠ .eq) :
    Verif.Cbor.hasDup m = false := by
  induction m with
  | nil => rfl
  | cons a m ih =>
    cases m with
    | nil => rfl
    | cons b m =>
      have h1 := List.pairwise_cons.1 h
      have h2 := (h1.1 b (by simp)).1
      unfold Verif.Cbor.hasDup
      rw [ih h1.2, Bool.or_false]
      cases h3 : a.1.cmp b.1 with
      | eq => exact absurd h3 h2
      | _ => rfl

theorem mkMap_some {m : List (Value × Value)} (h : m.Pairwise fun a b => a.1.cmp b.1 ≠ .eq ∧ b.1.cmp a.1 ≠ .eq) :
    ∃ v, Verif.Cbor.mkMap m = some v := by
  have := hasDup_pairwise ((List.Perm.pairwise_iff (fun h => ⟨h.2, h.1⟩) (sortEntries_perm m)).2 h)
  exact ⟨_, by rw [Verif.Cbor.mkMap, this]; rfl⟩

/-- Keys that differ. -/
def keysDiffer : List Value → Bool
  | [] => true
  | k :: l => l.all (fun x => k.cmp x != .eq && x.cmp k != .eq) && keysDiffer l

theorem keysDiffer_pairwise {l : List Value} (h : keysDiffer l = true) :
    l.Pairwise fun a b => a.cmp b ≠ .eq ∧ b.cmp a ≠ .eq := by
  induction l with
  | nil => exact .nil
  | cons k l ih =>
    unfold keysDiffer at h
    rw [Bool.and_eq_true, List.all_eq_true] at h
    refine List.pairwise_cons.2 ⟨fun x hx => ?_, ih h.2⟩
    simpa using h.1 x hx

theorem mapOk {es : List (Value × Option Value)} (h : keysDiffer (es.map (·.1)) = true) :
    ∃ v, cborMapOptions es = some v := by
  refine mkMap_some ?_
  have h1 := List.pairwise_map.1 (keysDiffer_pairwise h)
  refine List.Pairwise.filterMap _ ?_ h1
  rintro ⟨a, x⟩ ⟨b, y⟩ h c hc d hd
  cases x <;> cases y <;> simp at hc hd
  subst hc hd
  exact h

macro "keys" : tactic => `(tactic| (simp only [List.map_cons, List.map_nil]; decide +kernel))

theorem RpEntity.toCbor_some (r : RpEntity) : ∃ v, r.toCbor = some v := mapOk (by keys)
theorem UserEntity.toCbor_some (r : UserEntity) : ∃ v, r.toCbor = some v := mapOk (by keys)
theorem Descriptor.toCbor_some (r : Descriptor) : ∃ v, r.toCbor = some v := mapOk (by keys)
theorem CoseKey.toCbor_some (r : CoseKey) : ∃ v, r.toCbor = some v := mapOk (by keys)
theorem MinPinParams.toCbor_some (r : MinPinParams) : ∃ v, r.toCbor = some v := mapOk (by keys)
theorem CredSource.toCbor_some (c : CredSource) (v : Value) : ∃ x, c.toCbor v = some x := mapOk (by keys)

theorem optP_some {α : Type} {f : α → Option Value} (h : ∀ a, ∃ v, f a = some v) (o : Option α) : ∃ v, optP f o = some v := by
  cases o with
  | none => exact ⟨none, rfl⟩
  | some a => obtain ⟨v, hv⟩ := h a; exact ⟨some v, by simp [optP, hv]⟩

theorem CmSubParams.toCbor_some (r : CmSubParams) : ∃ v, r.toCbor = some v := by
  obtain ⟨d, hd⟩ := optP_some Descriptor.toCbor_some r.credentialId
  obtain ⟨u, hu⟩ := optP_some UserEntity.toCbor_some r.user
  simp only [CmSubParams.toCbor, hd, hu, Option.bind_eq_bind, Option.bind_some]
  exact mapOk (by keys)
theorem PinResponse.toCbor_some (r : PinResponse) : ∃ v, r.toCbor = some v := by
  obtain ⟨d, hd⟩ := optP_some CoseKey.toCbor_some r.keyAgreement
  simp only [PinResponse.toCbor, hd, Option.bind_eq_bind, Option.bind_some]
  exact mapOk (by keys)
theorem CmResponse.toCbor_some (r : CmResponse) : ∃ v, r.toCbor = some v := by
  obtain ⟨a, ha⟩ := optP_some RpEntity.toCbor_some r.rp
  obtain ⟨d, hd⟩ := optP_some Descriptor.toCbor_some r.credentialId
  obtain ⟨u, hu⟩ := optP_some UserEntity.toCbor_some r.user
  obtain ⟨k, hk⟩ := optP_some CoseKey.toCbor_some r.publicKey
  simp only [CmResponse.toCbor, ha, hd, hu, hk, Option.bind_eq_bind, Option.bind_some]
  exact mapOk (by keys)
theorem GaResponse.toCbor_some (r : GaResponse) : ∃ v, r.toCbor = some v := by
  obtain ⟨d, hd⟩ := Descriptor.toCbor_some r.credential
  obtain ⟨u, hu⟩ := optP_some UserEntity.toCbor_some r.user
  simp only [GaResponse.toCbor, hd, hu, Option.bind_eq_bind, Option.bind_some]
  exact mapOk (by keys)
theorem attStmtCbor_some (a : Bytes) (b : Option Bytes) : ∃ v, attStmtCbor a b = some v := mapOk (by keys)
theorem McResponse.toCbor_some (r : McResponse) : ∃ v, r.toCbor = some v := by
  obtain ⟨d, hd⟩ := attStmtCbor_some r.sig r.x5c
  simp only [McResponse.toCbor, hd, Option.bind_eq_bind, Option.bind_some]
  exact mapOk (by keys)
theorem InfoResponse.toCbor_some [Dev] (r : InfoResponse) : ∃ v, r.toCbor = some v := by
  have ho : ∃ v, Verif.Cbor.mkMap (r.options.map fun e => (.text e.1, cborBool e.2)) = some v := by
    have hk := fun h => List.pairwise_map.1 (keysDiffer_pairwise (l := (r.options.map fun e => ((.text e.1, cborBool e.2) : Value × Value)).map (·.1)) h)
    refine mkMap_some (hk ?_)
    rw [List.map_map]
    unfold InfoResponse.options
    cases r.ep <;> (simp only [List.map_append, List.map_cons, List.map_nil, Function.comp]; decide +kernel)
  obtain ⟨o, ho⟩ := ho
  have ha : ∃ v, cborMapOptions [(.text (b! "alg"), some (cborInt es256)),
    (.text (b! "type"), some (.text (b! "public-key")))] = some v := mapOk (by keys)
  obtain ⟨a, ha⟩ := ha
  simp only [InfoResponse.toCbor, ho, ha, Option.bind_eq_bind, Option.bind_some]
  exact mapOk (by keys)

theorem Response.toCbor_some [Dev] (r : Response) : ∃ v, r.toCbor = some v := by
  cases r with
  | makeCredential r => obtain ⟨v, h⟩ := r.toCbor_some; exact ⟨_, by rw [Response.toCbor, h]; rfl⟩
  | getAssertion r => obtain ⟨v, h⟩ := r.toCbor_some; exact ⟨_, by rw [Response.toCbor, h]; rfl⟩
  | getNextAssertion r => obtain ⟨v, h⟩ := r.toCbor_some; exact ⟨_, by rw [Response.toCbor, h]; rfl⟩
  | getInfo r => obtain ⟨v, h⟩ := r.toCbor_some; exact ⟨_, by rw [Response.toCbor, h]; rfl⟩
  | clientPin r => exact optP_some PinResponse.toCbor_some r
  | credMgmt r => exact optP_some CmResponse.toCbor_some r
  | largeBlobs r => exact optP_some (fun b => mapOk (by keys)) r
  | _ => exact ⟨none, rfl⟩

theorem aesCbcEncrypt_no_panic (enc : Bytes → Bytes) (iv pt : Bytes) (e : Bool) :
    Verif.Crypto.aesCbcEncrypt enc iv pt e ≠ .panic := by
  have key : ∀ (n : Nat) (iv data : Bytes), data.length = 16 * n → ∃ c, Verif.Crypto.cbcEncrypt enc iv data = some c := by
    intro n
    induction n with
    | zero => intro iv data h; rw [Verif.Crypto.cbcEncrypt]; simp_all
    | succ n ih =>
      intro iv data h
      rw [Verif.Crypto.cbcEncrypt]
      have h1 : data ≠ [] := by intro h'; subst h'; simp at h
      have h2 : ¬ data.length < 16 := by omega
      obtain ⟨c, hc⟩ := ih (enc (Verif.Crypto.xorBlock (data.take 16) iv)) (data.drop 16) (by simp; omega)
      simp [h1, h2, hc]
  unfold Verif.Crypto.aesCbcEncrypt
  split
  · simp
  · rename_i hl
    have hl : pt.length = 16 * (pt.length / 16) := by omega
    split
    · obtain ⟨c, hc⟩ := key _ iv pt hl
      rw [hc]; simp [Verif.Crypto.WrapRes.ofOption, Verif.Crypto.WrapRes.map]
    · obtain ⟨c, hc⟩ := key _ (List.replicate 16 0) pt hl
      rw [hc]; simp [Verif.Crypto.WrapRes.ofOption]

/-! ## The rules -/

section
variable [Dev] {b0 : Bool}

/-- The transport accepts every keepalive message, and the attestation key is valid; with `b`, the power is not cut. -/
def Sane (b : Bool) (s : St) : Prop :=
  (∀ k, s.env.o.keep k ≠ .ioError) ∧ (∀ att, s.p.attestation = some att → ∀ m, Dev.ecdsaSign att.sk m ≠ none) ∧
    (b = true → ∀ k, s.env.o.cut k = false)

/-- A result that is not a panic and, with `b`, not a power cut. -/
def Res.fine (b : Bool) : Res α → Prop
  | .panic => False
  | .crash => b = false
  | _ => True

instance : SEnv (Sane b0) := ⟨fun _ _ _ ho h => ⟨by rw [show _ = _ from ho]; exact h.1, h.2.1, by rw [show _ = _ from ho]; exact h.2.2⟩⟩
stable_instances (Sane b0) under SMaster SCreds SMinPin SRpIds SForce SEp SAlwaysUv SLargeBlob SPin SRetries STok SMis SKeys SU2f SSp SLb SPresence
  SCompare SIssued SConsumed SU2fPrompt SU2fConsume SU2fTouch SCounterEv SCounter
instance : SErase (Sane b0) := ⟨fun _ h => h⟩

instance (f : Vol → Vol) : Pres (Sane b0) (modV f) := presModV fun _ h => h
instance (e : Ev) : Pres (Sane b0) (logE e) := presLogE fun _ h => h
instance (x : Bytes) : Pres (Sane b0) (writeP fun p => { p with master := some x }) := presWriteP fun _ h => h
instance : Pres (Sane b0) (writeP (Persist.clear NUM_PERSISTENT_KEYS) [.erased]) := presWriteP fun _ h => h

class NP (b : Bool) (m : M α) : Prop where
  out : ∀ s, Sane b s → (m s).1.fine b

theorem NP.bind' {m : M α} {f : α → M β} (h1 : NP b0 m) [hp : Pres (Sane b0) m]
    (h2 : ∀ s a s1, Sane b0 s → m s = (.ok a, s1) → Sane b0 s1 → (f a s1).1.fine b0) : NP b0 (m >>= f) := by
  constructor
  intro s hs
  have h3 := hp.out s hs
  have h4 := h1.out s hs
  simp only [bind_def, M.bind]
  rcases h : m s with ⟨r, s1⟩
  rw [h] at h3 h4
  cases r with
  | ok a => exact h2 s a s1 hs h h3
  | err e => trivial
  | panic => exact h4
  | crash => exact h4

theorem NP.bindE {m : M α} {f : α → M β} (hp : Pres (Sane b0) m) (h1 : NP b0 m) (h2 : ∀ a, NP b0 (f a)) : NP b0 (m >>= f) :=
  NP.bind' h1 fun _ a s1 _ _ h => (h2 a).out s1 h

instance (e : Status) : NP b0 (fail e : M α) := ⟨fun _ _ => by simp [fail, Res.fine]⟩
instance (c : Bool) (e : Status) : NP b0 (guardE c e) := by cases c <;> exact ⟨fun _ _ => by simp [guardE, fail, M.pure, Res.fine]⟩
instance (o : Option α) (e : Status) : NP b0 (req o e) := by cases o <;> exact ⟨fun _ _ => by simp [req, fail, M.pure, Res.fine]⟩
instance (x : Except Status α) : NP b0 (liftE x) := by cases x <;> exact ⟨fun _ _ => by simp [liftE, fail, M.pure, Res.fine]⟩
instance (a : α) : NP b0 (M.pure a) := ⟨fun _ _ => by simp [M.pure, Res.fine]⟩
instance : NP b0 getV := ⟨fun _ _ => by simp [getV, Res.fine]⟩
instance : NP b0 clock := ⟨fun _ _ => by simp [clock, Res.fine]⟩
instance (f : Vol → Vol) : NP b0 (modV f) := ⟨fun _ _ => by simp [modV, Res.fine]⟩
instance (f : ClientPin → ClientPin) : NP b0 (modPin f) := ⟨fun _ _ => by simp [modPin, modV, Res.fine]⟩
instance (f : TokenState → TokenState) : NP b0 (modTok f) := ⟨fun _ _ => by simp [modTok, modPin, modV, Res.fine]⟩
instance (f : StatefulPerm → StatefulPerm) : NP b0 (modSp f) := ⟨fun _ _ => by simp [modSp, modV, Res.fine]⟩
instance (e : Ev) : NP b0 (logE e) := ⟨fun _ _ => by simp [logE, Res.fine]⟩
theorem NP.effect {f : St → Res α} (hf : ∀ s, Sane b0 s → (f s).fine b0) : NP b0 (effect f) := by
  constructor
  intro s hs
  simp only [Verif.Ctap.effect]
  split
  · rename_i hc
    cases hb : b0 with
    | false => rfl
    | true => rw [hs.2.2 hb] at hc; cases hc
  · exact hf s hs
instance (f : St → α) : NP b0 (Verif.Ctap.effect fun s => .ok (f s)) := NP.effect fun s _ => trivial
instance : NP b0 readP := NP.effect fun s hs => by cases h : s.env.o.rfail s.env.k <;> trivial
instance (n : Nat) : NP b0 (rng n) := NP.effect fun s _ => trivial
instance (f : Persist → Persist) (evs : List Ev) : NP b0 (writeP f evs) := by
  constructor
  intro s hs
  simp only [writeP]
  split
  · rename_i hc
    cases hb : b0 with
    | false => rfl
    | true => rw [hs.2.2 hb] at hc; cases hc
  · cases hw : s.env.o.wfail s.env.k with
    | none => trivial
    | some w => cases w <;> trivial
theorem NP.whenE {c : Bool} {m : M Unit} (h : NP b0 m) : NP b0 (whenM c m) := by
  cases c
  · exact ⟨fun _ _ => by simp [whenM, M.pure, Res.fine]⟩
  · exact h
theorem NP.iteE {c : Prop} [Decidable c] {m n : M α} (h1 : NP b0 m) (h2 : NP b0 n) : NP b0 (if c then m else n) := by
  split <;> assumption
theorem NP.mapErrE {f : Status → Status} {m : M α} (h : NP b0 m) : NP b0 (mapErr f m) := by
  constructor
  intro s hs
  have := h.out s hs
  simp only [mapErr]
  rcases h1 : m s with ⟨r, s1⟩
  rw [h1] at this
  cases r with
  | panic => exact this
  | crash => exact this
  | _ => trivial
theorem NP.orSwE {m : M α} {sw : Sw} (h : NP b0 m) : NP b0 (orSw m sw) := by
  constructor
  intro s hs
  have := h.out s hs
  simp only [orSw]
  rcases h1 : m s with ⟨r, s1⟩
  rw [h1] at this
  cases r with
  | panic => exact this
  | crash => exact this
  | _ => trivial
theorem NP.bindSwE {m : M (Except Sw α)} {f : α → M (Except Sw β)} (hp : Pres (Sane b0) m) (h1 : NP b0 m) (h2 : ∀ a, NP b0 (f a)) :
    NP b0 (bindSw m f) := by
  unfold bindSw
  refine NP.bindE hp h1 fun r => ?_
  cases r with
  | ok a => exact h2 a
  | error e => infer_instance

/-- The rule application for `NP`. -/
macro "np" : tactic => `(tactic| repeat (first
  | infer_instance
  | with_reducible refine NP.bindE (by pres) ?_ ?_
  | with_reducible refine NP.mapErrE ?_
  | with_reducible refine NP.whenE ?_
  | with_reducible refine NP.iteE ?_ ?_
  | with_reducible refine NP.bindSwE (by pres) ?_ ?_
  | with_reducible refine NP.orSwE ?_
  | intro _
  | split
  | dsimp only))

theorem attestationGet_att {s s1 : St} {o : Option Attestation} (h : attestationGet s = (.ok o, s1)) : o = s.p.attestation := by
  have h := mapErr_ok.1 h
  simp only [bind_ok, pure_ok] at h
  obtain ⟨p, s2, h2, rfl, rfl⟩ := h
  obtain ⟨rfl, rfl⟩ := readP_ok h2
  rfl

/-! ## The functions -/

instance (n : Nat) : NP b0 (presenceLoop n) := by
  induction n with
  | zero => unfold presenceLoop; np
  | succ n ih =>
    unfold presenceLoop
    refine NP.bindE inferInstance inferInstance fun w => ?_
    cases w with
    | timeout =>
      refine NP.bind' inferInstance fun s r s1 hs h1 hs1 => ?_
      obtain ⟨_, hr, rfl⟩ := effect_ok.1 h1
      cases r with
      | ok => exact ih.out _ hs1
      | canceled => trivial
      | ioError => exact absurd (Res.ok.inj hr) (hs.1 _)
    | _ => np
instance : NP b0 checkPresence := by unfold checkPresence; np
instance : NP b0 checkPresenceE := by unfold checkPresenceE; np
instance (p : Bytes) (e : Bool) : NP b0 (drawIv p e) := by unfold drawIv; np
instance (k p : Bytes) (e : Bool) : NP b0 (aesEncrypt k p e) := by
  unfold aesEncrypt
  refine NP.bindE inferInstance inferInstance fun iv => ?_
  have := aesCbcEncrypt_no_panic (Dev.aesEnc k) iv p e
  cases h : Verif.Crypto.aesCbcEncrypt (Dev.aesEnc k) iv p e with
  | panic => exact absurd h this
  | _ => unfold liftWrap; np
instance : NP b0 getMasterKeys := by unfold getMasterKeys; np
instance (k sk : Bytes) : NP b0 (skToCbor k sk) := by unfold skToCbor; np
instance (c : CredSource) : NP b0 (wrapCredential c) := by
  unfold wrapCredential
  refine NP.mapErrE (NP.bindE inferInstance inferInstance fun mk => NP.bindE inferInstance inferInstance fun v => ?_)
  obtain ⟨x, hx⟩ := CredSource.toCbor_some c v
  rw [hx]; np
instance (b h : Bytes) : NP b0 (unwrapCredential b h) := by unfold unwrapCredential; np
instance (u : Bool) : NP b0 (credRandom u) := by unfold credRandom; np
instance : NP b0 newSk := by unfold newSk; np
instance : NP b0 iterCredentials := by unfold iterCredentials; np
instance (k : Nat) : NP b0 (getCredential k) := by unfold getCredential; np
instance (id : Bytes) : NP b0 (findCredentialItem id) := by unfold findCredentialItem; np
instance (r id : Bytes) : NP b0 (findCredential r id) := by unfold findCredential; np
instance (c : Cred) : NP b0 (storeCredential c) := by unfold storeCredential; np
instance (id : Bytes) : NP b0 (deleteCredential id) := by unfold deleteCredential; np
instance (id : Bytes) (a b c : Option Bytes) : NP b0 (updateCredential id a b c) := by unfold updateCredential; np
instance : NP b0 countCredentials := by unfold countCredentials; np
instance : NP b0 remainingCredentials := by unfold remainingCredentials; np
instance : NP b0 newCreationOrder := by unfold newCreationOrder; np
instance : NP b0 signatureCounter := by unfold signatureCounter; np
instance (n : Nat) : NP b0 (incrSignatureCounter n) := by unfold incrSignatureCounter; np
instance : NP b0 pinHash := by unfold pinHash; np
instance : NP b0 pinCodePointLength := by unfold pinCodePointLength; np
instance (b : Bytes) (n : Nat) : NP b0 (setPin b n) := by unfold setPin; np
instance : NP b0 pinRetries := by unfold pinRetries; np
instance : NP b0 decrPinRetries := by unfold decrPinRetries; np
instance : NP b0 resetPinRetries := by unfold resetPinRetries; np
instance : NP b0 minPinLength := by unfold minPinLength; np
instance (n : Nat) : NP b0 (setMinPinLength n) := by unfold setMinPinLength; np
instance : NP b0 minPinLengthRpIds := by unfold minPinLengthRpIds; np
instance (l : List Bytes) : NP b0 (setMinPinLengthRpIds l) := by unfold setMinPinLengthRpIds; np
instance (a b : Nat) : NP b0 (getLargeBlobArray a b) := by unfold getLargeBlobArray; np
instance (b : Bytes) : NP b0 (commitLargeBlobArray b) := by unfold commitLargeBlobArray; np
instance : NP b0 resetStorage := by unfold resetStorage; np
instance : NP b0 hasForcePinChange := by unfold hasForcePinChange; np
instance : NP b0 forcePinChange := by unfold forcePinChange; np
instance : NP b0 enterpriseAttestation := by unfold enterpriseAttestation; np
instance : NP b0 attestationGet := by unfold attestationGet; np
instance : NP b0 enableEnterpriseAttestation := by unfold enableEnterpriseAttestation; np
instance : NP b0 hasAlwaysUv := by unfold hasAlwaysUv; np
instance : NP b0 toggleAlwaysUv := by unfold toggleAlwaysUv; np
instance (pr : Proto) : NP b0 (regenerate pr) := by unfold regenerate; np
instance (pr : Proto) : NP b0 (resetToken pr) := by unfold resetToken; np
instance (s : SharedSecret) (b : Bytes) : NP b0 (s.encrypt b) := by unfold SharedSecret.encrypt; np
instance (pr : Proto) (k : CoseKey) : NP b0 (getSharedSecret pr k) := by unfold getSharedSecret; np
instance : NP b0 PinProtocol.fresh := by unfold PinProtocol.fresh; np
instance : NP b0 ClientPin.fresh := by unfold ClientPin.fresh; np
instance (s : SharedSecret) (b : Bytes) : NP b0 (checkAndStoreNewPin s b) := by unfold checkAndStoreNewPin; np
instance (a b : Bytes) : NP b0 (comparePin a b) := by unfold comparePin; np
instance (pr : Proto) (s : SharedSecret) (b : Bytes) : NP b0 (verifyPinHashEnc pr s b) := by unfold verifyPinHashEnc; np
instance : NP b0 processGetPinRetries := by unfold processGetPinRetries; np
instance (pr : Proto) : NP b0 (processGetKeyAgreement pr) := by unfold processGetKeyAgreement; np
instance (a : PinParams) : NP b0 (processSetPin a) := by unfold processSetPin; np
instance (a : PinParams) : NP b0 (processChangePin a) := by unfold processChangePin; np
instance (a : PinParams) : NP b0 (processGetPinToken a) := by unfold processGetPinToken; np
instance (a : PinParams) : NP b0 (processGetPinTokenWithPermissions a) := by unfold processGetPinTokenWithPermissions; np
instance : NP b0 logIssued := by unfold logIssued; np
instance (a : PinParams) : NP b0 (clientPinCommand a) := by unfold clientPinCommand; np
instance (m p : Bytes) (pr : Proto) : NP b0 (verifyToken m p pr) := by unfold verifyToken; np
instance : NP b0 resetClientPin := by unfold resetClientPin; np
instance (i : HmacSecretInput) (c : Bytes) : NP b0 (processHmacSecret i c) := by unfold processHmacSecret; np
instance : NP b0 clearTokenFlags := by unfold clearTokenFlags; np
instance : NP b0 updateTimeouts := by unfold updateTimeouts; np
instance : NP b0 checkUserVerified := by unfold checkUserVerified; np
instance (p : UInt8) : NP b0 (hasPermission p) := by unfold hasPermission; np
instance : NP b0 hasNoRpIdPermission := by unfold hasNoRpIdPermission; np
instance (r : Bytes) : NP b0 (hasNoOrRpIdPermission r) := by unfold hasNoOrRpIdPermission; np
instance (r : Bytes) : NP b0 (hasNoOrRpIdHashPermission r) := by unfold hasNoOrRpIdHashPermission; np
instance (r : Bytes) : NP b0 (ensureRpIdPermission r) := by unfold ensureRpIdPermission; np
instance : NP b0 getCommand := by unfold getCommand; np
instance (c : Stateful) (ch : Channel) : NP b0 (setCommand c ch) := by unfold setCommand; np
instance : NP b0 nextAssertionCredential := by unfold nextAssertionCredential; np
instance : NP b0 nextEnumerateRp := by unfold nextEnumerateRp; np
instance : NP b0 nextEnumerateCredential := by unfold nextEnumerateCredential; np
theorem NP.cborWrite {o : Option CVal} (h : ∃ v, o = some v) : NP b0 (cborWriteM o) := by
  obtain ⟨v, rfl⟩ := h; unfold cborWriteM; np
instance : NP b0 incrementGlobalCounter := by unfold incrementGlobalCounter; np
instance (h : Bytes) (f : UInt8) : NP b0 (generateAuthData h f) := by unfold generateAuthData; np
instance (p : Option Bytes) (pr : Option Proto) : NP b0 (authPrecheck p pr) := by unfold authPrecheck; np
instance (u : UInt8) (a b c : Bytes) (pr : Option Proto) : NP b0 (checkTokenFor u a b c pr) := by unfold checkTokenFor; np
instance (a : McParams) : NP b0 (mcEnterprise a) := by unfold mcEnterprise; np
instance (a : McParams) : NP b0 (mcWithoutParam a) := by unfold mcWithoutParam; np
instance (a : McParams) : NP b0 (mcAuth a) := by unfold mcAuth; np
instance (a b : Bytes) (u : Bool) : NP b0 (isExcluded a b u) := by unfold isExcluded; np
instance (a : Bytes) (u : Bool) (l : List Descriptor) : NP b0 (checkExcludeList a u l) := by
  induction l with
  | nil => unfold checkExcludeList; np
  | cons d l ih => unfold checkExcludeList; np
instance (a : McParams) : NP b0 (mcMinPin a) := by unfold mcMinPin; np
instance (a : McParams) : NP b0 (mcLargeBlobKey a) := by unfold mcLargeBlobKey; np
instance (a : McParams) (sk : Bytes) (l : Option Bytes) : NP b0 (mcCreate a sk l) := by unfold mcCreate; np
instance (b : Bool) : NP b0 (mcMinPinOutput b) := by unfold mcMinPinOutput; np
instance (a : McParams) (b : Bool) : NP b0 (mcExtOutput a b) := by
  unfold mcExtOutput
  refine NP.iteE (NP.bindE inferInstance inferInstance fun len => NP.cborWrite (mapOk (by keys))) inferInstance
instance (a : McParams) (b : Bool) (x y : Bytes) : NP b0 (mcAuthData a b x y) := by
  have (k : CoseKey) : NP b0 (cborWriteM k.toCbor) := NP.cborWrite (CoseKey.toCbor_some k)
  unfold mcAuthData; np
instance (b : Bool) (x y : Bytes) : NP b0 (mcSign b x y) := by
  unfold mcSign
  refine NP.iteE (NP.bind' inferInstance fun s o s1 hs h1 hs1 => ?_) (by np)
  cases o with
  | none => trivial
  | some att =>
    have ha := attestationGet_att h1
    have := hs.2.1 att ha.symm y
    simp only [req, bind_def, M.bind, M.pure]
    cases h : Dev.ecdsaSign att.sk y with
    | none => exact absurd h this
    | some s => trivial
instance (a : McParams) (b : Bool) : NP b0 (mcFinish a b) := by unfold mcFinish; np
instance (a : McParams) : NP b0 (makeCredential a) := by unfold makeCredential; np
instance (a : Bytes) (b : Bool) : NP b0 (generateCredRandom a b) := by unfold generateCredRandom; np
instance (c : Cred) (i : AssertionInput) : NP b0 (gaHmacSecret c i) := by unfold gaHmacSecret; np
instance (c : Cred) (i : AssertionInput) : NP b0 (gaExtOutput c i) := by
  have (x y : Option CVal) : NP b0 (cborWriteM (cborMapOptions [(.text (b! "credBlob"), x), (.text (b! "hmac-secret"), y)])) :=
    NP.cborWrite (mapOk (by keys))
  unfold gaExtOutput; np
instance (c : Cred) (i : AssertionInput) (n : Option Nat) : NP b0 (assertionResponse c i n) := by unfold assertionResponse; np
instance (a : Bytes) (u : Bool) (l : List Descriptor) : NP b0 (anyFromAllowList a u l) := by
  induction l with
  | nil => unfold anyFromAllowList; np
  | cons d l ih => unfold anyFromAllowList; np
instance (a : GaParams) : NP b0 (gaWithoutParam a) := by unfold gaWithoutParam; np
instance (a : GaParams) : NP b0 (gaAuth a) := by unfold gaAuth; np
instance (a : GaParams) : NP b0 (gaFindCredential a) := by unfold gaFindCredential; np
instance (a : GaParams) : NP b0 (gaPresence a) := by unfold gaPresence; np
instance (i : AssertionInput) (l : List Nat) (ch : Channel) : NP b0 (gaRemember i l ch) := by unfold gaRemember; np
instance (a : GaParams) (ch : Channel) : NP b0 (getAssertion a ch) := by unfold getAssertion; np
instance : NP b0 getNextAssertion := by unfold getNextAssertion; np
instance : NP b0 infoEp := by unfold infoEp; np
instance : NP b0 getInfo := by unfold getInfo; np
instance : NP b0 resetCommand := by unfold resetCommand; np
instance : NP b0 selection := by unfold selection; np
instance : NP b0 storedRpIds := by unfold storedRpIds; np
instance (b : Bytes) : NP b0 (checkRpIdPermissions b) := by unfold checkRpIdPermissions; np
instance : NP b0 cmMetadata := by unfold cmMetadata; np
instance (ch : Channel) : NP b0 (cmRpsBegin ch) := by unfold cmRpsBegin; np
instance : NP b0 cmRpsNext := by unfold cmRpsNext; np
instance (a : CmSubParams) (ch : Channel) : NP b0 (cmCredsBegin a ch) := by unfold cmCredsBegin; np
instance : NP b0 cmCredsNext := by unfold cmCredsNext; np
instance (a : CmSubParams) : NP b0 (cmDelete a) := by unfold cmDelete; np
instance (a : CmSubParams) : NP b0 (cmUpdate a) := by unfold cmUpdate; np
instance (a : CmParams) : NP b0 (cmAuthData a) := by
  have (k : CmSubParams) : NP b0 (cborWriteM k.toCbor) := NP.cborWrite (CmSubParams.toCbor_some k)
  unfold cmAuthData; np
instance (a : CmParams) : NP b0 (cmAuth a) := by unfold cmAuth; np
instance (a : CmParams) (ch : Channel) : NP b0 (cmDispatch a ch) := by unfold cmDispatch; np
instance (a : CmParams) (ch : Channel) : NP b0 (credentialManagement a ch) := by unfold credentialManagement; np
instance : NP b0 configEnableEp := by unfold configEnableEp; np
instance (b : Bool) : NP b0 (configCheckForce b) := by unfold configCheckForce; np
instance (a : MinPinParams) : NP b0 (configSetMinPin a) := by unfold configSetMinPin; np
instance (a : ConfigSub) : NP b0 (configEnforceUv a) := by unfold configEnforceUv; np
instance (a : ConfigParams) : NP b0 (configAuthData a) := by
  have (k : MinPinParams) : NP b0 (cborWriteM k.toCbor) := NP.cborWrite (MinPinParams.toCbor_some k)
  unfold configAuthData; np
instance (a : ConfigParams) : NP b0 (configAuth a) := by unfold configAuth; np
instance (a : ConfigParams) : NP b0 (configDispatch a) := by unfold configDispatch; np
instance (a : ConfigParams) : NP b0 (configCommand a) := by unfold configCommand; np
instance (f : LargeBlobs → LargeBlobs) : NP b0 (modLb f) := by unfold modLb; np
instance (a : LbParams) (n : Nat) : NP b0 (lbGet a n) := by unfold lbGet; np
instance (a : LbParams) : NP b0 (lbStart a) := by unfold lbStart; np
instance : NP b0 lbNeedsAuth := by unfold lbNeedsAuth; np
instance (a : LbParams) (b : Bytes) : NP b0 (lbAuth a b) := by unfold lbAuth; np
instance : NP b0 consumeUp := by unfold consumeUp; np
instance : NP b0 u2fAttestation := by unfold u2fAttestation; np
theorem NP.bindSw' {m : M (Except Sw α)} {f : α → M (Except Sw β)} (h1 : NP b0 m) [hp : Pres (Sane b0) m]
    (h2 : ∀ s a s1, Sane b0 s → m s = (.ok (.ok a), s1) → Sane b0 s1 → (f a s1).1.fine b0) : NP b0 (bindSw m f) := by
  unfold bindSw
  refine NP.bind' h1 fun s r s1 hs h3 hs1 => ?_
  cases r with
  | ok a => exact h2 s a s1 hs h3 hs1
  | error e => trivial

theorem u2fAttestation_att {s s1 : St} {a : Attestation} (h : u2fAttestation s = (.ok (.ok a), s1)) :
    s.p.attestation = some a := by
  obtain ⟨o, s2, h1, h2⟩ | ⟨e, _, h2⟩ := bindSw_ok.1 h
  rotate_left
  · cases h2
  have h3 := attestationGet_att (orSw_ok.1 h1)
  cases o with
  | none => cases h2
  | some b =>
    have : b = a := by
      have := (pure_ok.1 h2).1
      injection this
    rw [← h3, this]

instance (a b : Bytes) : NP b0 (u2fRegister a b) := by
  have (h k : Bytes) : NP b0 (bindSw u2fAttestation fun att => u2fRegisterResponse a b h k att) :=
    NP.bindSw' inferInstance fun s att s1 hs h1 hs1 => by
      have := hs.2.1 att (u2fAttestation_att h1) (registerData b a h k)
      unfold u2fRegisterResponse
      cases h2 : Dev.ecdsaSign att.sk (registerData b a h k) with
      | none => exact absurd h2 this
      | some s => trivial
  unfold u2fRegister; np
instance (a b c : Bytes) : NP b0 (u2fSign a b c) := by unfold u2fSign; np
instance (a b c : Bytes) (f : U2fFlags) : NP b0 (u2fAuthenticate a b c f) := by unfold u2fAuthenticate; np
instance (f : U2fFlags) : NP b0 (u2fCheckUp f) := by unfold u2fCheckUp; np
instance (c : U2fCommand) : NP b0 (u2fDispatch c) := by unfold u2fDispatch; np
instance (m : Bytes) : NP b0 (u2fCommand m) := by unfold u2fCommand; np
instance (ch : Channel) : NP b0 (clearOtherChannels ch) := by unfold clearOtherChannels; np
instance (r : Response) : NP b0 (logCounter r) := by unfold logCounter; np
instance (r : Response) : NP b0 (encodeResponse r) := by
  obtain ⟨v, hv⟩ := Response.toCbor_some r
  unfold encodeResponse
  rw [hv]
  cases v with
  | none => infer_instance
  | some v => dsimp only; split <;> infer_instance
instance (r : Response) : NP b0 (respond r) := by unfold respond; np
theorem NP.errorByte {m : M Bytes} (h : NP b0 m) : NP b0 (errorByte m) := by
  constructor
  intro s hs
  have := h.out s hs
  unfold Verif.Ctap.errorByte
  rcases h1 : m s with ⟨r, s1⟩
  rw [h1] at this
  cases r with
  | panic => exact this
  | crash => exact this
  | _ => trivial
instance (m : Bytes) : NP b0 (processU2f m) := by unfold processU2f; np
instance : NP b0 touchButton := by unfold touchButton; np

end
end Verif.Ctap
