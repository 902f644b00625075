import Verif.Ctap.AuthLemmas
import Verif.Ctap.TokenSpec

/-!
# Invariant of the PIN/UV auth token: where its state comes from
-/
namespace Verif.Ctap
set_option linter.unusedSectionVars false

/-- The token in use goes back to the last issue, which is at most 30 s ago, with its permissions. -/
def TokGood (s : St) : Prop := s.v.pin.tok.inUse = true →
  ∃ l1 t perms rp l2 d, s.log = l1 ++ .tokenIssued t perms rp :: l2 ∧ (∀ e ∈ l1, e.isBootOrIssued = false) ∧
    s.v.pin.tok.timer = some d ∧ d ≤ t + 30000 ∧
    (.tokenConsumed ∉ l1 → s.v.pin.tok.permissions = perms) ∧
    (.tokenConsumed ∈ l1 → s.v.pin.tok.permissions = perms &&& 0x10 ∧ s.v.pin.tok.userVerified = false) ∧
    (∀ r, rp = some r → s.v.pin.tok.rpId = some r)

theorem TokGood.event {s : St} (h : TokGood s) {e : Ev} (h1 : e.isBootOrIssued = false) (h2 : e ≠ .tokenConsumed) :
    TokGood { s with log := e :: s.log } := by
  intro hu
  obtain ⟨l1, t, perms, rp, l2, d, a1, a2, a3, a4, a5, a6, a7⟩ := h hu
  refine ⟨e :: l1, t, perms, rp, l2, d, by simp [a1], ?_, a3, a4, ?_, ?_, a7⟩
  · simpa [h1] using a2
  · intro hc; exact a5 fun h => hc (List.mem_cons_of_mem _ h)
  · intro hc
    exact a6 ((List.mem_cons.1 hc).resolve_left (Ne.symm h2))

instance : SEnv TokGood := ⟨fun _ _ _ _ h => h⟩
instance (P : Oracle → Prop) : SOra P TokGood := ⟨fun _ _ _ h => h⟩
stable_instances TokGood under SMaster SCreds SMinPin SRpIds SForce SEp SAlwaysUv SLargeBlob SU2f SSp SLb SPin SRetries
  SMis SKeys
instance : SPresence TokGood := ⟨fun _ _ h => h.event rfl (by simp)⟩
instance : SCompare TokGood := ⟨fun _ _ h => h.event rfl (by simp)⟩
instance : SU2fPrompt TokGood := ⟨fun _ _ h => h.event rfl (by simp)⟩
instance : SU2fConsume TokGood := ⟨fun _ _ h => h.event rfl (by simp)⟩
instance : SU2fTouch TokGood := ⟨fun _ _ h => h.event rfl (by simp)⟩
instance : SCounterEv TokGood := ⟨fun _ _ _ h => h.event rfl (by simp)⟩
instance : SErase TokGood := ⟨fun s h => TokGood.event (s := s) h rfl (by simp)⟩
instance : SCounter TokGood := ⟨fun s _ w h => by
  cases w
  · exact TokGood.event (s := s) h rfl (by simp)
  · exact h⟩

variable [Dev]

theorem tokGood_clear {s : St} (h : TokGood s) :
    TokGood { s with v := { s.v with pin := { s.v.pin with tok := s.v.pin.tok.clearFlags } },
                     log := .tokenConsumed :: s.log } := by
  intro hu
  obtain ⟨l1, t, perms, rp, l2, d, a1, a2, a3, a4, a5, a6, a7⟩ := h hu
  refine ⟨.tokenConsumed :: l1, t, perms, rp, l2, d, by simp [a1], ?_, a3, a4, by simp, fun _ => ⟨?_, rfl⟩, a7⟩
  · simpa [Ev.isBootOrIssued] using a2
  · show s.v.pin.tok.permissions &&& 0x10 = perms &&& 0x10
    by_cases hc : Ev.tokenConsumed ∈ l1
    · rw [(a6 hc).1, UInt8.and_assoc, UInt8.and_self]
    · rw [a5 hc]

instance : Pres TokGood clearTokenFlags := ⟨fun _ h => tokGood_clear h⟩

instance : Pres TokGood updateTimeouts := ⟨fun s h => by
  show TokGood { s with v := { s.v with pin := { s.v.pin with tok := s.v.pin.tok.observe s.env.now } } }
  intro hu
  have hu' : (s.v.pin.tok.observe s.env.now).inUse = true := hu
  by_cases he : (s.v.pin.tok.inUse && Verif.Hid.Timer.isElapsed s.v.pin.tok.timer s.env.now) = true
  · simp only [TokenState.observe, he, if_true] at hu'
    simp [TokenState.new] at hu'
  · have e : s.v.pin.tok.observe s.env.now = s.v.pin.tok := by
      rw [TokenState.observe, if_neg he]
    rw [e] at hu'
    simp only [e]
    exact h hu'⟩

instance (r : Bytes) : Pres TokGood (ensureRpIdPermission r) := by
  constructor
  intro s h
  simp only [ensureRpIdPermission, bind_def, M.bind, getV]
  split
  · rename_i hn
    intro hu
    obtain ⟨l1, t, perms, rp, l2, d, a1, a2, a3, a4, a5, a6, a7⟩ := h hu
    refine ⟨l1, t, perms, rp, l2, d, a1, a2, a3, a4, a5, a6, fun r' hr' => ?_⟩
    have := a7 r' hr'
    simp [this] at hn
  · exact (inferInstance : Pres TokGood (guardE _ _)).out s h

instance (u : UInt8) (a b c : Bytes) (pr : Option Proto) : Pres TokGood (checkTokenFor u a b c pr) := by
  unfold checkTokenFor; pres
instance (a : McParams) : Pres TokGood (mcAuth a) := by unfold mcAuth; pres
instance (a : McParams) : Pres TokGood (makeCredential a) := by unfold makeCredential; pres
instance (a : GaParams) : Pres TokGood (gaAuth a) := by unfold gaAuth; pres
instance (a : GaParams) : Pres TokGood (gaPresence a) := by unfold gaPresence; pres
instance (a : GaParams) (ch : Channel) : Pres TokGood (getAssertion a ch) := by unfold getAssertion; pres
instance : Pres TokGood resetClientPin := by
  have : Pres TokGood (modPin fun c => { c with mismatches := 0, tok := TokenState.new }) :=
    ⟨fun s _ hu => by simp [modPin, modV, TokenState.new] at hu⟩
  unfold resetClientPin; pres
instance : Pres TokGood resetCommand := by
  have : Pres TokGood (modV fun v => { v with u2f := U2fUp.new }) := Pres.u2f _
  unfold resetCommand; pres

/-! ## The issue of a token -/

/-- The usage timer was started just now. -/
def TokFresh (s : St) : Prop := ∃ t, t ≤ s.env.now ∧ s.v.pin.tok.timer = some (t + 30000)

instance : SEnv TokFresh := ⟨by rintro s e h _ ⟨t, h1, h2⟩; exact ⟨t, Nat.le_trans h1 h, h2⟩⟩

abbrev TT : St → Prop := fun _ => True

instance (P : Oracle → Prop) : SOra P TT := ⟨fun _ _ _ _ => trivial⟩

theorem tokGood_w (s : St) (h : TokGood s) : TT s ∧ TokGood s := ⟨trivial, h⟩

theorem encrypt_no_err {ss : SharedSecret} {pt : Bytes} (h : pt.length % 16 = 0) (s : St) (e : Status) :
    (ss.encrypt pt s).1 ≠ .err e := by
  unfold SharedSecret.encrypt aesEncrypt
  refine HT.bind_no_err ?_ (fun iv s1 _ e' hx => ?_) e
  · intro e'
    unfold drawIv
    split
    · exact HT.rng_no_err _ _ _
    · simp [M.pure]
  · have hn : Verif.Crypto.aesCbcEncrypt (Dev.aesEnc ss.aesKey) iv pt ss.proto.embedsIv ≠ .invalidParameter := by
      have ho : ∀ o, Verif.Crypto.WrapRes.ofOption o ≠ .invalidParameter := by intro o; cases o <;> simp [Verif.Crypto.WrapRes.ofOption]
      have hm : ∀ f w, w ≠ .invalidParameter → Verif.Crypto.WrapRes.map f w ≠ .invalidParameter := by
        intro f w hw; cases w <;> simp_all [Verif.Crypto.WrapRes.map]
      unfold Verif.Crypto.aesCbcEncrypt
      split
      · omega
      · split
        · exact hm _ _ (ho _)
        · exact ho _
    cases hc : Verif.Crypto.aesCbcEncrypt (Dev.aesEnc ss.aesKey) iv pt ss.proto.embedsIv <;>
      simp [hc, liftWrap, M.pure, fail, panicM] at hx hn

theorem getPinToken_ht (a : PinParams) : HT TokGood (processGetPinToken a) (HT.Ok TokGood TT fun _ => TokFresh) := by
  unfold processGetPinToken
  refine HT.bindOk (HT.ofPres' inferInstance tokGood_w) fun ka => ?_
  refine HT.bindOk (HT.ofPres' inferInstance tokGood_w) fun phe => ?_
  refine HT.bindOk (HT.ofPres' inferInstance tokGood_w) fun _ => ?_
  refine HT.bindOk (HT.ofPres' inferInstance tokGood_w) fun r => ?_
  refine HT.bindOk (HT.ofPres' inferInstance tokGood_w) fun _ => ?_
  refine HT.bindOk (HT.ofPres' inferInstance tokGood_w) fun ss => ?_
  refine HT.bindOk (HT.ofPres' inferInstance tokGood_w) fun _ => ?_
  refine HT.bindOk (HT.ofPres' inferInstance tokGood_w) fun f => ?_
  refine HT.bindOk (HT.ofPres' inferInstance tokGood_w) fun _ => ?_
  refine HT.bindOk (Q := fun _ s => TokGood s ∧ s.v.pin.p1.token.length = 32)
    (HT.ofPres inferInstance tokGood_w fun s _ s' _ h hs' => ⟨hs', ?_⟩) fun _ => ?_
  · have := resetToken_ok h
    rw [this]; simp [ClientPin.setProto]
  refine HT.bindOk (Q := fun _ s => s.v.pin.p1.token.length = 32 ∧ s.v.pin.p2.token.length = 32) ?_ fun _ => ?_
  · intro s hs
    have hp := (inferInstance : Pres TokGood (resetToken .v2)).out s hs.1
    rcases h : resetToken .v2 s with ⟨r, s1⟩
    rw [h] at hp
    cases r with
    | ok u =>
      have := resetToken_ok h
      rw [this]
      exact ⟨by simp [ClientPin.setProto, hs.2], by simp [ClientPin.setProto]⟩
    | err e => exact ⟨trivial, hp⟩
    | panic => trivial
    | crash => trivial
  intro s hs
  have key : ∀ (s1 : St) (pt : Bytes), TokFresh s1 → pt.length % 16 = 0 →
      HT.Ok TokGood TT (fun _ => TokFresh) ((do let enc ← ss.encrypt pt; M.pure ({ token := some enc } : PinResponse)) s1).1
        ((do let enc ← ss.encrypt pt; M.pure ({ token := some enc } : PinResponse)) s1).2 := by
    intro s1 pt h1 h2
    have hn := encrypt_no_err (ss := ss) h2 s1
    have hp := (inferInstance : Pres TokFresh (ss.encrypt pt)).out s1 h1
    simp only [bind_def, M.bind]
    rcases h : ss.encrypt pt s1 with ⟨r, s2⟩
    rw [h] at hn hp
    cases r with
    | ok c => exact hp
    | err e => exact absurd rfl (hn e)
    | panic => trivial
    | crash => trivial
  refine key { s with v := { s.v with pin := { s.v.pin with tok :=
      { s.v.pin.tok.beginUsing s.env.now with permissions := 0x03, rpId := none } } } } _ ⟨s.env.now, Nat.le_refl _, rfl⟩ ?_
  cases a.proto <;> simp [ClientPin.proto, hs.1, hs.2]

theorem logIssued_ht : HT TokFresh logIssued (HT.Ok TokGood TT fun _ => TokGood) := by
  rintro s ⟨t, h1, h2⟩
  show TokGood { s with log := .tokenIssued s.env.now s.v.pin.tok.permissions s.v.pin.tok.rpId :: s.log }
  intro _
  exact ⟨[], s.env.now, _, _, s.log, _, rfl, by simp, h2, by omega, fun _ => rfl, by simp, fun r hr => hr⟩

theorem pure_ht (a : α) (I : St → Prop) : HT I (M.pure a) (HT.Ok I TT fun _ s => TT s ∧ I s) :=
  fun s h => (⟨trivial, h⟩ : TT s ∧ I s)

instance (a : PinParams) : PresA TokGood TT (clientPinCommand a) := by
  unfold clientPinCommand
  refine PresA.bindE inferInstance fun _ => ?_
  split
  · infer_instance
  · infer_instance
  · infer_instance
  · infer_instance
  · refine HT.toPresA (HT.bindOk (getPinToken_ht a) fun r => HT.bindOk logIssued_ht fun _ => pure_ht _ _)
  · infer_instance
  · infer_instance
  · refine HT.toPresA (HT.bindOk (Q := fun _ => TokFresh) ?_ fun r => HT.bindOk logIssued_ht fun _ => pure_ht _ _)
    unfold processGetPinTokenWithPermissions
    refine HT.bindOk (HT.ofPres' inferInstance tokGood_w) fun _ => ?_
    refine HT.bindOk (HT.ofPres' inferInstance tokGood_w) fun _ => ?_
    refine HT.bindOk (HT.ofPres' inferInstance tokGood_w) fun _ => ?_
    refine HT.bindOk (getPinToken_ht _) fun r => ?_
    intro s hs
    exact hs

step_instancesA TokGood TT

/-- The invariant holds in all states of a running device. -/
theorem tokGood_reach {P : Oracle → Prop} {s : St} (h : Reach P true s) : TokGood s := by
  refine (reach_invA (I := TokGood) (J := TT) h (fun _ _ => trivial) ?_).2 rfl
  intro s _ _
  refine ⟨trivial, fun ha => ?_⟩
  obtain ⟨e, _, _, ⟨h1, _⟩ | ⟨p1, p2, h1⟩⟩ := bootM_cases s
  · rw [h1] at ha; cases ha
  · rw [h1]; intro hu; simp [TokenState.new] at hu

end Verif.Ctap
