import Verif.Ctap.InfoLemmas
import Verif.Ctap.PropsPolicy
import Verif.Ctap.PropsFlags
import Verif.Ctap.PropsCred
import Verif.Ctap.PropsPinLive
import Verif.Ctap.PropsRegLive

/-!
# C75: GetInfo tells the truth
-/
namespace Verif.Ctap
open Verif.Cbor (Value readNested)
set_option linter.unusedSectionVars false
set_option maxRecDepth 100000

section
variable [Dev] {P : Oracle → Prop} {s s' t u : St} {ans : Bytes}

theorem getInfo_deserialize : Command.deserialize [0x04] = .ok .getInfo := rfl

/-- What is behind the answer. -/
theorem Told.out (hr : Reach P true s) (hc : ConfigFits) (h : Told P s ans t) :
    t.p = s.p ∧ Reach P true t ∧ ∃ v, readNested 64 (ans.drop 1) (some 4) = .ok v ∧
      s.info.toCbor = some v := by
  obtain ⟨ch, o, ho, h1, h2, h3⟩ := h
  obtain ⟨cmd, r, t1, h4, h5⟩ := (C74_status h1).1 h2
  rw [getInfo_deserialize] at h4
  cases h4
  have hg : getInfo (prelude .getInfo ch (s.withOracle o)) = (.ok r, t1) := by
    rw [processParsed_eq] at h5
    cases ch <;> exact h5
  obtain ⟨rfl, e, _, rfl⟩ := getInfo_ok hg
  have hp := (step_parsed getInfo_deserialize h5).1
  rw [h1] at hp
  have hr' := Reach.step o ho (.ctap2 ch [0x04]) hr
  rw [h1] at hr'
  refine ⟨hp, hr', ?_⟩
  obtain ⟨body, rfl, h6⟩ := C74_decodes hr hc h1 h3 getInfo_deserialize h5
  rcases h6 with ⟨h6, _⟩ | ⟨v, h6, h7⟩
  · simp [Response.toCbor] at h6
  · refine ⟨v, h7, ?_⟩
    simp only [Response.toCbor, Option.map_eq_some_iff] at h6
    obtain ⟨v', h6, h8⟩ := h6
    cases h8
    exact h6

/-- **C75**, the contents of the answer. -/
theorem C75_contents (hr : Reach P true s) (hc : ConfigFits) (h : Told P s ans t) :
    t.p = s.p ∧ Info.clientPin ans = some s.p.pin.isSome ∧ Info.alwaysUv ans = some s.p.uvRequired ∧
    Info.makeCredUvNotRqd ans = some (!s.p.uvRequired) ∧ Info.enterprise ans = Dev.epMode.map (fun _ => s.p.enterprise) ∧
    Info.forcePinChange ans = some s.p.forcePinChange ∧ Info.minPinLength ans = some s.p.minPin ∧
    Info.remaining ans = some (Dev.maxResidentKeys - s.stored.length) ∧
    Info.protocols ans = (if Dev.allowsPinV1 then [2, 1] else [2]) ∧
    Info.versions ans = (if s.p.uvRequired then [] else [b! "U2F_V2"]) ++ [b! "FIDO_2_0", b! "FIDO_2_1"] ∧
    Info.maxMsgSize ans = some Dev.maxMsgSize ∧ Info.maxLargeBlob ans = some Dev.maxLargeBlob ∧
    Info.maxRpIds ans = some Dev.maxRpIds ∧ Info.maxCredBlob ans = some Dev.maxCredBlobLength ∧
    Info.maxCredentialCountInList ans = Dev.maxCredCountInList := by
  obtain ⟨hp, _, v, h1, h2⟩ := h.out hr hc
  obtain ⟨m, o, rfl, ho, f1, f4, f5, f6, f7, f11, f12, f13, f15, f16, f20⟩ := InfoResponse.at h2
  obtain ⟨om, rfl, o1, o2, o3, o4⟩ := InfoResponse.named ho
  have hf : ∀ k, Info.field ans k = m.findSome? (Info.isAt k) := fun k => by simp only [Info.field, Info.entries, h1]
  refine ⟨hp, ?_, ?_, ?_, ?_, ?_, ?_, ?_, ?_, ?_, ?_, ?_, ?_, ?_, ?_⟩
  · simp only [Info.clientPin, Info.option, hf, f4, o1, Option.bind_some, asBool_cbor, St.info]
  · simp only [Info.alwaysUv, Info.option, hf, f4, o2, Option.bind_some, asBool_cbor, St.info]
  · simp only [Info.makeCredUvNotRqd, Info.option, hf, f4, o3, Option.bind_some, asBool_cbor, St.info]
  · simp only [Info.enterprise, Info.option, hf, f4, o4, St.info]
    cases Dev.epMode <;> simp [asBool_cbor]
  · simp only [Info.forcePinChange, Info.flag, hf, f12, Option.bind_some, asBool_cbor, St.info]
  · simp only [Info.minPinLength, Info.number, hf, f13, Option.bind_some, Info.asNumber, St.info]
  · simp only [Info.remaining, Info.number, hf, f20, Option.bind_some, Info.asNumber, St.info]
  · simp only [Info.protocols, hf, f6]
    cases Dev.allowsPinV1 <;> rfl
  · simp only [Info.versions, hf, f1, InfoResponse.versions, St.info]
    by_cases hq : s.p.uvRequired = true
    · simp [hq, Info.asText]
    · simp [hq, Info.asText]
  · simp only [Info.maxMsgSize, Info.number, hf, f5, Option.bind_some, Info.asNumber]
  · simp only [Info.maxLargeBlob, Info.number, hf, f11, Option.bind_some, Info.asNumber]
  · simp only [Info.maxRpIds, Info.number, hf, f16, Option.bind_some, Info.asNumber]
  · simp only [Info.maxCredBlob, Info.number, hf, f15, Option.bind_some, Info.asNumber]
  · simp only [Info.maxCredentialCountInList, Info.number, hf, f7]
    cases Dev.maxCredCountInList <;> rfl

/-- **C75**. GetInfo is answered with success on every channel, whatever happened before, unless the storage fails or power is lost;
it changes nothing that is stored. -/
theorem C75_answered (hr : Reach P true s) {o : Oracle} (ho : o.Calm) (ch : Channel) :
    ∃ ans t, stepM (.ctap2 ch [0x04]) (s.withOracle o) = (.ok (.ctap2 ans), t) ∧ ans.head? = some 0 ∧ t.p = s.p := by
  have hs : Smooth (s.withOracle o) := ⟨ho, (keyed_reach hr).2.2⟩
  have hk : Ok getInfo (prelude .getInfo ch (s.withOracle o)) := by
    have hs : Smooth (prelude .getInfo ch (s.withOracle o)) := ⟨ho, (keyed_reach hr).2.2⟩
    have hl : (prelude .getInfo ch (s.withOracle o)).p.creds.length ≤ Dev.maxResidentKeys := (credsOk_reach hr).length
    generalize prelude .getInfo ch (s.withOracle o) = x at hs hl
    unfold getInfo
    refine ok_bind ((inferInstance : Go hasAlwaysUv).out x hs) fun al s1 h1 => ?_
    obtain ⟨_, e1, _, e⟩ := hasAlwaysUv_ok h1
    have hs1 := smooth_of h1 hs
    subst s1
    have : Go infoEp := by unfold infoEp; go
    refine ok_bind (this.out _ hs1) fun ep s2 h2 => ?_
    obtain ⟨_, e2, _, e⟩ := infoEp_ok h2
    have hs2 := smooth_of h2 hs1
    subst s2
    refine ok_bind ((inferInstance : Go pinHash).out _ hs2) fun ph s3 h3 => ?_
    obtain ⟨_, e⟩ := pinHash_ok h3
    have hs3 := smooth_of h3 hs2
    subst s3
    refine ok_bind ((inferInstance : Go hasForcePinChange).out _ hs3) fun f s4 h4 => ?_
    obtain ⟨_, e⟩ := hasForce_ok h4
    have hs4 := smooth_of h4 hs3
    subst s4
    refine ok_bind ((inferInstance : Go minPinLength).out _ hs4) fun m s5 h5 => ?_
    obtain ⟨_, e⟩ := minPinLength_ok h5
    have hs5 := smooth_of h5 hs4
    subst s5
    refine ok_bind ?_ fun r s6 _ => ok_pure _ s6
    unfold remainingCredentials
    refine ok_bind ((inferInstance : Go countCredentials).out _ hs5) fun n s6 h6 => ?_
    have : n ≤ Dev.maxResidentKeys := by
      simp only [countCredentials, bind_ok, pure_ok] at h6
      obtain ⟨p, s7, h7, rfl, rfl⟩ := h6
      obtain ⟨rfl, _⟩ := readP_ok h7
      exact hl
    rw [if_pos this]
    exact ok_pure _ _
  have hk : Ok (processParsed .getInfo ch) (s.withOracle o) := by
    obtain ⟨r, t, h⟩ := hk
    refine ⟨r, t, ?_⟩
    rw [processParsed_eq]
    cases ch <;> exact h
  obtain ⟨r, s1, b, s2, h1, _, h3⟩ := answered getInfo_deserialize hs hk
  refine ⟨b, s2, h3, (C74_status h3).2 ⟨_, _, _, getInfo_deserialize, h1⟩, ?_⟩
  have hp := (step_parsed getInfo_deserialize h1).1
  rw [h3] at hp
  rw [hp]
  rw [processParsed_eq] at h1
  have hg : getInfo (prelude .getInfo ch (s.withOracle o)) = (.ok r, s1) := by cases ch <;> exact h1
  obtain ⟨_, e, _, rfl⟩ := getInfo_ok hg
  rfl

/-! ## PINs -/

theorem checkAndStoreNewPin_ok {ss : SharedSecret} {ct : Bytes} (h0 : 0 < s.p.minPin) (h : checkAndStoreNewPin ss ct s = (.ok (), s')) :
    ∃ pin, s'.p.pin = some pin ∧ GoodPin s.p.minPin pin := by
  simp only [checkAndStoreNewPin, bind_ok, guardE_ok, liftE_ok, setPin] at h
  obtain ⟨pin, _, ⟨h1, rfl⟩, m, s1, h2, _, _, ⟨h3, rfl⟩, h4⟩ := h
  obtain ⟨rfl, rfl⟩ := minPinLength_ok h2
  obtain ⟨d, _, hd, rfl⟩ := decryptPin_ok h1
  have hl : (d.takeWhile (· != 0)).length ≤ 64 := by rw [← hd]; exact (List.takeWhile_sublist _).length_le
  have h5 := writeP_ok h4
  subst h5
  simp only [Bool.not_eq_true', Bool.or_eq_false_iff, decide_eq_false_iff_not, beq_eq_false_iff_ne] at h3
  exact ⟨_, rfl, goodPin_of_checks h0 (by omega) (by omega)⟩

theorem keepMin [Pres (fun x => x.p.minPin = s.p.minPin) (m : M α)] {a : α} (h : m s = (.ok a, s')) : s'.p.minPin = s.p.minPin := by
  have := (inferInstance : Pres (fun x => x.p.minPin = s.p.minPin) m).out s rfl
  rw [h] at this
  exact this

theorem SameSettings.uv (h : SameSettings s t) : t.p.uvRequired = s.p.uvRequired := by
  simp only [Persist.uvRequired, h.alwaysUv]

theorem sameSettings_of (h : t.p = s.p) : SameSettings s t := by
  constructor <;> simp only [h, St.stored]

/-- The values announced are those in force, as long as no setting changes. -/
theorem told_now (hr : Reach P true s) (hc : ConfigFits) (h : Told P s ans t) (hs : SameSettings t u) : SameSettings s u := by
  have hp := (h.out hr hc).1
  exact ⟨hs.pin.trans (by rw [hp]), hs.minPin.trans (by rw [hp]), hs.force.trans (by rw [hp]), hs.alwaysUv.trans (by rw [hp]),
    hs.enterprise.trans (by rw [hp]), hs.stored.trans (by rw [St.stored, hp]; rfl)⟩

theorem fido_clientPin {a : PinParams} {ch : Channel} {r : Response} (h : processParsed (.clientPin a) ch s = (.ok r, s')) :
    ∃ x, clientPinCommand a (prelude (.clientPin a) ch s) = (.ok x, s') := by
  obtain ⟨_, h⟩ := processParsed_ok h (by simp)
  simp only [fidoCommand, bind_ok, pure_ok] at h
  obtain ⟨x, s1, h1, _, rfl⟩ := h
  exact ⟨x, h1⟩

theorem setPin_stores {a : PinParams} {x : Unit} (h0 : 0 < s.p.minPin) (h : processSetPin a s = (.ok x, s')) :
    s.p.pin = none ∧ ∃ pin, s'.p.pin = some pin ∧ GoodPin s.p.minPin pin := by
  simp only [processSetPin, bind_ok, req_ok, guardE_ok, liftE_ok] at h
  obtain ⟨ka, _, ⟨_, rfl⟩, pa, _, ⟨_, rfl⟩, enc, _, ⟨_, rfl⟩, hh, s1, h1, _, _, ⟨h2, rfl⟩, ss, s2, h3, _, _, ⟨_, rfl⟩, _, s3, h4, h5⟩ := h
  obtain ⟨rfl, rfl⟩ := pinHash_ok h1
  obtain ⟨_, rfl⟩ := getSharedSecret_ok h3
  obtain ⟨pin, h6, h7⟩ := checkAndStoreNewPin_ok (by exact h0) h4
  have h8 : s'.p.pin = s3.p.pin := by
    have := writeP_ok (by exact h5 : writeP _ _ _ = _)
    rw [this]
  exact ⟨by simpa using h2, pin, h8.trans h6, h7⟩

theorem changePin_stores {a : PinParams} {x : Unit} (h0 : 0 < s.p.minPin) (h : processChangePin a s = (.ok x, s')) :
    s.p.pin ≠ none ∧ ∃ pin, s'.p.pin = some pin ∧ GoodPin s.p.minPin pin := by
  simp only [processChangePin, bind_ok, req_ok, guardE_ok, liftE_ok] at h
  obtain ⟨ka, _, ⟨_, rfl⟩, pa, _, ⟨_, rfl⟩, enc, _, ⟨_, rfl⟩, phe, _, ⟨_, rfl⟩, n, s1, h1, _, _, ⟨_, rfl⟩, ss, s2, h3, _, _, ⟨_, rfl⟩,
    _, s3, h4, _, s4, h5, _, s5, h6, h7⟩ := h
  obtain ⟨rfl, rfl⟩ := pinRetries_ok h1
  obtain ⟨_, rfl⟩ := getSharedSecret_ok h3
  obtain ⟨hash, len, e, hp, _, _, _, rfl⟩ := verifyPinHashEnc_ok h4
  obtain ⟨pin, h8, h9⟩ := checkAndStoreNewPin_ok (by exact h0) h5
  have h6 := resetToken_ok h6
  have h7 := resetToken_ok h7
  have hp : s.p.pin = some (hash, len) := hp
  refine ⟨?_, pin, ?_, h9⟩
  · rw [hp]
    exact fun h => (nomatch h)
  rw [h7, h6]
  exact h8

/-- **C75**, PINs. A PIN command is accepted only in line with what was announced: with an announced protocol; setting a PIN only if
none was announced, and everything that requires a PIN only if one was announced; a token only if no change of the PIN was
announced to be due; and a new PIN has at least the announced number of characters. -/
theorem C75_pin (hr : Reach P true s) (hc : ConfigFits) (h : Told P s ans t) (hu : Reach P true u) (hs : SameSettings t u)
    {a : PinParams} {ch : Channel} {o : Oracle} {r : Response} (hx : processParsed (.clientPin a) ch (u.withOracle o) = (.ok r, s')) :
    a.proto.number ∈ Info.protocols ans ∧
    (a.sub = .setPin → Info.clientPin ans = some false) ∧
    (a.sub = .changePin ∨ a.sub = .getPinToken ∨ a.sub = .getPinTokenWithPermissions → Info.clientPin ans = some true) ∧
    (a.sub = .getPinToken ∨ a.sub = .getPinTokenWithPermissions → Info.forcePinChange ans = some false) ∧
    (a.sub = .setPin ∨ a.sub = .changePin → ∃ n pin, Info.minPinLength ans = some n ∧ s'.p.pin = some pin ∧ GoodPin n pin) := by
  have hs := told_now hr hc h hs
  obtain ⟨_, c1, _, _, _, c5, c6, _, c8, _⟩ := C75_contents hr hc h
  rw [c1, c5, c6, c8, ← hs.pin, ← hs.force, ← hs.minPin]
  have h0 : 0 < u.p.minPin := Nat.lt_of_lt_of_le default_pos (minInv_reach hu).min
  obtain ⟨x, hx⟩ := fido_clientPin hx
  have e0 : (prelude (.clientPin a) ch (u.withOracle o)).p = u.p := rfl
  generalize prelude (.clientPin a) ch (u.withOracle o) = w at hx e0
  rw [← e0] at h0 ⊢
  simp only [clientPinCommand] at hx
  rw [bind_ok] at hx
  obtain ⟨_, w1, hg, hx⟩ := hx
  rw [guardE_ok] at hg
  obtain ⟨hg, rfl⟩ := hg
  refine ⟨?_, ?_⟩
  · cases ha : a.proto with
    | v2 => simp only [Proto.number]; split <;> simp
    | v1 => rw [ha] at hg; simp at hg; simp [Proto.number, hg]
  have tok : ∀ {b : PinParams} {y : PinResponse} {w' : St}, processGetPinToken b w = (.ok y, w') → w.p.pin.isSome = true ∧ w.p.forcePinChange = false := by
    intro b y w' h
    obtain ⟨_, _, _, hash, len, _, _, _, _, _, _, h1, _, _, _, h2, _⟩ := getPinToken_ok h
    exact ⟨by rw [h1]; rfl, h2⟩
  cases hsub : a.sub with
  | setPin =>
    simp only [hsub, bind_ok] at hx
    obtain ⟨_, w1, h1, h2⟩ := hx
    obtain ⟨_, rfl⟩ := pure_ok.1 h2
    obtain ⟨h3, pin, h4, h5⟩ := setPin_stores h0 h1
    refine ⟨fun _ => by rw [h3]; rfl, by simp, by simp, fun _ => ⟨_, pin, rfl, h4, h5⟩⟩
  | changePin =>
    simp only [hsub, bind_ok] at hx
    obtain ⟨_, w1, h1, h2⟩ := hx
    obtain ⟨_, rfl⟩ := pure_ok.1 h2
    obtain ⟨h3, pin, h4, h5⟩ := changePin_stores h0 h1
    refine ⟨by simp, fun _ => ?_, by simp, fun _ => ⟨_, pin, rfl, h4, h5⟩⟩
    cases hp : w.p.pin with
    | none => exact absurd hp h3
    | some _ => rfl
  | getPinToken =>
    simp only [hsub, bind_ok] at hx
    obtain ⟨y, w1, h1, _⟩ := hx
    obtain ⟨h2, h3⟩ := tok h1
    exact ⟨by simp, fun _ => by rw [h2], fun _ => by rw [h3], by simp⟩
  | getPinTokenWithPermissions =>
    simp only [hsub, bind_ok, processGetPinTokenWithPermissions, guardE_ok, req_ok] at hx
    obtain ⟨y, w1, ⟨_, _, ⟨_, rfl⟩, _, _, ⟨_, rfl⟩, _, _, ⟨_, rfl⟩, z, w2, h1, _⟩, _⟩ := hx
    obtain ⟨h2, h3⟩ := tok h1
    exact ⟨by simp, fun _ => by rw [h2], fun _ => by rw [h3], by simp⟩
  | _ => simp

/-- **C75**, PINs: an honest request to set a PIN, with an announced protocol, of the announced length, on a device that announced
that it has none, succeeds. -/
theorem C75_set_pin (hr : Reach P true s) (hc : ConfigFits) (h : Told P s ans t) (hu : Reach P true u) (hs : SameSettings t u)
    (hn : Info.clientPin ans = some false) {n : Nat} (hm : Info.minPinLength ans = some n)
    {a : PinParams} (hpr : a.proto.number ∈ Info.protocols ans) {cid msg pin : Bytes} {o : Oracle} (ho : o.Calm)
    (hmsg : Command.deserialize msg = .ok (.clientPin a)) (ha : a.Sets u.v.pin pin)
    (h0 : (0 : UInt8) ∉ pin) (h1 : pin.length ≤ 63) (h2 : ∃ cs, Verif.Utf8.decode pin = some cs ∧ n ≤ cs.length) :
    ∃ t', stepM (.ctap2 (.main cid) msg) (u.withOracle o) = (.ok (.ctap2 [0x00]), t') ∧ t'.PinIs pin := by
  have hs := told_now hr hc h hs
  obtain ⟨_, c1, _, _, _, _, c6, _, c8, _⟩ := C75_contents hr hc h
  rw [c1, ← hs.pin] at hn
  rw [c6, ← hs.minPin] at hm
  cases hm
  obtain ⟨t', k1, k2, _⟩ := C72_set (cid := cid) hu ho hmsg (by
    rw [c8] at hpr
    cases hv : Dev.allowsPinV1 with
    | true => exact .inl rfl
    | false =>
      refine .inr fun hv1 => ?_
      rw [hv1, hv] at hpr
      simp [Proto.number] at hpr) (by
    cases hp : u.p.pin with
    | none => rfl
    | some _ => rw [hp] at hn; cases hn) ha ⟨h0, h1, h2⟩
  exact ⟨t', k1, k2⟩

/-! ## User verification -/

/-- **C75**, user verification. While the device announces that it always requires user verification, no registration and no
confirmed assertion is answered without it, and no U2F request is; and U2F is announced exactly if this is not so. A
registration without a token is answered only if this was announced as possible; a token is accepted only if a PIN was
announced. -/
theorem C75_verification (hr : Reach P true s) (hc : ConfigFits) (h : Told P s ans t) (hu : Reach P true u) (hs : SameSettings t u)
    {ch : Channel} {o : Oracle} :
    (Info.offersU2f ans ↔ Info.alwaysUv ans = some false) ∧
    (∀ {a : McParams} {r : Response} {s' : St}, processParsed (.makeCredential a) ch (u.withOracle o) = (.ok r, s') →
      (Info.alwaysUv ans = some true → ∃ m, r = .makeCredential m ∧ UserVerified m.authData) ∧
      (a.authParam = none → Info.makeCredUvNotRqd ans = some true ∧ (a.options.rk = true → Info.clientPin ans = some false)) ∧
      (a.authParam ≠ none → Info.clientPin ans = some true)) ∧
    (∀ {a : GaParams} {r : Response} {s' : St}, processParsed (.getAssertion a) ch (u.withOracle o) = (.ok r, s') →
      (Info.alwaysUv ans = some true → ∃ g, r = .getAssertion g ∧ (UserPresent g.authData → UserVerified g.authData)) ∧
      (a.authParam ≠ none → Info.clientPin ans = some true)) ∧
    (∀ {msg : Bytes} {b : Bytes} {s' : St}, processU2f msg (u.withOracle o) = (.ok (.ok b), s') → Info.offersU2f ans) := by
  have hs := told_now hr hc h hs
  obtain ⟨_, c1, c2, c3, _, _, _, _, _, c9, _⟩ := C75_contents hr hc h
  have hv : Info.offersU2f ans ↔ Info.alwaysUv ans = some false := by
    rw [Info.offersU2f, c9, c2]
    cases s.p.uvRequired <;> simp
  refine ⟨hv, ?_, ?_, ?_⟩
  · intro a r s' hx
    rw [c1, c2, c3, ← hs.uv, ← hs.pin]
    refine ⟨fun h1 => ?_, ?_, ?_⟩
    · obtain ⟨_, h2⟩ := C26_registration hu hx (Option.some.inj h1)
      exact h2
    · intro hn
      obtain ⟨_, hx⟩ := processParsed_ok hx (by simp)
      obtain ⟨ep, s1, s2, s3, s4, _, h1, h2, _⟩ := makeCredential_ok hx
      obtain ⟨e, _, _, rfl⟩ := envOnly h1
      simp only [mcAuth, hn, mcWithoutParam, bind_ok, guardE_ok, whenM_ok] at h2
      obtain ⟨_, _, ⟨_, rfl⟩, al, s5, h3, _, _, ⟨h4, rfl⟩, h5⟩ := h2
      obtain ⟨rfl, e', _, rfl⟩ := hasAlwaysUv_ok h3
      refine ⟨by rw [show u.p.uvRequired = false from (Bool.not_eq_true' _).mp h4]; rfl, fun hk => ?_⟩
      rcases h5 with ⟨_, h5⟩ | ⟨h5, _⟩
      · obtain ⟨hh, s6, h6, h7⟩ := h5
        obtain ⟨rfl, rfl⟩ := pinHash_ok h6
        rw [show u.p.pin = none from Option.map_eq_none_iff.1 (Option.isNone_iff_eq_none.1 h7.1)]
        rfl
      · rw [hk] at h5; cases h5
    · intro hn
      obtain ⟨p, hp⟩ := Option.ne_none_iff_exists'.1 hn
      obtain ⟨_, hx⟩ := processParsed_ok hx (by simp)
      obtain ⟨_, _, _, h3, _⟩ := mcAuth_token hx hp
      exact congrArg some h3
  · intro a r s' hx
    rw [c1, c2, ← hs.uv, ← hs.pin]
    refine ⟨fun h1 => ?_, ?_⟩
    · obtain ⟨g, h2, h3⟩ := C26_assertion hu hx (Option.some.inj h1)
      exact ⟨g, h2, fun h4 => (h3 h4).2⟩
    · intro hn
      obtain ⟨p, hp⟩ := Option.ne_none_iff_exists'.1 hn
      obtain ⟨_, hx⟩ := processParsed_ok hx (by simp)
      obtain ⟨_, _, _, h3, _⟩ := gaAuth_token hx hp
      exact congrArg some h3
  · intro msg b s' hx
    rw [hv, c2, ← hs.uv]
    cases hq : u.p.uvRequired with
    | false => rfl
    | true =>
      obtain ⟨⟨e, he⟩, _⟩ := C26_u2f hx hq
      cases he

/-! ## Room for discoverable credentials, limits -/

/-- **C75**, room. If the device announces that no room remains, a discoverable registration is answered only if it replaces the
credential of the same account. -/
theorem C75_full (hr : Reach P true s) (hc : ConfigFits) (h : Told P s ans t) (hu : Reach P true u) (hs : SameSettings t u)
    {a : McParams} {ch : Channel} {o : Oracle} {r : Response} (hx : processParsed (.makeCredential a) ch (u.withOracle o) = (.ok r, s'))
    (hk : a.options.rk = true) (h0 : Info.remaining ans = some 0) : ∃ c ∈ u.stored, c.isFor a.rp.id a.user.id = true := by
  have hs := told_now hr hc h hs
  obtain ⟨_, _, _, _, _, _, _, c7, _⟩ := C75_contents hr hc h
  rw [c7, ← hs.stored] at h0
  have hl : u.stored.length ≤ Dev.maxResidentKeys := by rw [St.stored, List.length_map]; exact (credsOk_reach hu).length
  apply Classical.byContradiction
  intro hn
  refine (C24_full_refused hu hx hk (by have := Option.some.inj h0; omega) fun c hc => ?_).2 _ rfl
  cases hf : c.isFor a.rp.id a.user.id with
  | false => rfl
  | true => exact absurd ⟨c, hc, hf⟩ hn

/-- **C75**, room. If the device announces that room remains, that it does not require user verification and, for a discoverable
credential, that it has no PIN, then an honest registration without a token is answered. -/
theorem C75_register (hr : Reach P true s) (hc : ConfigFits) (h : Told P s ans t) (hu : Reach P true u) (hs : SameSettings t u)
    {n : Nat} (hn : Info.remaining ans = some n) (h0 : 0 < n) (hv : Info.makeCredUvNotRqd ans = some true)
    {a : McParams} {cid msg : Bytes} {o : Oracle} (hmsg : Command.deserialize msg = .ok (.makeCredential a))
    (hp : a.options.rk = true → Info.clientPin ans = some false) (ho : o.Calm) (ht : o.Confirms) (hd : o.DrawsKeys)
    (halg : ∃ p ∈ a.credParams, p.publicKey = true ∧ p.es256 = true) (hau : a.authParam = none) (huv : a.options.uv = false)
    (hep : a.enterprise = none) (hex : a.excludeList.getD [] = [])
    (hatt : Dev.useBatchAttestation = true → ∃ att, u.p.attestation = some att ∧ CanSign att.sk) :
    ∃ m b t', stepM (.ctap2 (.main cid) msg) (u.withOracle o) = (.ok (.ctap2 b), t') ∧ (Response.makeCredential m).SentAs b := by
  have hs := told_now hr hc h hs
  obtain ⟨_, c1, _, c3, _, _, _, c7, _⟩ := C75_contents hr hc h
  rw [c7, ← hs.stored] at hn
  rw [c3, ← hs.uv] at hv
  rw [c1, ← hs.pin] at hp
  obtain ⟨m, b, _, t', _, k1, k2⟩ := C73_registered (cid := cid) hu hmsg (o := o) {
    calm := ho
    user := ht
    keys := hd
    algorithm := halg
    enterprise := by rw [hep]; exact fun n h => (nomatch h)
    attestation := by rw [hep]; exact fun h => hatt (h.elim (fun h => (nomatch h)) id)
    noToken := fun _ => ⟨huv, by simpa using hv, fun hk => by
      cases hq : u.p.pin with
      | none => rfl
      | some _ => have := hp hk; rw [hq] at this; cases this⟩
    token := by rw [hau]; exact trivial
    exclude := by rw [hex]; exact fun d hd => (nomatch hd)
    room := fun _ => .inl (by have := Option.some.inj hn; omega) }
  exact ⟨m, b, t', k1, k2⟩

theorem foldl_grows (l ids : List Bytes) :
    ids.length ≤ (l.foldl (fun acc x => if acc.contains x then acc else acc ++ [x]) ids).length := by
  induction l generalizing ids with
  | nil => exact Nat.le_refl _
  | cons x l ih =>
    refine Nat.le_trans ?_ (ih _)
    show ids.length ≤ (if ids.contains x = true then ids else ids ++ [x]).length
    split
    · exact Nat.le_refl _
    · simp

/-- **C75**, limits. Accepted requests respect the announced limits: the size of the large blob array and of the fragments, the
number of relying parties that see the minimum PIN length, and the minimum PIN length itself, which only grows. Enterprise
attestation is accepted only if it was announced as enabled. -/
theorem C75_limits (hr : Reach P true s) (hc : ConfigFits) (h : Told P s ans t) (hs : SameSettings t u) {ch : Channel} {o : Oracle} :
    (∀ {a : LbParams} {set : Bytes} {r : Response} {s' : St}, a.get = none → a.set = some set →
      processParsed (.largeBlobs a) ch (u.withOracle o) = (.ok r, s') →
      (∃ m, Info.maxMsgSize ans = some m ∧ set.length + 64 ≤ m) ∧
      (a.offset = 0 → ∃ m n, Info.maxLargeBlob ans = some m ∧ a.length = some n ∧ n ≤ m)) ∧
    (∀ {a : ConfigParams} {p : MinPinParams} {r : Response} {s' : St}, a.sub = .setMinPinLength → a.params = some p →
      processParsed (.config a) ch (u.withOracle o) = (.ok r, s') →
      (∀ n, p.newLength = some n → ∃ m, Info.minPinLength ans = some m ∧ m ≤ n) ∧
      (∀ ids, p.rpIds = some ids → ∃ m, Info.maxRpIds ans = some m ∧ ids.length ≤ m)) ∧
    (∀ {a : McParams} {n : Nat} {r : Response} {s' : St}, a.enterprise = some n →
      processParsed (.makeCredential a) ch (u.withOracle o) = (.ok r, s') → Info.enterprise ans = some true) := by
  have hs := told_now hr hc h hs
  obtain ⟨_, _, _, _, c4, _, c6, _, _, _, c10, c11, c12, _⟩ := C75_contents hr hc h
  rw [c4, c6, c10, c11, c12, ← hs.enterprise, ← hs.minPin]
  refine ⟨?_, ?_, ?_⟩
  · intro a set r s' hg hset hx
    obtain ⟨_, hx⟩ := processParsed_ok hx (by simp)
    simp only [fidoCommand, largeBlobsCommand, hg, hset, lbSet, bind_ok, guardE_ok, lbStart, whenM_ok] at hx
    obtain ⟨_, _, ⟨h1, _⟩, _, s2, h2, _⟩ := hx
    refine ⟨⟨_, rfl, ?_⟩, fun h0 => ?_⟩
    · have := Dev.maxMsgSize_ge
      have := of_decide_eq_true h1
      unfold maxFragment at this
      omega
    · rcases h2 with ⟨_, n, s3, h3, _, _, _, _, _, ⟨h4, _⟩, _⟩ | ⟨h2, _⟩
      · exact ⟨_, n, rfl, (req_ok.1 h3).1, of_decide_eq_true h4⟩
      · rw [h0] at h2; cases h2
  · intro a p r s' hsub hpar hx
    refine ⟨fun n hn => ⟨_, rfl, (C28_set_min_length hx hsub hpar hn).2.1⟩, fun ids hids => ⟨_, rfl, ?_⟩⟩
    obtain ⟨_, hx⟩ := processParsed_ok hx (by simp)
    obtain ⟨e, _, h1, _⟩ := configCommand_ok hx
    simp only [configDispatch, hsub, bind_ok, req_ok, hpar, configSetMinPin] at h1
    obtain ⟨q, _, ⟨hq, rfl⟩, _, _, _, _, _, _, _, _, _, _, _, _, _, _, _, _, s8, _, h9⟩ := h1
    cases hq
    simp only [hids, setMinPinLengthRpIds, bind_ok, guardE_ok] at h9
    obtain ⟨_, _, ⟨h9, _⟩, _⟩ := h9
    refine Nat.le_trans ?_ (of_decide_eq_true h9)
    exact foldl_grows _ _
  · intro a n r s' ha hx
    obtain ⟨_, hx⟩ := processParsed_ok hx (by simp)
    obtain ⟨ep, s1, s2, s3, s4, _, h1, _⟩ := makeCredential_ok hx
    simp only [mcEnterprise, ha, bind_ok, req_ok, guardE_ok, enterpriseAttestation, pure_ok] at h1
    obtain ⟨mode, _, ⟨hm, rfl⟩, on, s5, ⟨q, s6, h2, rfl, rfl⟩, _, _, ⟨h3, rfl⟩, _⟩ := h1
    obtain ⟨rfl, rfl⟩ := readP_ok h2
    rw [hm]
    exact congrArg some h3

end
end Verif.Ctap

/-! ## The hypotheses hold: devices with and without PIN, full, and always verifying -/

namespace Verif.Ctap.Toy
open Verif.Ctap
set_option maxRecDepth 100000

/-- What a device says about itself. -/
def says (s : St) : Bytes := answer good getInfoInput s

theorem told (s : St) (h : (says s).head? = some 0 ∧ (says s).length < 1000) : Told (fun _ => True) s (says s) (step good getInfoInput s) :=
  ⟨_, good, trivial, step_answered (by
    cases h1 : answer good getInfoInput s with
    | nil => have := h.1; rw [says, h1] at this; cases this
    | cons _ _ => rw [show answer good (.ctap2 (.main [1, 2, 3, 4]) [4]) s = _ from h1]; rfl), h.1, by have := h.2; omega⟩

example : Info.clientPin (says booted) = some false ∧ Info.alwaysUv (says booted) = some false ∧
    Info.minPinLength (says booted) = some 4 ∧ Info.remaining (says booted) = some 3 ∧ Info.protocols (says booted) = [2, 1] ∧
    Info.versions (says booted) = [b! "U2F_V2", b! "FIDO_2_0", b! "FIDO_2_1"] ∧ Info.enterprise (says booted) = none := by
  decide +kernel

example : Info.clientPin (says pinned) = some true ∧ Info.forcePinChange (says pinned) = some false ∧
    Info.remaining (says full) = some 0 ∧ Info.alwaysUv (says alwaysUv) = some true ∧
    Info.versions (says alwaysUv) = [b! "FIDO_2_0", b! "FIDO_2_1"] := by
  decide +kernel

example : ∃ a t, stepM getInfoInput (full.withOracle good) = (.ok (.ctap2 a), t) ∧ a.head? = some 0 ∧ t.p = full.p :=
  C75_answered (reach_full (P := fun _ => True) trivial) good_calm _

/-- C75: a full device accepts only the replacement of an account. -/
example (a : McParams) (r : Response) (s' : St) (h : processParsed (.makeCredential a) ch ((step good getInfoInput full).withOracle good) = (.ok r, s'))
    (hk : a.options.rk = true) : ∃ c ∈ (step good getInfoInput full).stored, c.isFor a.rp.id a.user.id = true :=
  C75_full (reach_full (P := fun _ => True) trivial) configFits (told full (by decide +kernel)) 
    (reach_step good trivial _ (reach_full (P := fun _ => True) trivial) (by decide +kernel)) (sameSettings_of rfl) h hk (by decide +kernel)

example : accepted good (register rpA [1] true none) (step good getInfoInput full) = true := by decide +kernel

/-- C75: a PIN is set as announced. -/
example (a : PinParams) (r : Response) (s' : St) (h : processParsed (.clientPin a) ch ((step good getInfoInput booted).withOracle good) = (.ok r, s'))
    (hk : a.sub = .setPin) : ∃ pin, s'.p.pin = some pin ∧ GoodPin 4 pin := by
  obtain ⟨_, _, _, _, h1⟩ := C75_pin (reach_booted (P := fun _ => True) trivial) configFits (told booted (by decide +kernel)) 
    (reach_step good trivial _ (reach_booted (P := fun _ => True) trivial) (by decide +kernel)) (sameSettings_of rfl) h
  obtain ⟨n, pin, h2, h3, h4⟩ := h1 (.inl hk)
  have : Info.minPinLength (says booted) = some 4 := by decide +kernel
  rw [this] at h2
  cases h2
  exact ⟨pin, h3, h4⟩

example : accepted good (setPin (b! "1234")) (step good getInfoInput booted) = true ∧
    accepted good (setPin (b! "123")) (step good getInfoInput booted) = false := by decide +kernel

/-- C75: no U2F while verification is always required. -/
example (msg b : Bytes) (s' : St) : processU2f msg ((step good getInfoInput alwaysUv).withOracle good) ≠ (.ok (.ok b), s') := by
  intro h
  have hv := C75_verification (reach_alwaysUv (P := fun _ => True) trivial) configFits (told alwaysUv (by decide +kernel))
    (reach_step good trivial _ (reach_alwaysUv (P := fun _ => True) trivial) (by decide +kernel)) (sameSettings_of rfl) (ch := ch) (o := good)
  have h1 := hv.1.1 (hv.2.2.2 h)
  exact absurd h1 (by decide +kernel)

/-- C75: the device said that it has no PIN; the PIN 1234 can be set. -/
example : ∃ t, stepM (.ctap2 (.main [1, 2, 3, 4]) (body (setPin pin))) ((step good getInfoInput booted).withOracle good) =
    (.ok (.ctap2 [0x00]), t) ∧ t.PinIs pin :=
  C75_set_pin (a := setOf) (n := 4) (reach_booted (P := fun _ => True) trivial) configFits (told booted (by decide +kernel))
    (reach_step good trivial _ (reach_booted (P := fun _ => True) trivial) (by decide +kernel)) (sameSettings_of rfl)
    (by decide +kernel) (by decide +kernel) (by decide +kernel) good_calm (pinOf_parsed (by decide +kernel))
    ⟨rfl, platformKey, x, newPinEnc pin, rfl, agrees _, rfl, by decide +kernel, by decide +kernel⟩
    (by decide +kernel) (by decide +kernel) ⟨[49, 50, 51, 52], by decide +kernel, by decide +kernel⟩

/-- C75: the device said that there is room for three credentials, and that it asks for no PIN; a registration is answered. -/
example : ∃ m b t, stepM (.ctap2 (.main [1, 2, 3, 4]) (body (register rpB [2] true none))) ((step good getInfoInput booted).withOracle good) =
    (.ok (.ctap2 b), t) ∧ (Response.makeCredential m).SentAs b := by
  obtain ⟨a, ha⟩ : ∃ a, mcOf (register rpB [2] true none) = some a := Option.isSome_iff_exists.1 (by decide +kernel)
  have e : (mcOf (register rpB [2] true none)).map (fun a => (a.authParam, a.options.uv)) = some (none, false) := by decide +kernel
  have e' : (mcOf (register rpB [2] true none)).map (fun a => (a.enterprise, a.excludeList)) = some (none, none) := by decide +kernel
  have e'' : (mcOf (register rpB [2] true none)).map (fun a => a.credParams.any (fun p => p.publicKey && p.es256)) = some true := by
    decide +kernel
  rw [ha] at e e' e''
  simp only [Option.map_some, Option.some.injEq, Prod.mk.injEq] at e e' e''
  obtain ⟨p, hp, hq⟩ := List.any_eq_true.1 e''
  exact C75_register (a := a) (n := 3) (reach_booted (P := fun _ => True) trivial) configFits (told booted (by decide +kernel))
    (reach_step good trivial _ (reach_booted (P := fun _ => True) trivial) (by decide +kernel)) (sameSettings_of rfl)
    (by decide +kernel) (by decide) (by decide +kernel) (mcOf_parsed ha) (fun _ => by decide +kernel) good_calm good_confirms good_drawsKeys
    ⟨p, hp, by simpa using hq⟩ e.1 e.2 e'.1 (by rw [e'.2]; rfl) (fun h => absurd h (by decide))

end Verif.Ctap.Toy
