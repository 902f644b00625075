import Verif.Ctap.PolicyLemmas
import Verif.Ctap.PropsToken

/-!
# C15, C28, C29, C56: PIN policy, configuration, authentication of PIN protocol data
-/
namespace Verif.Ctap
set_option linter.unusedSectionVars false
set_option maxRecDepth 100000

section
variable [Dev] {P : Oracle → Prop} {b : Bool} {s s' : St}

/-! ## C15 -/

/-- **C15**, invariant: every stored PIN is the hash of a valid UTF-8 string with at least the default minimum number of
characters (at least 4) and at most 63 bytes. -/
theorem C15_stored_pin_good (h : Reach P b s) {pin : Bytes × Nat} (hp : s.p.pin = some pin) :
    GoodPin Dev.defaultMinPinLength pin := ((minInv_reach h).pin pin hp).1

/-- **C15**, one step: whatever is received, in every environment, the PIN stays as it is, or it is erased together with the
rest of the user data, or it becomes a string with at least the minimum number of characters in force at that moment; the
last one only if there was no PIN before or if the old PIN was entered correctly in this step. -/
theorem C15_pin_policy (h : Reach P true s) (o : Oracle) (i : Input) (hs : (stepM i (s.withOracle o)).2 = s') :
    s'.p.pin = s.p.pin ∨ (s'.p.pin = none ∧ HappenedSince s.log Ev.isErased s'.log) ∨
      ∃ pin, s'.p.pin = some pin ∧ GoodPin s.p.minPin pin ∧
        (s.p.pin = none ∨ HappenedSince s.log Ev.isCompareOk s'.log) := by
  subst hs
  exact (pinStep_step (Nat.lt_of_lt_of_le default_pos (minInv_reach h).min) i (s.withOracle o)
    ⟨rfl, rfl, List.suffix_refl _⟩ : PinStep s.p.pin s.p.minPin s.log _).pin

/-- **C15**, power-up: the PIN stays as it is. -/
theorem C15_boot (o : Oracle) (s : St) : (bootM (s.withOracle o)).2.p.pin = s.p.pin := by
  obtain ⟨e, _, _, ⟨_, h1⟩ | ⟨p1, p2, h1⟩⟩ := bootM_cases (s.withOracle o) <;> rw [h1] <;> rfl

/-! ## C28 -/

/-- **C28**, monotonicity: in every run, the minimum PIN length does not decrease unless all user data is erased. -/
theorem C28_min_length_monotone (hr : Run P s b s') :
    s.p.minPin ≤ s'.p.minPin ∨ HappenedSince s.log Ev.isErased s'.log := by
  have := run_inv (I := MinAtLeast s.p.minPin s.log) hr (.inr ⟨List.suffix_refl _, Nat.le_refl _⟩)
  rcases this with h | h
  · exact .inr h
  · exact .inl h.2

/-- **C28**, enforcement: a token is issued only if the PIN has at least the minimum length in force. -/
theorem C28_token_needs_long_pin {o : Oracle} {ch : Channel} {a : PinParams} {r : PinResponse} {ct : Bytes}
    (hr : Reach P true s) (h : processParsed (.clientPin a) ch (s.withOracle o) = (.ok (.clientPin (some r)), s'))
    (ht : r.token = some ct) :
    s.p.forcePinChange = false ∧ ∃ pin, s.p.pin = some pin ∧ GoodPin s.p.minPin pin := by
  obtain ⟨_, h⟩ := processParsed_ok h (by simp)
  simp only [fidoCommand, bind_ok, pure_ok] at h
  obtain ⟨r', s1, h1, h2, rfl⟩ := h
  cases h2
  obtain ⟨ka, phe, z, hash, len, e, k, t, perms, rp, _, _, _, hp, _, _, _, hf, _⟩ := (tokenGranted h1 ht).out
  have hp : s.p.pin = some (hash, len) := hp
  have hf : s.p.forcePinChange = false := hf
  refine ⟨hf, _, hp, ?_⟩
  obtain ⟨hg, hl⟩ := (minInv_reach hr).pin _ hp
  obtain ⟨b, c, g1, g2, g3, g4, g5⟩ := hg
  refine ⟨b, c, g1, g2, ?_, g4, g5⟩
  rw [hf] at hl
  have g6 : len = c.length := congrArg Prod.snd g5
  subst g6
  simpa using hl

/-- **C28**, effect: setting the minimum length has the requested effect, and requires a change of a shorter PIN. -/
theorem C28_set_min_length {o : Oracle} {ch : Channel} {a : ConfigParams} {m : MinPinParams} {n : Nat} {r : Response}
    (h : processParsed (.config a) ch (s.withOracle o) = (.ok r, s')) (ha : a.sub = .setMinPinLength)
    (hm : a.params = some m) (hn : m.newLength = some n) :
    s'.p.minPin = n ∧ s.p.minPin ≤ n ∧ ∀ pin, s.p.pin = some pin → pin.2 < n → s'.p.forcePinChange = true := by
  obtain ⟨_, h⟩ := processParsed_ok h (by simp)
  obtain ⟨e, _, h1, _⟩ := configCommand_ok h
  simp only [configDispatch, ha, bind_ok, req_ok] at h1
  obtain ⟨m', _, ⟨h2, rfl⟩, h3⟩ := h1
  rw [hm] at h2
  cases h2
  simp only [configSetMinPin, bind_ok, guardE_ok, whenM_ok, hn, Option.getD_some] at h3
  obtain ⟨st, s1, h4, _, _, ⟨h5, rfl⟩, _, s2, h6, old, s3, h7, _, s4, h8, _, s5, h9, h10⟩ := h3
  obtain ⟨rfl, rfl⟩ := minPinLength_ok h4
  obtain ⟨e6, _, _, rfl⟩ := envOnly h6
  obtain ⟨rfl, rfl⟩ := codePoints_ok h7
  have h5' : s.p.minPin ≤ n := by simpa using (of_decide_eq_true h5 : s.p.minPin ≤ n)
  have key : s5.p.minPinLength = some n ∧ (∀ pin, s.p.pin = some pin → pin.2 < n → s5.p.forcePinChange = true) := by
    have := writeP_ok h9
    rw [this]
    refine ⟨rfl, fun pin hp hl => ?_⟩
    rcases h8 with ⟨_, h8⟩ | ⟨hn8, _⟩
    · have := writeP_ok h8
      rw [this]
    · have hp' : (prelude (.config a) ch (s.withOracle o)).p.pin = some pin := hp
      simp [hp'] at hn8
      omega
  have hk : s'.p.minPinLength = s5.p.minPinLength ∧ s'.p.forcePinChange = s5.p.forcePinChange := by
    cases hrp : m.rpIds with
    | none => simp only [hrp, pure_ok] at h10; rw [h10.2]; exact ⟨rfl, rfl⟩
    | some l =>
      simp only [hrp, setMinPinLengthRpIds, bind_ok, guardE_ok] at h10
      obtain ⟨_, _, ⟨_, rfl⟩, h10⟩ := h10
      have := writeP_ok h10
      rw [this]
      exact ⟨rfl, rfl⟩
  refine ⟨?_, h5', ?_⟩
  · simp [Persist.minPin, hk.1, key.1]
  · rw [hk.2]; exact key.2

/-! ## C29 -/

/-- Writing the storage does not fail. -/
def NoWriteFail (o : Oracle) : Prop := ∀ k, o.wfail k = none

theorem writeP_no_err {f : Persist → Persist} {evs : List Ev} {s : St} (h : NoWriteFail s.env.o) (e : Status) :
    (writeP f evs s).1 ≠ .err e := by
  simp only [writeP]
  split
  · simp
  · simp [h s.env.k]

/-- An error of the last part of the command leaves the persistent data unchanged. -/
theorem setMinPin_err {a : MinPinParams} {s : St} (hw : NoWriteFail s.env.o)
    (hl : ∀ ids, a.rpIds = some ids → (ids ++ Dev.defaultMinPinRpIds).length ≤ Dev.maxRpIds) {e : Status}
    (h : (configSetMinPin a s).1 = .err e) : (configSetMinPin a s).2.p = s.p := by
  let I : St → Prop := fun t => t.p = s.p ∧ NoWriteFail t.env.o
  let W : St → Prop := fun t => NoWriteFail t.env.o
  have : SEnv I := ⟨fun _ _ _ h2 h => ⟨h.1, by simp [h2]; exact h.2⟩⟩
  have : SEnv W := ⟨fun _ _ _ h2 h => by simp [W, h2]; exact h⟩
  have hI : ∀ t, I t → True ∧ I t := fun _ h => ⟨trivial, h⟩
  have key : HT I (configSetMinPin a) (HT.Ok I (fun _ => True) fun _ _ => True) := by
    unfold configSetMinPin
    refine HT.bindOk (HT.ofPres' inferInstance hI) fun n => ?_
    refine HT.bindOk (HT.ofPres' inferInstance hI) fun _ => ?_
    refine HT.bindOk (HT.ofPres' inferInstance hI) fun _ => ?_
    refine HT.bindOk (HT.ofPres' inferInstance hI) fun old => ?_
    have wr : ∀ (f : Persist → Persist), HT W (writeP f) (HT.Ok I (fun _ => True) fun _ => W) := by
      intro f
      refine HT.noErr (presWriteP fun s h => h) (fun s e h => writeP_no_err h e) (fun _ _ => trivial) fun _ _ _ _ _ h => h
    refine HT.bindOk (Q := fun _ => W) ?_ fun _ => ?_
    · unfold whenM
      split
      · exact (wr _).conseq (fun _ h => h.2) fun _ _ h => h
      · exact fun s hs => hs.2
    refine HT.bindOk (Q := fun _ => W) (wr _) fun _ => ?_
    cases hrp : a.rpIds with
    | none => exact fun _ _ => trivial
    | some ids =>
      have hfold : ∀ (l acc : List Bytes), (l.foldl (fun acc x => if acc.contains x then acc else acc ++ [x]) acc).length ≤
          acc.length + l.length := by
        intro l
        induction l with
        | nil => simp
        | cons x l ih =>
          intro acc
          refine Nat.le_trans (ih _) ?_
          show (if acc.contains x = true then acc else acc ++ [x]).length + l.length ≤ _
          split <;> simp <;> omega
      unfold setMinPinLengthRpIds
      have hle := hl ids hrp
      simp only [List.length_append] at hle
      have hle2 := Nat.le_trans (hfold Dev.defaultMinPinRpIds ids) hle
      refine HT.bindOk (Q := fun _ => W) (fun t ht => ?_) fun _ => (wr _).conseq (fun _ h => h) ?_
      · simp only [guardE, hle2, decide_true, if_true]
        exact ht
      · intro r s h
        cases r <;> first | trivial | exact h
  have := key s ⟨rfl, hw⟩
  rw [h] at this
  exact this.2.1

/-- **C29**, partial: if setting the minimum PIN length is refused, nothing has changed in the persistent data, provided that
the relying parties fit and writing the storage does not fail.  Missing: too many relying parties, see
`C29_false`; failures of the storage between the three updates. -/
theorem C29_refused_no_change_partial {o : Oracle} {ch : Channel} {a : ConfigParams} {e : Status} (ho : NoWriteFail o)
    (ha : a.sub = .setMinPinLength)
    (hl : ∀ m ids, a.params = some m → m.rpIds = some ids → (ids ++ Dev.defaultMinPinRpIds).length ≤ Dev.maxRpIds)
    (h : processParsed (.config a) ch (s.withOracle o) = (.err e, s')) : s'.p = s.p := by
  rw [processParsed_eq] at h
  cases ch with
  | vendor c => simp [channelCommand, vendorChannelCommand, fail] at h; rw [← h.2]; rfl
  | main c =>
    simp only [channelCommand, fidoCommand] at h
    let I : St → Prop := fun t => t.p = s.p ∧ NoWriteFail t.env.o
    have : SEnv I := ⟨fun _ _ _ h2 h => ⟨h.1, by simp [h2]; exact h.2⟩⟩
    have hI : ∀ t, I t → True ∧ I t := fun _ h => ⟨trivial, h⟩
    have key : HT I (configCommand a) (HT.Ok I (fun _ => True) fun _ _ => True) := by
      unfold configCommand
      refine HT.bindOk (HT.ofPres' inferInstance hI) fun n => ?_
      refine HT.bindOk (HT.ofPres' inferInstance hI) fun h => ?_
      refine HT.bindOk (HT.ofPres' (by pres) hI) fun _ => ?_
      refine HT.bindOk (Q := fun _ _ => True) ?_ fun _ _ _ => trivial
      unfold configDispatch
      simp only [ha]
      cases hp : a.params with
      | none => exact fun t ht => ⟨trivial, ht⟩
      | some m =>
        intro t ht
        show HT.Ok I (fun _ => True) (fun _ _ => True) (configSetMinPin m t).1 (configSetMinPin m t).2
        have hk := fun e => setMinPin_err (a := m) (s := t) (e := e) ht.2 (fun ids => hl m ids hp)
        have ho := (inferInstance : Pres (KeepEnv t.env.now t.env.o) (configSetMinPin m)).out t ⟨Nat.le_refl _, rfl⟩
        rcases hc : configSetMinPin m t with ⟨r, t'⟩
        rw [hc] at hk ho
        cases r with
        | ok _ => trivial
        | err e => exact ⟨trivial, (hk e rfl).trans ht.1, by rw [ho.2]; exact ht.2⟩
        | panic => trivial
        | crash => trivial
    have := key (prelude (.config a) (.main c) (s.withOracle o)) ⟨rfl, ho⟩
    rw [h] at this
    exact this.2.1

/-! ## C56 -/

/-- The tag of a message under the secret shared with the platform key. -/
def TagOk (c : ClientPin) (pr : Proto) (ka : CoseKey) (msg tag : Bytes) : Prop :=
  ∃ z, Dev.ecdh (c.proto pr).sk ka.x ka.y = some z ∧ tag = PinSpec.tag pr (PinSpec.macKey pr z) msg

theorem secret_of_ok {pr : Proto} {ka : CoseKey} {ss : SharedSecret} {s1 : St} {msg tag : Bytes}
    (h1 : getSharedSecret pr ka s = (.ok ss, s1)) (h2 : ss.verify msg tag = .ok ()) : TagOk s.v.pin pr ka msg tag := by
  obtain ⟨h1, _⟩ := getSharedSecret_ok h1
  obtain ⟨z, hz, rfl⟩ := decapsulate_ok h1
  exact ⟨z, hz, verify_spec' h2⟩

/-- **C56**, setting a PIN: whatever the outcome, something in the persistent data changes only if the request carries the
right tag of the encrypted PIN. -/
theorem C56_set_pin {a : PinParams} (ha : a.sub = .setPin) (h : (clientPinCommand a s).2.p ≠ s.p) :
    ∃ ka enc tag, a.keyAgreement = some ka ∧ a.newPinEnc = some enc ∧ a.authParam = some tag ∧
      TagOk s.v.pin a.proto ka enc tag := by
  let I : St → Prop := fun t => t.p = s.p
  have : SEnv I := ⟨fun _ _ _ _ h => h⟩
  have keep : ∀ {α} {x : M α} [Pres I x] {t : St} (_ : I t), I (x t).2 := fun {_ x} [hp : Pres _ _] {t} ht => hp.out t ht
  by_cases hex : ∃ ka enc tag, a.keyAgreement = some ka ∧ a.newPinEnc = some enc ∧ a.authParam = some tag ∧
      TagOk s.v.pin a.proto ka enc tag
  · exact hex
  exfalso
  apply h
  show I _
  have main : ∀ t : St, I t → t.v = s.v → I (processSetPin a t).2 := by
    intro t ht hv
    unfold processSetPin
    refine bind_snd (keep ht) fun ka s1 h1 => ?_
    obtain ⟨hka, rfl⟩ := req_ok.1 h1
    refine bind_snd (keep ht) fun tag s1 h1 => ?_
    obtain ⟨htag, rfl⟩ := req_ok.1 h1
    refine bind_snd (keep ht) fun enc s1 h1 => ?_
    obtain ⟨henc, rfl⟩ := req_ok.1 h1
    refine bind_snd (keep ht) fun hh s1 h1 => ?_
    obtain ⟨rfl, rfl⟩ := pinHash_ok h1
    refine bind_snd (keep ht) fun _ s1 h1 => ?_
    obtain ⟨_, rfl⟩ := guardE_ok.1 h1
    refine bind_snd (keep ht) fun ss s1 h1 => ?_
    have hs1 : I s1 := by obtain ⟨_, rfl⟩ := getSharedSecret_ok h1; exact ht
    refine bind_snd (keep hs1) fun _ s2 h2 => ?_
    have h2 := (liftE_ok.1 h2).1
    have := secret_of_ok h1 h2
    rw [show ({ t with env := t.env.next } : St).v = s.v from hv] at this
    exact absurd ⟨ka, enc, tag, hka, henc, htag, this⟩ hex
  unfold clientPinCommand
  refine bind_snd (keep (t := s) rfl) fun _ s1 h1 => ?_
  obtain ⟨_, rfl⟩ := guardE_ok.1 h1
  rw [ha]
  have hm := main s rfl rfl
  exact bind_snd hm fun _ s2 h2 => by rw [h2] at hm; exact hm

/-- **C56**, changing a PIN: whatever the outcome, something in the persistent data (even the number of retries) or in the
history changes only if the request carries the right tag of the encrypted new PIN and the encrypted hash. -/
theorem C56_change_pin {a : PinParams} (ha : a.sub = .changePin)
    (h : (clientPinCommand a s).2.p ≠ s.p ∨ (clientPinCommand a s).2.log ≠ s.log) :
    ∃ ka enc phe tag, a.keyAgreement = some ka ∧ a.newPinEnc = some enc ∧ a.pinHashEnc = some phe ∧
      a.authParam = some tag ∧ TagOk s.v.pin a.proto ka (enc ++ phe) tag := by
  let I : St → Prop := fun t => t.p = s.p ∧ t.log = s.log
  have : SEnv I := ⟨fun _ _ _ _ h => h⟩
  have keep : ∀ {α} {x : M α} [Pres I x] {t : St} (_ : I t), I (x t).2 := fun {_ x} [hp : Pres _ _] {t} ht => hp.out t ht
  by_cases hex : ∃ ka enc phe tag, a.keyAgreement = some ka ∧ a.newPinEnc = some enc ∧ a.pinHashEnc = some phe ∧
      a.authParam = some tag ∧ TagOk s.v.pin a.proto ka (enc ++ phe) tag
  · exact hex
  exfalso
  suffices hI : I (clientPinCommand a s).2 by
    rcases h with h | h
    · exact h hI.1
    · exact h hI.2
  have main : ∀ t : St, I t → t.v = s.v → I (processChangePin a t).2 := by
    intro t ht hv
    unfold processChangePin
    refine bind_snd (keep ht) fun ka s1 h1 => ?_
    obtain ⟨hka, rfl⟩ := req_ok.1 h1
    refine bind_snd (keep ht) fun tag s1 h1 => ?_
    obtain ⟨htag, rfl⟩ := req_ok.1 h1
    refine bind_snd (keep ht) fun enc s1 h1 => ?_
    obtain ⟨henc, rfl⟩ := req_ok.1 h1
    refine bind_snd (keep ht) fun phe s1 h1 => ?_
    obtain ⟨hphe, rfl⟩ := req_ok.1 h1
    refine bind_snd (keep ht) fun hh s1 h1 => ?_
    obtain ⟨rfl, rfl⟩ := pinRetries_ok h1
    refine bind_snd (keep ht) fun _ s1 h1 => ?_
    obtain ⟨_, rfl⟩ := guardE_ok.1 h1
    refine bind_snd (keep ht) fun ss s1 h1 => ?_
    have hs1 : I s1 := by obtain ⟨_, rfl⟩ := getSharedSecret_ok h1; exact ht
    refine bind_snd (keep hs1) fun _ s2 h2 => ?_
    have h2 := (liftE_ok.1 h2).1
    have := secret_of_ok h1 h2
    rw [show ({ t with env := t.env.next } : St).v = s.v from hv] at this
    exact absurd ⟨ka, enc, phe, tag, hka, henc, hphe, htag, this⟩ hex
  unfold clientPinCommand
  refine bind_snd (keep (t := s) ⟨rfl, rfl⟩) fun _ s1 h1 => ?_
  obtain ⟨_, rfl⟩ := guardE_ok.1 h1
  rw [ha]
  have hm := main s ⟨rfl, rfl⟩ rfl
  exact bind_snd hm fun _ s2 h2 => by rw [h2] at hm; exact hm

theorem hmac_tag {c : Cred} {i : AssertionInput} {n : Option Nat} {r : GaResponse} {s1 : St} {h : HmacSecretInput}
    (hr : assertionResponse c i n s = (.ok r, s1)) (hi : i.ext.hmacSecret = some h) :
    TagOk s.v.pin h.proto h.keyAgreement h.saltEnc h.saltAuth := by
  simp only [assertionResponse, bind_ok] at hr
  obtain ⟨ext, s2, h1, _⟩ := hr
  rw [gaExtOutput, if_pos (by simp [hi])] at h1
  simp only [bind_ok] at h1
  obtain ⟨o, s3, h2, _⟩ := h1
  simp only [gaHmacSecret, hi, bind_ok] at h2
  obtain ⟨cr, s4, h3, o', s5, h4, _⟩ := h2
  simp only [processHmacSecret, bind_ok, liftE_ok] at h4
  obtain ⟨ss, s6, h5, _, _, ⟨h6, _⟩, _⟩ := h4
  have hv : s4.v = s.v := by
    obtain ⟨e, x, _, _, rfl⟩ := envMaster (m := generateCredRandom c.sk i.hasUv) h3 (by
      intro I _ _; unfold generateCredRandom; pres)
    rfl
  have := secret_of_ok h5 h6
  rw [hv] at this
  exact this

theorem gaRemember_pin {inp : AssertionInput} {keys : List Nat} {ch : Channel} {n : Option Nat} {s s' : St}
    (h : gaRemember inp keys ch s = (.ok n, s')) : s'.v.pin = s.v.pin := keepPin h

/-- **C56**, hmac-secret: an assertion with the extension is returned only if the request carries the right tag of the
encrypted salts. -/
theorem C56_hmac_secret {o : Oracle} {a : GaParams} {ch : Channel} {r : Response} {i : HmacSecretInput}
    (h : processParsed (.getAssertion a) ch (s.withOracle o) = (.ok r, s')) (hi : a.ext.hmacSecret = some i) :
    TagOk s.v.pin i.proto i.keyAgreement i.saltEnc i.saltAuth := by
  obtain ⟨_, h⟩ := processParsed_ok h (by simp)
  obtain ⟨s1, s2, s3, s4, s5, s6, c, rest, ad, number, ga, h1, h2, h3, h4, h5, h6, h7, rfl, _⟩ := getAssertion_ok h
  have := hmac_tag h7 hi
  obtain ⟨z, hz, ht⟩ := this
  refine ⟨z, ?_, ht⟩
  have k6 := keepPin h6
  have k5 := keepPin h5
  have k4 := keepPin h4
  -- the keys do not change before
  have keys : ∀ {α} {m : M α} {t t' : St} {x : α} (_ : m t = (.ok x, t')), (∀ q1 q2, Pres (fun u : St => u.v.pin.p1 = q1 ∧ u.v.pin.p2 = q2) m) →
      (t'.v.pin.proto i.proto).sk = (t.v.pin.proto i.proto).sk := by
    intro α m t t' x hm hp
    have := (hp t.v.pin.p1 t.v.pin.p2).out t ⟨rfl, rfl⟩
    rw [hm] at this
    cases i.proto
    · exact congrArg PinProtocol.sk this.1
    · exact congrArg PinProtocol.sk this.2
  have e1 := keys h1 fun q1 q2 => by
    have : SEnv (fun u : St => u.v.pin.p1 = q1 ∧ u.v.pin.p2 = q2) := ⟨fun _ _ _ _ h => h⟩
    have : STok (fun u : St => u.v.pin.p1 = q1 ∧ u.v.pin.p2 = q2) := ⟨fun _ _ h => h⟩
    infer_instance
  have k2 := keepPin h2
  have e3 := keys h3 fun q1 q2 => by
    have : SEnv (fun u : St => u.v.pin.p1 = q1 ∧ u.v.pin.p2 = q2) := ⟨fun _ _ _ _ h => h⟩
    have : STok (fun u : St => u.v.pin.p1 = q1 ∧ u.v.pin.p2 = q2) := ⟨fun _ _ h => h⟩
    have : SPresence (fun u : St => u.v.pin.p1 = q1 ∧ u.v.pin.p2 = q2) := ⟨fun _ _ h => h⟩
    have : SConsumed (fun u : St => u.v.pin.p1 = q1 ∧ u.v.pin.p2 = q2) := ⟨fun _ h => h⟩
    infer_instance
  rw [k6, k5, k4, e3, k2, e1] at hz
  exact hz

/-- **C56**, hmac-secret in a further assertion: the salts were sent with the first request, and their tag is checked again,
under the key agreement key at this time. -/
theorem C56_hmac_secret_next {o : Oracle} {ch : Channel} {r : Response} {inp : AssertionInput} {keys : List Nat}
    {i : HmacSecretInput} (h : processParsed .getNextAssertion ch (s.withOracle o) = (.ok r, s'))
    (hc : s.v.sp.cmd = some (.getAssertion inp keys)) (hi : inp.ext.hmacSecret = some i) :
    TagOk s.v.pin i.proto i.keyAgreement i.saltEnc i.saltAuth := by
  obtain ⟨_, h⟩ := processParsed_ok h (by simp)
  simp only [fidoCommand, getNextAssertion, bind_ok, pure_ok] at h
  obtain ⟨⟨inp', k⟩, s1, h1, c, s2, h2, ga, s3, h3, _, _⟩ := h
  simp only [nextAssertionCredential, bind_ok] at h1
  obtain ⟨c', s4, h4, h5⟩ := h1
  obtain ⟨h6, h7⟩ := getCommand_ok h4
  have hcmd : ∀ c, c' = some c → c = .getAssertion inp keys := by
    intro c hcc
    rw [h6] at hcc
    have ho : ∀ sp : StatefulPerm, sp.cmd = none ∨ sp.cmd = s.v.sp.cmd → ∀ n, (sp.clearTimer n).cmd = none ∨
        (sp.clearTimer n).cmd = s.v.sp.cmd := by
      intro sp hsp n
      unfold StatefulPerm.clearTimer
      split
      · exact .inl rfl
      · exact hsp
    have : (prelude .getNextAssertion ch (s.withOracle o)).v.sp.cmd = none ∨
        (prelude .getNextAssertion ch (s.withOracle o)).v.sp.cmd = s.v.sp.cmd := by
      have h8 : (s.v.sp.clearOldChannels ch).cmd = none ∨ (s.v.sp.clearOldChannels ch).cmd = s.v.sp.cmd := by
        unfold StatefulPerm.clearOldChannels
        split
        · split
          · exact .inl rfl
          · exact .inr rfl
        · exact .inr rfl
      have h9 := ho _ h8 s.env.now
      simp only [prelude, St.withOracle]
      by_cases hk : keepsStateful .getNextAssertion ((s.v.sp.clearOldChannels ch).clearTimer s.env.now).cmd = true
      · simp only [hk, if_true]; exact h9
      · simp only [hk, Bool.false_eq_true, if_false]; exact .inl rfl
    rcases ho _ this (prelude .getNextAssertion ch (s.withOracle o)).env.now with h | h
    · rw [h] at hcc; cases hcc
    · rw [h, hc] at hcc; cases hcc; rfl
  cases hcc : c' with
  | none => simp [hcc, fail_ok] at h5
  | some c'' =>
    have := hcmd _ hcc
    subst this
    simp only [hcc, bind_ok, req_ok, modSp, modV_ok, pure_ok] at h5
    obtain ⟨k', _, ⟨hk, rfl⟩, _, _, rfl, h8, rfl⟩ := h5
    cases h8
    have k2 := keepPin h2
    have := hmac_tag h3 hi
    rw [k2] at this
    rw [h7] at this
    exact this

/-- No event with `q` happened after `l`. -/
def Unmarked (l : List Ev) (q : Ev → Bool) (s : St) : Prop := ∃ pre, s.log = pre ++ l ∧ ∀ e ∈ pre, q e = false

def Ev.isWrongGuess : Ev → Bool
  | .pinCompare false => true
  | _ => false

section
variable (l : List Ev)
theorem Unmarked.cons {l : List Ev} {q : Ev → Bool} {s : St} (h : Unmarked l q s) {e : Ev} (he : q e = false) :
    Unmarked l q { s with log := e :: s.log } := by
  obtain ⟨pre, h1, h2⟩ := h
  refine ⟨e :: pre, by simp [h1], fun x hx => ?_⟩
  rcases List.mem_cons.1 hx with rfl | hx
  · exact he
  · exact h2 x hx

instance : SEnv (Unmarked l Ev.isWrongGuess) := ⟨fun _ _ _ _ h => h⟩
stable_instances (Unmarked l Ev.isWrongGuess) under STok SMis SKeys SPin SRetries SForce
instance : SIssued (Unmarked l Ev.isWrongGuess) := ⟨fun _ _ _ _ h => h.cons rfl⟩
end

/-- The key agreement key is new: random bytes drawn after `k0`. -/
def FreshKey (s0 : St) (pr : Proto) (s : St) : Prop :=
  ∃ k, s0.env.k ≤ k ∧ (s.v.pin.proto pr).sk = PinSpec.random s0.env k 32

instance (s0 : St) (pr : Proto) : SEnv (FreshKey s0 pr) := ⟨fun _ _ _ _ h => h⟩
instance (s0 : St) (pr : Proto) : SMis (FreshKey s0 pr) := ⟨fun _ _ h => by cases pr <;> exact h⟩

/-- Before the comparison. -/
def NotYet (s0 : St) (s : St) : Prop := s.log = s0.log ∧ s0.env.k ≤ s.env.k ∧ s.env.o = s0.env.o

instance (s0 : St) : Pres (NotYet s0) readP := ⟨fun s h => by
  rw [readP, effect_snd]; exact ⟨h.1, Nat.le_succ_of_le h.2.1, h.2.2⟩⟩

theorem notYet_write {s0 : St} (f : Persist → Persist) : Pres (NotYet s0) (writeP f) := ⟨fun s h => by
  rcases writeP_snd f [] s with h1 | h1 <;> rw [h1] <;> exact ⟨h.1, Nat.le_succ_of_le h.2.1, h.2.2⟩⟩

theorem NotYet.unmarked {s0 s : St} (h : NotYet s0 s) : Unmarked s0.log Ev.isWrongGuess s := ⟨[], h.1, by simp⟩

theorem verify_key {s0 : St} {pr : Proto} {ss : SharedSecret} {phe : Bytes} :
    HT (NotYet s0) (verifyPinHashEnc pr ss phe)
      (HT.Ok (fun s => Unmarked s0.log Ev.isWrongGuess s ∨ FreshKey s0 pr s) (fun _ => True)
        fun _ => Unmarked s0.log Ev.isWrongGuess) := by
  have hI : ∀ t, NotYet s0 t → True ∧ (Unmarked s0.log Ev.isWrongGuess t ∨ FreshKey s0 pr t) :=
    fun _ h => ⟨trivial, .inl h.unmarked⟩
  unfold verifyPinHashEnc
  refine HT.bindOk (HT.ofPres' (P := NotYet s0) (by unfold pinHash; pres) hI) fun h => ?_
  cases h with
  | none => exact fun t ht => hI t ht
  | some hash =>
    refine HT.bindOk (HT.ofPres' (P := NotYet s0) inferInstance hI) fun v => ?_
    refine HT.bindOk (HT.ofPres' (P := NotYet s0) inferInstance hI) fun _ => ?_
    refine HT.bindOk (HT.ofPres' (P := NotYet s0) (by
      have := @notYet_write _ s0; unfold decrPinRetries pinRetries; pres) hI) fun _ => ?_
    cases hd : ss.decrypt phe with
    | error e => exact fun t ht => hI t ht
    | ok dec =>
      show HT (NotYet s0) (comparePin hash dec >>= _) _
      refine HT.bindOk (Q := fun b s => (b = true ∧ Unmarked s0.log Ev.isWrongGuess s) ∨
          (b = false ∧ s0.env.k ≤ s.env.k ∧ s.env.o = s0.env.o)) ?_ fun b => ?_
      · intro t ht
        show (_ ∨ _ : Prop)
        cases hb : (hash == dec)
        · exact .inr ⟨rfl, ht.2⟩
        · refine .inl ⟨rfl, ?_⟩
          show Unmarked _ _ { t with log := .pinCompare (hash == dec) :: t.log }
          rw [hb]
          exact ht.unmarked.cons rfl
      cases b with
      | true =>
        simp only [if_true]
        refine HT.conseq (P' := Unmarked s0.log Ev.isWrongGuess) (HT.ofPres' (J := fun _ => True) (I := fun s =>
          Unmarked s0.log Ev.isWrongGuess s ∨ FreshKey s0 pr s) (by pres) fun _ h => ⟨trivial, .inl h⟩) ?_ fun _ _ h => h
        rintro s (⟨_, h⟩ | ⟨h, _⟩)
        · exact h
        · cases h
      | false =>
        simp only [Bool.false_eq_true, if_false]
        have hF : ∀ t, FreshKey s0 pr t → True ∧ (Unmarked s0.log Ev.isWrongGuess t ∨ FreshKey s0 pr t) :=
          fun _ h => ⟨trivial, .inr h⟩
        refine HT.bindOk (Q := fun _ => FreshKey s0 pr) ?_ fun _ => ?_
        · rintro s (⟨h, _⟩ | ⟨_, hk, ho⟩)
          · cases h
          · rcases hr : regenerate pr s with ⟨r, s'⟩
            cases r with
            | ok u =>
              rw [regenerate_ok hr]
              refine ⟨s.env.k, hk, ?_⟩
              rw [PinSpec.random, ← ho]
              cases pr <;> rfl
            | err e =>
              exfalso
              simp only [regenerate, bind_def, M.bind, rng, effect] at hr
              cases hcut : s.env.o.cut s.env.k <;> simp [hcut, modPin, modV] at hr
            | panic => trivial
            | crash => trivial
        refine HT.bindOk (HT.ofPres' inferInstance hF) fun r => ?_
        refine HT.bindOk (HT.ofPres' inferInstance hF) fun _ => ?_
        refine HT.bindOk (HT.ofPres' (Pres.mis _) hF) fun _ => ?_
        refine HT.bindOk (HT.ofPres' inferInstance hF) fun v => ?_
        refine HT.bindOk (HT.ofPres' inferInstance hF) fun _ => ?_
        exact fun t ht => hF t ht

theorem getPinToken_key {s0 : St} {a : PinParams} :
    HT (NotYet s0) (processGetPinToken a)
      (HT.Ok (fun s => Unmarked s0.log Ev.isWrongGuess s ∨ FreshKey s0 a.proto s) (fun _ => True)
        fun _ => Unmarked s0.log Ev.isWrongGuess) := by
  have hI : ∀ t, NotYet s0 t → True ∧ (Unmarked s0.log Ev.isWrongGuess t ∨ FreshKey s0 a.proto t) :=
    fun _ h => ⟨trivial, .inl h.unmarked⟩
  unfold processGetPinToken
  refine HT.bindOk (HT.ofPres' (P := NotYet s0) inferInstance hI) fun ka => ?_
  refine HT.bindOk (HT.ofPres' (P := NotYet s0) inferInstance hI) fun phe => ?_
  refine HT.bindOk (HT.ofPres' (P := NotYet s0) inferInstance hI) fun _ => ?_
  refine HT.bindOk (HT.ofPres' (P := NotYet s0) (by unfold pinRetries; pres) hI) fun r => ?_
  refine HT.bindOk (HT.ofPres' (P := NotYet s0) inferInstance hI) fun _ => ?_
  refine HT.bindOk (HT.ofPres' (P := NotYet s0) (by unfold getSharedSecret; pres) hI) fun ss => ?_
  refine HT.bindOk verify_key fun _ => ?_
  exact HT.ofPres' (by pres) fun _ h => ⟨trivial, .inl h⟩

/-- **C56**, wrong PIN: if a guess failed during a command for the PIN and the device is still running, the key agreement key of
this protocol has been replaced by 32 new random bytes. -/
theorem C56_wrong_pin_new_key {a : PinParams} (h : HappenedSince s.log Ev.isWrongGuess (clientPinCommand a s).2.log)
    (ha : (clientPinCommand a s).1.alive = true) :
    ∃ k, s.env.k ≤ k ∧ ((clientPinCommand a s).2.v.pin.proto a.proto).sk = PinSpec.random s.env k 32 := by
  have hI : ∀ t, NotYet s t → True ∧ (Unmarked s.log Ev.isWrongGuess t ∨ FreshKey s a.proto t) :=
    fun _ h => ⟨trivial, .inl h.unmarked⟩
  have key : HT (NotYet s) (clientPinCommand a)
      (HT.Ok (fun t => Unmarked s.log Ev.isWrongGuess t ∨ FreshKey s a.proto t) (fun _ => True)
        fun _ => Unmarked s.log Ev.isWrongGuess) := by
    unfold clientPinCommand
    refine HT.bindOk (HT.ofPres' (P := NotYet s) inferInstance hI) fun _ => ?_
    refine HT.conseq (P' := NotYet s) ?_ (fun _ h => h) fun _ _ h => h
    have other : ∀ {β} {m : M β}, Pres (Unmarked s.log Ev.isWrongGuess) m → HT (NotYet s) m
        (HT.Ok (fun t => Unmarked s.log Ev.isWrongGuess t ∨ FreshKey s a.proto t) (fun _ => True)
        fun _ => Unmarked s.log Ev.isWrongGuess) := fun hp =>
      HT.conseq (HT.ofPres' hp fun _ h => ⟨trivial, .inl h⟩) (fun _ h => h.unmarked) fun _ _ h => h
    have after : ∀ {β} {m : M β}, Pres (Unmarked s.log Ev.isWrongGuess) m → HT (Unmarked s.log Ev.isWrongGuess) m
        (HT.Ok (fun t => Unmarked s.log Ev.isWrongGuess t ∨ FreshKey s a.proto t) (fun _ => True)
        fun _ => Unmarked s.log Ev.isWrongGuess) := fun hp => HT.ofPres' hp fun _ h => ⟨trivial, .inl h⟩
    cases a.sub with
    | getPinRetries => exact other (by pres)
    | getKeyAgreement => exact other (by pres)
    | setPin => exact other (by pres)
    | changePin =>
      refine HT.bindOk (Q := fun _ => Unmarked s.log Ev.isWrongGuess) ?_ fun _ => after (by pres)
      unfold processChangePin
      refine HT.bindOk (HT.ofPres' (P := NotYet s) inferInstance hI) fun ka => ?_
      refine HT.bindOk (HT.ofPres' (P := NotYet s) inferInstance hI) fun param => ?_
      refine HT.bindOk (HT.ofPres' (P := NotYet s) inferInstance hI) fun enc => ?_
      refine HT.bindOk (HT.ofPres' (P := NotYet s) inferInstance hI) fun phe => ?_
      refine HT.bindOk (HT.ofPres' (P := NotYet s) (by unfold pinRetries; pres) hI) fun r => ?_
      refine HT.bindOk (HT.ofPres' (P := NotYet s) inferInstance hI) fun _ => ?_
      refine HT.bindOk (HT.ofPres' (P := NotYet s) (by unfold getSharedSecret; pres) hI) fun ss => ?_
      refine HT.bindOk (HT.ofPres' (P := NotYet s) inferInstance hI) fun _ => ?_
      refine HT.bindOk verify_key fun _ => ?_
      exact after (by pres)
    | getPinToken =>
      exact HT.bindOk getPinToken_key fun _ => after (by pres)
    | getUvTokenUsingUv => exact other (by pres)
    | getUvRetries => exact other (by pres)
    | getPinTokenWithPermissions =>
      refine HT.bindOk (Q := fun _ => Unmarked s.log Ev.isWrongGuess) ?_ fun _ => after (by pres)
      unfold processGetPinTokenWithPermissions
      refine HT.bindOk (HT.ofPres' (P := NotYet s) inferInstance hI) fun ka => ?_
      refine HT.bindOk (HT.ofPres' (P := NotYet s) inferInstance hI) fun _ => ?_
      refine HT.bindOk (HT.ofPres' (P := NotYet s) inferInstance hI) fun _ => ?_
      refine HT.bindOk (getPinToken_key (a := { a with permissions := none, permissionsRpId := none })) fun _ => ?_
      exact after (by pres)
  have := key s ⟨rfl, Nat.le_refl _, rfl⟩
  have no : ∀ {t : St}, HappenedSince s.log Ev.isWrongGuess t.log → ¬ Unmarked s.log Ev.isWrongGuess t := by
    rintro t ⟨n, h1, e, h2, h3⟩ ⟨p, h4, h5⟩
    have : n = p := List.append_cancel_right (h1.symm.trans h4)
    subst this
    rw [h5 e h2] at h3
    cases h3
  rcases hc : clientPinCommand a s with ⟨r, s'⟩
  rw [hc] at this h ha
  cases r with
  | ok _ => exact absurd this (no h)
  | err e => exact this.2.resolve_left (no h)
  | panic => cases ha
  | crash => cases ha

end

namespace Toy

/-- A request to set the minimum PIN length, with a token. -/
def setMinPin (s : St) (n : Nat) (ids : Option (List Bytes)) : Command :=
  let m : MinPinParams := { newLength := some n, rpIds := ids, forceChange := none }
  let a : ConfigParams := { sub := .setMinPinLength, params := some m, authParam := none, authProto := some .v1 }
  .config { a with authParam := (configMessage a).map (tokenMac s) }

/-- A device with a PIN and a token with the permission to configure. -/
def admin : St := step good (getTokenPerm pin 0x20 none) withPin

theorem reach_admin {P : Oracle → Prop} (h : P good) : Reach P true admin :=
  reach_step good h _ (reach_withPin h) (by decide +kernel)

def runCmd (c : Command) (s : St) : Res Response × St := processParsed c ch (s.withOracle good)

/-- C15: the PIN 1234 is stored with the length 4; changing it to 123 is refused, changing it to 12345 works. -/
example : withPin.p.pin = some ((Dev.sha256 pin).take 16, 4) ∧
    (step good (changePin pin (b! "123")) withPin).p.pin = withPin.p.pin ∧
    bytes good (changePin pin (b! "123")) withPin = some [0x37] ∧
    (step good (changePin pin (b! "12345")) withPin).p.pin = some ((Dev.sha256 (b! "12345")).take 16, 5) := by decide +kernel

example : GoodPin 4 ((Dev.sha256 pin).take 16, 4) :=
  C15_stored_pin_good (reach_withPin (P := fun _ => True) trivial) (by decide +kernel)

example := C15_pin_policy (reach_withPin (P := fun _ => True) trivial) good (changePin pin (b! "12345")) rfl

/-- C28: the minimum length is raised to 6, so that the PIN must be changed, and no token is issued for it. -/
example : (runCmd (setMinPin admin 6 none) admin).1 = .ok .config ∧ (runCmd (setMinPin admin 6 none) admin).2.p.minPin = 6 ∧
    (runCmd (setMinPin admin 6 none) admin).2.p.forcePinChange = true ∧
    (runCmd (setMinPin admin 3 none) admin).1 = .err .pinPolicyViolation ∧
    bytes good (getToken pin) (runCmd (setMinPin admin 6 none) admin).2 = some [0x31] := by decide +kernel

example : (withPin.p.minPin ≤ admin.p.minPin) ∨ HappenedSince withPin.log Ev.isErased admin.log :=
  C28_min_length_monotone (P := fun _ => True) (Run.step good trivial _ Run.refl)

example : (match (runCmd (parse (getToken pin)) withPin).1 with
    | .ok (.clientPin (some r)) => r.token.isSome
    | _ => false) = true := by decide +kernel

/-- Nine relying parties. -/
def nine : List Bytes := (List.range 9).map fun n => [UInt8.ofNat (0x61 + n)]

/-- **C29 is false as stated**: this request is refused with KEY_STORE_FULL because of too many relying parties, but the
minimum PIN length has been raised and the PIN must be changed (`config_command.rs:62-71`). -/
theorem C29_false : ∃ s, Reach NoWriteFail true s ∧ ∃ c s', processParsed c ch (s.withOracle good) = (.err .keyStoreFull, s') ∧
    s'.p.minPin ≠ s.p.minPin ∧ s'.p.forcePinChange ≠ s.p.forcePinChange := by
  refine ⟨admin, reach_admin (fun _ => rfl), setMinPin admin 6 (some nine), _, Prod.ext (by decide +kernel) rfl, ?_, ?_⟩ <;>
    decide +kernel

/-- C29: a refused request that satisfies the hypotheses of the partial theorem. -/
example : (runCmd (setMinPin admin 3 (some [[0x61]])) admin).1 = .err .pinPolicyViolation ∧
    (runCmd (setMinPin admin 3 (some [[0x61]])) admin).2.p = admin.p := by decide +kernel

/-- C56: with a wrong tag, nothing is changed, with the right tag the PIN is set. -/
example : (step good (setPin pin) (boot good factory)).p.pin ≠ none ∧
    (step good (send 0x06 (map [(.unsigned 1, .unsigned 1), (.unsigned 2, .unsigned 3), (.unsigned 3, cose),
      (.unsigned 4, .bytes (mac [])), (.unsigned 5, .bytes (newPinEnc pin))])) (boot good factory)).p.pin = none := by
  decide +kernel

/-- C56: a wrong PIN changes the key agreement key, the right one does not. -/
example : (step good (getToken wrong) withPin).v.pin.p1.sk ≠ withPin.v.pin.p1.sk ∧
    (step good (getToken pin) withPin).v.pin.p1.sk = withPin.v.pin.p1.sk := by decide +kernel

/-- C56: an assertion with hmac-secret. -/
def hmacInput : HmacSecretInput :=
  { keyAgreement := { x := x, y := x, alg := -25, kty := 2, crv := 1 }, saltEnc := enc (List.replicate 32 3),
    saltAuth := mac (enc (List.replicate 32 3)), proto := .v1 }

def hmacAssert (i : HmacSecretInput) : Command :=
  match parse (assert rpA none none) with
  | .getAssertion a => .getAssertion { a with ext := { a.ext with hmacSecret := some i } }
  | c => c

def withCred : St := step good (register rpA [1] true none) (boot good factory)

example : (match (runCmd (hmacAssert hmacInput) withCred).1 with | .ok (.getAssertion _) => true | _ => false) = true ∧
    (runCmd (hmacAssert { hmacInput with saltAuth := mac [] }) withCred).1 = .err .pinAuthInvalid := by decide +kernel

end Toy
end Verif.Ctap
