import Verif.Cbor.Fit
import Verif.Ctap.PropsRegLive

/-!
# Lemmas for C75: what the device stores and sends are texts and numbers that fit
-/
namespace Verif.Ctap
set_option linter.unusedSectionVars false
open Verif.Cbor (Value)
variable [Dev] {P : Oracle → Prop} {s s' : St} {ch : Channel}

/-- The texts of a credential are texts. -/
structure Cred.IsText (c : Cred) : Prop where
  rp : Verif.Utf8.valid c.rpId = true
  name : ∀ t, c.userName = some t → Verif.Utf8.valid t = true
  displayName : ∀ t, c.userDisplayName = some t → Verif.Utf8.valid t = true
  icon : ∀ t, c.userIcon = some t → Verif.Utf8.valid t = true

/-- The texts of a request are texts, and its numbers fit. -/
def Command.IsText : Command → Prop
  | .makeCredential a => Verif.Utf8.valid a.rp.id = true ∧ a.user.IsText
  | .credMgmt a => ∀ sp u, a.params = some sp → sp.user = some u → u.IsText
  | .config a => ∀ m n, a.params = some m → m.newLength = some n → n < 256
  | _ => True

theorem user_text {w : Nat} {v : Value} {u : UserEntity} (hv : v.WF w) (h : UserEntity.ofCbor v = .ok u) : u.IsText := by
  simp only [UserEntity.ofCbor, ebind_ok] at h
  obtain ⟨g, hg, id, _, name, hn, dn, hd, ic, hi, he⟩ := h
  cases he
  rintro t (ht | ht | ht) <;> simp only at ht <;> subst ht
  · exact optText_valid (fun x hx => fields_wf hv hg hx) hn
  · exact optText_valid (fun x hx => fields_wf hv hg hx) hd
  · exact optText_valid (fun x hx => fields_wf hv hg hx) hi

theorem optE_some {α : Type} {f : Value → Except Status α} {o : Option Value} {a : α} (h : optE f o = .ok (some a)) :
    ∃ v, o = some v ∧ f v = .ok a := by
  cases o with
  | none => cases h
  | some v =>
    refine ⟨v, rfl, ?_⟩
    simp only [optE] at h
    cases hf : f v with
    | ok b => rw [hf] at h; cases h; rfl
    | error e => rw [hf] at h; cases h

theorem okOrMissing_some {o : Option Value} {v : Value} (h : okOrMissing o = .ok v) : o = some v := by
  cases o with
  | none => cases h
  | some w => cases h; rfl

theorem rp_text {w : Nat} {v : Value} {r : RpEntity} (hv : v.WF w) (h : RpEntity.ofCbor v = .ok r) : Verif.Utf8.valid r.id = true := by
  simp only [RpEntity.ofCbor, ebind_ok] at h
  obtain ⟨g, hg, id, ⟨x, hx, hid⟩, name, hn, ic, hi, he⟩ := h
  cases he
  have hx := fields_wf hv hg (okOrMissing_some hx)
  cases x with
  | text b => cases hid; exact (Verif.Utf8.valid_iff _).2 hx.2
  | _ => cases hid

theorem deserialize_mc {msg : Bytes} {a : McParams} (h : Command.deserialize msg = .ok (.makeCredential a)) :
    ∃ v : Value, v.WF Dev.wordBits ∧ McParams.ofCbor v = .ok a := by
  cases msg with
  | nil => cases h
  | cons c rest =>
    unfold Command.deserialize at h
    repeat' split at h
    all_goals try (simp only [ebind_ok] at h)
    all_goals first | (cases h; done) | skip
    all_goals obtain ⟨v, hv, a', ha, he⟩ := h
    all_goals first | (cases he; done) | skip
    cases he
    exact ⟨v, cborRead_wf hv, ha⟩

theorem deserialize_cm {msg : Bytes} {a : CmParams} (h : Command.deserialize msg = .ok (.credMgmt a)) :
    ∃ v : Value, v.WF Dev.wordBits ∧ CmParams.ofCbor v = .ok a := by
  cases msg with
  | nil => cases h
  | cons c rest =>
    unfold Command.deserialize at h
    repeat' split at h
    all_goals try (simp only [ebind_ok] at h)
    all_goals first | (cases h; done) | skip
    all_goals obtain ⟨v, hv, a', ha, he⟩ := h
    all_goals first | (cases he; done) | skip
    cases he
    exact ⟨v, cborRead_wf hv, ha⟩

theorem deserialize_config {msg : Bytes} {a : ConfigParams} (h : Command.deserialize msg = .ok (.config a)) :
    ∃ v : Value, v.WF Dev.wordBits ∧ ConfigParams.ofCbor v = .ok a := by
  cases msg with
  | nil => cases h
  | cons c rest =>
    unfold Command.deserialize at h
    repeat' split at h
    all_goals try (simp only [ebind_ok] at h)
    all_goals first | (cases h; done) | skip
    all_goals obtain ⟨v, hv, a', ha, he⟩ := h
    all_goals first | (cases he; done) | skip
    cases he
    exact ⟨v, cborRead_wf hv, ha⟩

theorem minPin_byte {v : Value} {a : ConfigParams} (h : ConfigParams.ofCbor v = .ok a) {m : MinPinParams} {n : Nat}
    (h1 : a.params = some m) (h2 : m.newLength = some n) : n < 256 := by
  simp only [ConfigParams.ofCbor, ebind_ok] at h
  obtain ⟨f, hf, sub, _, h⟩ := h
  cases sub with
  | setMinPinLength =>
    simp only [ebind_ok] at h
    obtain ⟨p, ⟨x, hx, hp⟩, ps, he, pr, _, pa, _, h⟩ := h
    cases he
    cases h
    cases h1
    simp only [MinPinParams.ofCbor, ebind_ok] at hp
    obtain ⟨g, hg, n', hn, hp⟩ := hp
    by_cases hlt : n'.getD 0 ≥ 256
    · simp [hlt] at hp
    · simp only [hlt, if_false, ebind_ok] at hp
      obtain ⟨_, _, _, _, he⟩ := hp
      cases he
      simp only at h2
      subst h2
      simpa using hlt
  | _ =>
    simp only [ebind_ok] at h
    obtain ⟨ps, he, pr, _, pa, _, h⟩ := h
    cases he
    cases h
    cases h1

/-- Whatever is parsed has texts for texts. -/
theorem deserialize_text {msg : Bytes} {cmd : Command} (h : Command.deserialize msg = .ok cmd) : cmd.IsText := by
  cases cmd with
  | makeCredential a =>
    refine ⟨?_, names_text h⟩
    obtain ⟨v, hw, ha⟩ := deserialize_mc h
    simp only [McParams.ofCbor, ebind_ok] at ha
    obtain ⟨f, hf, cdh, _, rp, ⟨r, hr, hrp⟩, user, _, ps, _, ex, _, ext, _, op, _, pa, _, pr, _, ep, _, he⟩ := ha
    cases he
    exact rp_text (fields_wf hw hf (okOrMissing_some hr)) hrp
  | credMgmt a =>
    obtain ⟨v, hw, ha⟩ := deserialize_cm h
    simp only [CmParams.ofCbor, ebind_ok] at ha
    obtain ⟨f, hf, sub, _, ps, hps, pr, _, pa, _, he⟩ := ha
    cases he
    intro sp u h1 h2
    simp only at h1
    subst h1
    obtain ⟨x, hx, hsp⟩ := optE_some hps
    have hx := fields_wf hw hf hx
    simp only [CmSubParams.ofCbor, ebind_ok] at hsp
    obtain ⟨g, hg, _, _, _, _, u', hu, he⟩ := hsp
    cases he
    simp only at h2
    subst h2
    obtain ⟨y, hy, hu⟩ := optE_some hu
    exact user_text (fields_wf hx hg hy) hu
  | config a =>
    obtain ⟨v, _, ha⟩ := deserialize_config h
    exact fun m n => minPin_byte ha
  | _ => trivial

/-! ## The stored data -/

/-- The stored texts are texts, and the minimum PIN length fits a byte. -/
def DataOk (s : St) : Prop := (∀ e ∈ s.p.creds, e.2.IsText) ∧ s.p.minPin < 256

section
instance : SEnv DataOk := ⟨fun _ _ _ _ h => ⟨h.1, h.2⟩⟩
instance (P : Oracle → Prop) : SOra P DataOk := ⟨fun _ _ _ h => ⟨h.1, h.2⟩⟩
stable_instances DataOk under SMaster SRpIds SForce SEp SAlwaysUv SLargeBlob SPin SRetries STok SMis SKeys SU2f
  SSp SLb SPresence SCompare SIssued SConsumed SU2fPrompt SU2fConsume SU2fTouch SCounterEv SBoot SCounter
instance : SErase DataOk := ⟨fun _ h => ⟨fun e he => h.1 e (List.mem_filter.1 he).1, by
  have := Dev.defaultMinPinLength_le
  simp [Persist.clear, NUM_PERSISTENT_KEYS, Persist.minPin]; omega⟩⟩
theorem valid_truncate {t : Bytes} (n : Nat) (h : Verif.Utf8.valid t = true) : Verif.Utf8.valid (truncateToCharBoundary t n) = true :=
  (C55_truncate n h).text

theorem newCred_text {a : McParams} (h : (Command.makeCredential a).IsText) (id sk : Bytes) (order : Nat) (l : Option Bytes) :
    (mcCred a id sk order l).IsText := by
  obtain ⟨h1, h2⟩ := h
  refine ⟨h1, ?_, ?_, ?_⟩ <;> intro t ht <;> simp only [mcCred, Option.map_eq_some_iff] at ht <;> obtain ⟨x, hx, rfl⟩ := ht
  · exact valid_truncate 64 (h2 _ (.inl hx))
  · exact valid_truncate 64 (h2 _ (.inr (.inl hx)))
  · exact valid_truncate 64 (h2 _ (.inr (.inr hx)))

theorem dataPut {c : Cred} (hc : c.IsText) (k : Nat) : Pres DataOk (writeP fun p => p.putCred k c) :=
  presWriteP fun _ h => ⟨allPut h.1 hc, h.2⟩

theorem dataStore {c : Cred} (hc : c.IsText) : Pres DataOk (storeCredential c) := by
  have := dataPut hc
  unfold storeCredential; pres

instance (id : Bytes) : Pres DataOk (deleteCredential id) := by
  have (k : Nat) : Pres DataOk (writeP fun p => p.delCred k) :=
    presWriteP fun _ h => ⟨fun e he => h.1 e (List.mem_filter.1 he).1, h.2⟩
  unfold deleteCredential; pres

theorem data_mc {a : McParams} (h : (Command.makeCredential a).IsText) : Pres DataOk (makeCredential a) := by
  have h1 (id sk : Bytes) (order : Nat) (l : Option Bytes) := dataStore (newCred_text h id sk order l)
  have h2 (sk : Bytes) (l : Option Bytes) : Pres DataOk (mcCreate a sk l) := by unfold mcCreate; pres
  have h3 (b : Bool) : Pres DataOk (mcFinish a b) := by unfold mcFinish; pres
  unfold makeCredential; pres

theorem data_update {u : UserEntity} (h : u.IsText) (id : Bytes) : Pres DataOk (updateCredential id u.name u.displayName u.icon) := by
  unfold updateCredential
  refine Pres.bind' inferInstance fun s x s1 hs hx hs1 => ?_
  obtain ⟨hf, _, _, _, _, _, he⟩ := findItem_ok hx
  have hx : x.2.IsText := hs.1 x (findItem_mem hf).1
  have := dataPut (c := { x.2 with userName := u.name, userDisplayName := u.displayName, userIcon := u.icon })
    ⟨hx.rp, fun t ht => h t (.inl ht), fun t ht => h t (.inr (.inl ht)), fun t ht => h t (.inr (.inr ht))⟩
  exact (by pres : Pres DataOk _).out s1 hs1

theorem data_cm {a : CmParams} (h : (Command.credMgmt a).IsText) (ch : Channel) : Pres DataOk (credentialManagement a ch) := by
  have h1 (sp : CmSubParams) : Pres DataOk (cmDelete sp) := by unfold cmDelete; pres
  have h2 (sp : CmSubParams) (hsp : a.params = some sp) : Pres DataOk (cmUpdate sp) := by
    unfold cmUpdate
    refine Pres.bind' inferInstance fun s d s1 hs hd hs1 => ?_
    refine (Pres.bind' inferInstance fun s u s1 hs hu hs1 => ?_ : Pres DataOk _).out s1 hs1
    have := data_update (h sp u hsp (req_ok.1 hu).1) d.id
    exact (by pres : Pres DataOk _).out s1 hs1
  have h3 : Pres DataOk (cmDispatch a ch) := by
    unfold cmDispatch
    cases hs : a.sub <;> simp only
    case update =>
      refine Pres.bind' inferInstance fun s sp s1 hs hsp hs1 => ?_
      have := h2 sp (req_ok.1 hsp).1
      exact (by pres : Pres DataOk _).out s1 hs1
    all_goals pres
  unfold credentialManagement; pres

theorem data_config {a : ConfigParams} (h : (Command.config a).IsText) : Pres DataOk (configCommand a) := by
  have h1 (n : Nat) (hn : n < 256) : Pres DataOk (setMinPinLength n) := presWriteP fun _ h => ⟨h.1, hn⟩
  have h2 (m : MinPinParams) (hm : a.params = some m) : Pres DataOk (configSetMinPin m) := by
    unfold configSetMinPin
    refine Pres.bind' inferInstance fun s n s1 hs hn hs1 => ?_
    have hn : n < 256 := by
      simp only [minPinLength, bind_ok, pure_ok] at hn
      obtain ⟨p, s2, hp, rfl, _⟩ := hn
      rw [(readP_ok hp).1]
      exact hs.2
    have : m.newLength.getD n < 256 := by
      cases hl : m.newLength with
      | none => exact hn
      | some k => exact h m k hm hl
    have := h1 _ this
    exact (by pres : Pres DataOk _).out s1 hs1
  have h3 : Pres DataOk (configDispatch a) := by
    unfold configDispatch
    cases hs : a.sub <;> simp only
    case setMinPinLength =>
      refine Pres.bind' inferInstance fun s sp s1 hs hsp hs1 => ?_
      exact (h2 sp (req_ok.1 hsp).1).out s1 hs1
    all_goals pres
  unfold configCommand; pres

theorem data_command {cmd : Command} {ch : Channel} (hc : cmd.IsText) (h : DataOk s) : DataOk (channelCommand ch cmd s).2 := by
  cases ch with
  | vendor c => cases cmd <;> unfold channelCommand vendorChannelCommand <;> exact Pres.out (I := DataOk) (self := by pres) _ h
  | main c =>
    cases cmd with
    | credMgmt a => exact (data_cm hc _).out _ h
    | makeCredential a => exact (data_mc hc).out _ h
    | reset => exact Pres.out (I := DataOk) (m := resetCommand) _ h
    | getAssertion a => exact Pres.out (I := DataOk) (m := getAssertion a _) _ h
    | getNextAssertion => exact Pres.out (I := DataOk) (m := getNextAssertion) _ h
    | getInfo => exact Pres.out (I := DataOk) (m := getInfo) _ h
    | clientPin a => exact Pres.out (I := DataOk) (m := do let r ← clientPinCommand a; M.pure (Response.clientPin r)) _ h
    | selection => exact Pres.out (I := DataOk) (m := selection) _ h
    | largeBlobs a => exact Pres.out (I := DataOk) (m := largeBlobsCommand a) _ h
    | config a => exact (data_config hc).out _ h

theorem data_step (i : Input) (h : DataOk s) : DataOk (stepM i s).2 := by
  by_cases hx : ∃ ch msg cmd, i = .ctap2 ch msg ∧ Command.deserialize msg = .ok cmd
  · obtain ⟨ch, msg, cmd, rfl, hd⟩ := hx
    exact stepM_msg hd (by rw [processParsed_eq]; exact data_command (deserialize_text hd) h)
  · exact stepM_idle (fun ch msg cmd h1 h2 => hx ⟨ch, msg, cmd, h1, h2⟩) h

theorem data_reach {b : Bool} (h : Reach P b s) : DataOk s := by
  induction h with
  | factory env att =>
    refine ⟨fun e he => (nomatch he), ?_⟩
    have := Dev.defaultMinPinLength_le
    show Dev.defaultMinPinLength < 256
    omega
  | boot o ho h ih => exact Pres.out (I := DataOk) (m := bootM) _ ih
  | step o ho i h ih => exact data_step i (s := St.withOracle _ o) ih

end

/-! ## Values that fit -/

/-- All values fit. -/
def OptFit (o : Option Value) : Prop := ∀ x, o = some x → x.Fit

theorem fit_text {b : Bytes} (h : Verif.Utf8.valid b = true) : (Value.text b).Fit := by
  simp only [Value.Fit]
  exact (Verif.Utf8.valid_iff _).1 h
theorem fit_num {n : Nat} (h : n < 2 ^ 64) : (Value.unsigned n).Fit := by simpa only [Value.Fit] using h
theorem fit_bytes (b : Bytes) : (Value.bytes b).Fit := by simp only [Value.Fit]
theorem fit_bool (b : Bool) : (cborBool b).Fit := by cases b <;> simp only [cborBool, Value.Fit]

theorem optFit_none : OptFit none := fun _ h => nomatch h
theorem optFit_some {v : Value} (h : v.Fit) : OptFit (some v) := fun _ e => by cases e; exact h
theorem optFit_map {α : Type} {o : Option α} {f : α → Value} (h : ∀ a, o = some a → (f a).Fit) : OptFit (o.map f) := by
  intro x hx
  obtain ⟨a, ha, rfl⟩ := Option.map_eq_some_iff.1 hx
  exact h a ha
theorem optFit_nums {o : Option Nat} (h : ∀ n, o = some n → n < 2 ^ 64) : OptFit (o.map .unsigned) := optFit_map fun n hn => fit_num (h n hn)
theorem optFit_bytes {o : Option Bytes} : OptFit (o.map .bytes) := optFit_map fun _ _ => fit_bytes _
theorem optFit_texts {o : Option Bytes} (h : ∀ n, o = some n → Verif.Utf8.valid n = true) : OptFit (o.map .text) :=
  optFit_map fun n hn => fit_text (h n hn)
theorem optFit_bools {o : Option Bool} : OptFit (o.map cborBool) := optFit_map fun _ _ => fit_bool _

/-- Keys that can be written. -/
def KeyOk (k : Value) : Prop := k.WF 64 ∧ k.Fit

theorem key_num {n : Nat} (h : n < 2 ^ 64) : KeyOk (.unsigned n) := by
  refine ⟨?_, fit_num h⟩
  simp only [Value.WF]; exact h
theorem key_neg {i : Int} (h : -2 ^ 63 ≤ i ∧ i < 0) : KeyOk (.negative i) := by
  refine ⟨?_, ?_⟩
  · simp only [Value.WF]; exact h
  · simp only [Value.Fit]; exact h
theorem key_text {b : Bytes} (h : Verif.Utf8.valid b = true) (hl : b.length < 2 ^ 64) : KeyOk (.text b) := by
  refine ⟨?_, fit_text h⟩
  simp only [Value.WF]
  exact ⟨hl, (Verif.Utf8.valid_iff _).1 h⟩

theorem mapOptions_fit {es : List (Value × Option Value)} {v : Value} (hv : cborMapOptions es = some v)
    (hk : ∀ e ∈ es, KeyOk e.1 ∧ OptFit e.2) : v.Fit := by
  have h : ∀ e ∈ (es.filterMap fun e => e.2.map fun v => (e.1, v)), KeyOk e.1 ∧ e.2.Fit := by
    intro e he
    obtain ⟨x, hx, hy⟩ := List.mem_filterMap.1 he
    obtain ⟨a, ha, rfl⟩ := Option.map_eq_some_iff.1 hy
    exact ⟨(hk x hx).1, (hk x hx).2 a ha⟩
  exact (Verif.Cbor.mkMap_fit hv (fun e he => (h e he).1.1) (fun e he => (h e he).2) fun e he => (h e he).1.2).1

theorem optP_fit {α : Type} {f : α → Option Value} {o : Option α} {r : Option Value} (h : ∀ a v, o = some a → f a = some v → v.Fit)
    (hr : optP f o = some r) : OptFit r := by
  cases o with
  | none => simp only [optP, Option.some.injEq] at hr; subst hr; exact optFit_none
  | some a =>
    cases hf : f a with
    | none => simp [optP, hf] at hr
    | some v =>
      simp only [optP, hf, Option.map_some, Option.some.injEq] at hr
      subst hr
      exact optFit_some (h a v rfl hf)

/-- Entries of a map. -/
macro "fits" : tactic => `(tactic| (
  repeat' (first | refine List.forall_mem_cons.2 ⟨?_, ?_⟩ | exact fun _ h => nomatch h)
  all_goals (refine ⟨by first
    | exact key_num (by decide)
    | exact key_neg (by decide)
    | exact key_text (by decide +kernel) (by decide), ?_⟩)
  all_goals (first
    | assumption
    | exact optFit_none
    | exact optFit_bytes
    | exact optFit_bools
    | exact optFit_some (fit_bytes _)
    | exact optFit_some (fit_bool _)
    | exact optFit_some (fit_text (by decide +kernel))
    | exact optFit_some (fit_num (by decide))
    | skip)))

/-- The texts of a relying party entity. -/
def RpEntity.IsText (r : RpEntity) : Prop :=
  Verif.Utf8.valid r.id = true ∧ (∀ t, r.name = some t → Verif.Utf8.valid t = true) ∧ ∀ t, r.icon = some t → Verif.Utf8.valid t = true

theorem RpEntity.fit {r : RpEntity} (hr : r.IsText) {v : Value} (h : r.toCbor = some v) : v.Fit := by
  obtain ⟨h1, h2, h3⟩ := hr
  refine mapOptions_fit h ?_
  fits
  · exact optFit_some (fit_text h1)
  · exact optFit_texts h3
  · exact optFit_texts h2

theorem UserEntity.fit {u : UserEntity} (hu : u.IsText) {v : Value} (h : u.toCbor = some v) : v.Fit := by
  refine mapOptions_fit h ?_
  fits
  · exact optFit_texts fun t ht => hu t (.inr (.inr ht))
  · exact optFit_texts fun t ht => hu t (.inl ht)
  · exact optFit_texts fun t ht => hu t (.inr (.inl ht))

theorem fit_int {i : Int} (h : -2 ^ 63 ≤ i) (h2 : i < 2 ^ 64) : (cborInt i).Fit := by
  unfold cborInt
  split
  · simp only [Value.Fit]; omega
  · simp only [Value.Fit]; omega

/-- The numbers of a key. -/
def CoseKey.Small (k : CoseKey) : Prop := (-2 ^ 63 ≤ k.kty ∧ k.kty < 2 ^ 64) ∧ (-2 ^ 63 ≤ k.alg ∧ k.alg < 2 ^ 64) ∧ -2 ^ 63 ≤ k.crv ∧ k.crv < 2 ^ 64

theorem CoseKey.fit {k : CoseKey} (hk : k.Small) {v : Value} (h : k.toCbor = some v) : v.Fit := by
  obtain ⟨h1, h2, h3⟩ := hk
  refine mapOptions_fit h ?_
  fits
  · exact optFit_some (fit_int h1.1 h1.2)
  · exact optFit_some (fit_int h2.1 h2.2)
  · exact optFit_some (fit_int h3.1 h3.2)

theorem Descriptor.fit (d : Descriptor) {v : Value} (h : d.toCbor = some v) : v.Fit := by
  refine mapOptions_fit h ?_
  fits
  · exact optFit_some (by unfold credTypeToCbor; split <;> exact fit_text (by decide +kernel))
  · refine optFit_map fun l _ => ?_
    simp only [Value.Fit]
    refine Verif.Cbor.FitList_iff.2 fun e he => ?_
    obtain ⟨t, _, rfl⟩ := List.mem_map.1 he
    exact fit_text (by cases t <;> decide +kernel)

theorem GaResponse.fit {r : GaResponse} (hu : ∀ u, r.user = some u → u.IsText) (hn : ∀ n, r.number = some n → n < 2 ^ 64)
    {v : Value} (h : r.toCbor = some v) : v.Fit := by
  obtain ⟨d, hd⟩ := Descriptor.toCbor_some r.credential
  obtain ⟨u, hu'⟩ := optP_some UserEntity.toCbor_some r.user
  simp only [GaResponse.toCbor, hd, hu', Option.bind_eq_bind, Option.bind_some] at h
  have h1 : OptFit (some d) := optFit_some (r.credential.fit hd)
  have h2 : OptFit u := optP_fit (fun a v ha hv => UserEntity.fit (hu a ha) hv) hu'
  have h3 := optFit_nums hn
  exact mapOptions_fit h (by fits)

theorem McResponse.fit {r : McResponse} {v : Value} (h : r.toCbor = some v) : v.Fit := by
  obtain ⟨d, hd⟩ := attStmtCbor_some r.sig r.x5c
  simp only [McResponse.toCbor, hd, Option.bind_eq_bind, Option.bind_some] at h
  have h1 : OptFit (some d) := by
    refine optFit_some (mapOptions_fit hd ?_)
    fits
    · exact optFit_some (fit_int (by decide) (by decide))
    · exact optFit_map fun c _ => by simp only [Value.Fit, Value.FitList]; trivial
  exact mapOptions_fit h (by fits)

theorem PinResponse.fit {r : PinResponse} (hk : ∀ k, r.keyAgreement = some k → k.Small) (hn : ∀ n, r.retries = some n → n < 2 ^ 64)
    {v : Value} (h : r.toCbor = some v) : v.Fit := by
  obtain ⟨d, hd⟩ := optP_some CoseKey.toCbor_some r.keyAgreement
  simp only [PinResponse.toCbor, hd, Option.bind_eq_bind, Option.bind_some] at h
  have h1 : OptFit d := optP_fit (fun a v ha hv => CoseKey.fit (hk a ha) hv) hd
  have h3 := optFit_nums hn
  exact mapOptions_fit h (by fits)

/-- The texts and numbers of an answer of credential management. -/
structure CmResponse.Small (r : CmResponse) : Prop where
  rp : ∀ e, r.rp = some e → e.IsText
  user : ∀ u, r.user = some u → u.IsText
  key : ∀ k, r.publicKey = some k → k.Small
  existing : ∀ n, r.existing = some n → n < 2 ^ 64
  remaining : ∀ n, r.remaining = some n → n < 2 ^ 64
  rps : ∀ n, r.totalRps = some n → n < 2 ^ 64
  creds : ∀ n, r.totalCredentials = some n → n < 2 ^ 64

theorem CmResponse.fit {r : CmResponse} (hr : r.Small) {v : Value} (h : r.toCbor = some v) : v.Fit := by
  obtain ⟨a, ha⟩ := optP_some RpEntity.toCbor_some r.rp
  obtain ⟨d, hd⟩ := optP_some Descriptor.toCbor_some r.credentialId
  obtain ⟨u, hu⟩ := optP_some UserEntity.toCbor_some r.user
  obtain ⟨k, hk⟩ := optP_some CoseKey.toCbor_some r.publicKey
  simp only [CmResponse.toCbor, ha, hd, hu, hk, Option.bind_eq_bind, Option.bind_some] at h
  have h1 : OptFit a := optP_fit (fun a v h1 hv => RpEntity.fit (hr.rp a h1) hv) ha
  have h2 : OptFit d := optP_fit (fun a v _ hv => a.fit hv) hd
  have h3 : OptFit u := optP_fit (fun a v h1 hv => UserEntity.fit (hr.user a h1) hv) hu
  have h4 : OptFit k := optP_fit (fun a v h1 hv => CoseKey.fit (hr.key a h1) hv) hk
  have h5 := optFit_nums hr.existing
  have h6 := optFit_nums hr.remaining
  have h7 := optFit_nums hr.rps
  have h8 := optFit_nums hr.creds
  have h9 : OptFit (r.credProtect.map Policy.toCbor) := optFit_map fun p _ => by
    cases p <;> exact fit_num (by decide)
  exact mapOptions_fit h (by fits)

/-- The numbers of the customization have at most 64 bits, as they have the types `usize` and `u64` in the code
(`customization.rs:27-276`, `env/mod.rs:80-82`). -/
structure ConfigFits : Prop where
  countInList : ∀ n, Dev.maxCredCountInList = some n → n < 2 ^ 64
  largeBlob : Dev.maxLargeBlob < 2 ^ 64
  rpIds : Dev.maxRpIds < 2 ^ 64
  firmware : ∀ n, Dev.firmwareVersion = some n → n < 2 ^ 64

theorem InfoResponse.fit {r : InfoResponse} (hc : ConfigFits) (h1 : r.minPinLength < 2 ^ 64) (h2 : r.remaining < 2 ^ 64)
    {v : Value} (h : r.toCbor = some v) : v.Fit := by
  simp only [InfoResponse.toCbor, Option.bind_eq_bind, Option.bind_eq_some_iff] at h
  obtain ⟨o, ho, a, ha, h⟩ := h
  have k1 : o.Fit := by
    have hkey : ∀ e ∈ (r.options.map fun e => (Value.text e.1, cborBool e.2)), KeyOk e.1 ∧ e.2.Fit := by
      intro e he
      obtain ⟨x, hx, rfl⟩ := List.mem_map.1 he
      refine ⟨?_, fit_bool _⟩
      have : ∀ k ∈ [b! "ep", b! "rk", b! "up", b! "alwaysUv", b! "credMgmt", b! "authnrCfg", b! "clientPin", b! "largeBlobs",
          b! "pinUvAuthToken", b! "setMinPINLength", b! "makeCredUvNotRqd"], Verif.Utf8.valid k = true ∧ k.length < 2 ^ 64 := by
        decide +kernel
      have hm : x.1 ∈ [b! "ep", b! "rk", b! "up", b! "alwaysUv", b! "credMgmt", b! "authnrCfg", b! "clientPin", b! "largeBlobs",
          b! "pinUvAuthToken", b! "setMinPINLength", b! "makeCredUvNotRqd"] := by
        unfold InfoResponse.options at hx
        rcases List.mem_append.1 hx with h | h
        · cases he : r.ep with
          | none => rw [he] at h; cases h
          | some e =>
            rw [he] at h
            simp only [List.mem_cons, List.not_mem_nil, or_false] at h
            subst h; exact List.mem_cons_self ..
        · simp only [List.mem_cons, List.not_mem_nil, or_false] at h
          rcases h with h|h|h|h|h|h|h|h|h|h <;> subst h <;> simp
      exact key_text (this _ hm).1 (this _ hm).2
    exact (Verif.Cbor.mkMap_fit ho (fun e he => (hkey e he).1.1) (fun e he => (hkey e he).2) fun e he => (hkey e he).1.2).1
  have k2 : a.Fit := by
    refine mapOptions_fit ha ?_
    fits
    exact optFit_some (fit_int (by decide) (by decide))
  have g1 : OptFit (some o) := optFit_some k1
  have g2 : OptFit (some (.array [a])) := optFit_some (by simp only [Value.Fit, Value.FitList]; exact ⟨k2, trivial⟩)
  have g3 : OptFit (some (.array (r.versions.map .text))) := by
    refine optFit_some ?_
    simp only [Value.Fit]
    refine Verif.Cbor.FitList_iff.2 fun e he => ?_
    obtain ⟨t, ht, rfl⟩ := List.mem_map.1 he
    refine fit_text ?_
    unfold InfoResponse.versions at ht
    have : ∀ k ∈ [b! "U2F_V2", b! "FIDO_2_0", b! "FIDO_2_1"], Verif.Utf8.valid k = true := by decide +kernel
    refine this t ?_
    split at ht
    · exact List.mem_cons_of_mem _ ht
    · exact ht
  have g4 : OptFit (some (.array (.unsigned 2 :: if Dev.allowsPinV1 then [.unsigned 1] else []))) := by
    refine optFit_some ?_
    simp only [Value.Fit]
    split
    · simp only [Value.FitList, Value.Fit]; decide
    · simp only [Value.FitList, Value.Fit]; decide
  have g5 : OptFit (some (.array [.text (b! "usb")])) := by
    refine optFit_some ?_
    simp only [Value.Fit]
    exact Verif.Cbor.FitList_iff.2 (List.forall_mem_cons.2 ⟨fit_text (by decide +kernel), fun _ h => nomatch h⟩)
  have g6 : OptFit (some (.array [.text (b! "hmac-secret"), .text (b! "credProtect"), .text (b! "minPinLength"),
        .text (b! "credBlob"), .text (b! "largeBlobKey")])) := by
    refine optFit_some ?_
    simp only [Value.Fit]
    refine Verif.Cbor.FitList_iff.2 ?_
    repeat' (first | refine List.forall_mem_cons.2 ⟨?_, ?_⟩ | exact fun _ h => nomatch h)
    all_goals exact fit_text (by decide +kernel)
  have g7 := optFit_nums hc.countInList
  have g8 := optFit_nums hc.firmware
  have g9 : OptFit (some (.unsigned Dev.maxLargeBlob)) := optFit_some (fit_num hc.largeBlob)
  have g10 : OptFit (some (.unsigned Dev.maxRpIds)) := optFit_some (fit_num hc.rpIds)
  have g11 : OptFit (some (.unsigned r.minPinLength)) := optFit_some (fit_num h1)
  have g12 : OptFit (some (.unsigned r.remaining)) := optFit_some (fit_num h2)
  have g13 : OptFit (some (.unsigned Dev.maxMsgSize)) := optFit_some (fit_num (by have := Dev.maxMsgSize_le; omega))
  have g14 : OptFit (some (.unsigned Dev.maxCredBlobLength)) := optFit_some (fit_num (by have := Dev.maxCredBlobLength_le; omega))
  exact mapOptions_fit h (by fits)

end Verif.Ctap
