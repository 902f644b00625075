import Verif.Ctap.Keep
import Verif.Ctap.PinLemmas

/-!
# What a successful authorisation of a command means
-/
namespace Verif.Ctap
set_option linter.unusedSectionVars false
variable [Dev]

theorem pres_of_ok {I : St → Prop} {m : M α} [hp : Pres I m] {s s' : St} {r : Res α} (h : m s = (r, s')) (hs : I s) :
    I s' := by have := hp.out s hs; rwa [h] at this

/-- The token of the client PIN data `c` authenticates `msg`, and has the permission. -/
structure Authorised (perm : UInt8) (pr : Proto) (msg param : Bytes) (c : ClientPin) : Prop where
  inUse : c.tok.inUse = true
  mac : param = PinSpec.tag pr (c.proto pr).token msg
  perm : perm &&& c.tok.permissions ≠ 0

theorem verifyToken_ok {msg param : Bytes} {pr : Proto} {u : Unit} {s s' : St}
    (h : verifyToken msg param pr s = (.ok u, s')) :
    s' = s ∧ s.v.pin.tok.inUse = true ∧ param = PinSpec.tag pr (s.v.pin.proto pr).token msg := by
  simp only [verifyToken, bind_ok, getV_ok, guardE_ok, liftE_ok] at h
  obtain ⟨v, _, ⟨rfl, rfl⟩, _, _, ⟨h1, rfl⟩, h2, rfl⟩ := h
  exact ⟨rfl, h1, verify_spec h2⟩

theorem hasPermission_ok {perm : UInt8} {u : Unit} {s s' : St} (h : hasPermission perm s = (.ok u, s')) :
    s' = s ∧ perm &&& s.v.pin.tok.permissions ≠ 0 := by
  simp only [hasPermission, bind_ok, getV_ok, guardE_ok, TokenState.hasPermission] at h
  obtain ⟨v, _, ⟨rfl, rfl⟩, h1, rfl⟩ := h
  exact ⟨rfl, by simpa using h1⟩

/-- The state with the token bound to a relying party. -/
def St.bindRp (s : St) (rp : Bytes) : St :=
  { s with v := { s.v with pin := { s.v.pin with tok := { s.v.pin.tok with rpId := some rp } } } }

theorem ensureRp_ok {rp : Bytes} {u : Unit} {s s' : St} (h : ensureRpIdPermission rp s = (.ok u, s')) :
    (s.v.pin.tok.rpId = none ∨ s.v.pin.tok.rpId = some rp) ∧ s' = s.bindRp rp := by
  simp only [ensureRpIdPermission, bind_ok, getV_ok] at h
  obtain ⟨v, _, ⟨rfl, rfl⟩, h1⟩ := h
  split at h1
  · rename_i hn
    simp only [modTok, modPin, modV_ok] at h1
    exact ⟨.inl (by simpa using hn), h1⟩
  · rw [guardE_ok] at h1
    obtain ⟨h1, h2⟩ := h1
    have h1 := eq_of_beq h1
    refine ⟨.inr h1, ?_⟩
    rw [← h2]
    simp only [St.bindRp, ← h1]

/-- What `checkTokenFor` establishes. -/
theorem checkTokenFor_ok {perm : UInt8} {rp cdh param : Bytes} {proto : Option Proto} {u : Unit} {s s' : St}
    (h : checkTokenFor perm rp cdh param proto s = (.ok u, s')) :
    ∃ pr e, proto = some pr ∧ Authorised perm pr cdh param s.v.pin ∧ s.p.pin.isSome ∧
      s.v.pin.tok.userVerified = true ∧ (s.v.pin.tok.rpId = none ∨ s.v.pin.tok.rpId = some rp) ∧ s.env.Le e ∧
      s' = { s.bindRp rp with env := e } := by
  simp only [checkTokenFor, bind_ok, guardE_ok, req_ok] at h
  obtain ⟨hh, s1, h1, _, _, ⟨h2, rfl⟩, pr, _, ⟨h3, rfl⟩, _, s2, h4, _, s3, h5, _, s4, h6, h7⟩ := h
  obtain ⟨rfl, rfl⟩ := pinHash_ok h1
  obtain ⟨rfl, ha, hb⟩ := verifyToken_ok h4
  obtain ⟨rfl, hc⟩ := hasPermission_ok h5
  simp only [checkUserVerified, bind_ok, getV_ok, guardE_ok] at h6
  obtain ⟨v, _, ⟨rfl, rfl⟩, h6, rfl⟩ := h6
  obtain ⟨h8, rfl⟩ := ensureRp_ok h7
  simp only [Bool.and_eq_true] at h6
  exact ⟨pr, s.env.next, h3, ⟨ha, hb, hc⟩, by simpa using h2, h6.2, h8, Env.le_next _, rfl⟩

/-- The state up to the environment. -/
def EnvOnly (s0 s : St) : Prop := ∃ e, s0.env.Le e ∧ s = { s0 with env := e }

instance (s0 : St) : SEnv (fun s => ∃ e, s0.env.now ≤ e.now ∧ e.o = s0.env.o ∧ s = { s0 with env := e }) :=
  ⟨by rintro _ e h h2 ⟨e', h3, h4, rfl⟩; exact ⟨e, Nat.le_trans h3 h, h2.trans h4, rfl⟩⟩

/-- A function that only reads: only the environment changes. -/
theorem envOnly {m : M α} {s s' : St} {r : Res α} (h : m s = (r, s'))
    (hp : ∀ I : St → Prop, SEnv I → Pres I m := by intros; infer_instance) :
    ∃ e, s.env.now ≤ e.now ∧ e.o = s.env.o ∧ s' = { s with env := e } := by
  have := (hp (fun s1 => ∃ e, s.env.now ≤ e.now ∧ e.o = s.env.o ∧ s1 = { s with env := e }) inferInstance).out s
    ⟨s.env, Nat.le_refl _, rfl, rfl⟩
  rwa [h] at this

/-- A function that only reads, apart from creating the master keys. -/
theorem envMaster {m : M α} {s s' : St} {r : Res α} (h : m s = (r, s'))
    (hp : ∀ I : St → Prop, SEnv I → SMaster I → Pres I m := by intros; infer_instance) :
    ∃ e x, s.env.now ≤ e.now ∧ e.o = s.env.o ∧ s' = { s with env := e, p := { s.p with master := x } } := by
  have := (hp (fun s1 => ∃ e x, s.env.now ≤ e.now ∧ e.o = s.env.o ∧ s1 = { s with env := e, p := { s.p with master := x } })
    ⟨by rintro _ e h h2 ⟨e', x, h3, h4, rfl⟩; exact ⟨e, x, Nat.le_trans h3 h, h2.trans h4, rfl⟩⟩
    ⟨by rintro _ y ⟨e', x, h3, h4, rfl⟩; exact ⟨e', some y.1, h3, h4, rfl⟩⟩).out s
    ⟨s.env, s.p.master, Nat.le_refl _, rfl, rfl⟩
  rwa [h] at this

theorem authPrecheck_ok {param : Option Bytes} {proto : Option Proto} {u : Unit} {s s' : St}
    (h : authPrecheck param proto s = (.ok u, s')) :
    s' = s ∧ (param = none ∨ ∃ b pr, param = some b ∧ b ≠ [] ∧ proto = some pr) := by
  cases param with
  | none => simp only [authPrecheck, pure_ok] at h; exact ⟨h.2.symm, .inl rfl⟩
  | some b =>
    cases b with
    | nil => simp only [authPrecheck, bind_ok, fail_ok] at h; simp at h
    | cons x l =>
      simp only [authPrecheck, bind_ok, req_ok, pure_ok] at h
      obtain ⟨pr, _, ⟨h1, rfl⟩, _, rfl⟩ := h
      exact ⟨rfl, .inr ⟨_, pr, rfl, by simp, h1⟩⟩

/-- How a successful registration begins. -/
theorem makeCredential_ok {a : McParams} {s s' : St} {r : Response} (h : makeCredential a s = (.ok r, s')) :
    ∃ ep s1 s2 s3 s4, preferredCredParam a.credParams = true ∧ mcEnterprise a s = (.ok ep, s1) ∧
      mcAuth a s1 = (.ok (), s2) ∧
      checkExcludeList a.rp.id a.authParam.isSome (a.excludeList.getD []) s2 = (.ok (), s3) ∧
      checkPresenceE s3 = (.ok (), s4) ∧
      mcFinish a ep { s4 with v := { s4.v with pin := { s4.v.pin with tok := s4.v.pin.tok.clearFlags } },
                              log := .tokenConsumed :: s4.log } = (.ok r, s') := by
  simp only [makeCredential, bind_ok, guardE_ok, clearTokenFlags, modTok, modPin, modV_ok, logE_ok] at h
  obtain ⟨_, _, h1, _, _, ⟨h2, rfl⟩, ep, s1, h3, _, s2, h4, _, s3, h5, _, s4, h6, _, s5, ⟨_, _, rfl, rfl⟩, h7⟩ := h
  obtain ⟨rfl, _⟩ := authPrecheck_ok h1
  exact ⟨ep, s1, s2, s3, s4, h2, h3, h4, h5, h6, h7⟩

theorem mcAuth_token {a : McParams} {s s' : St} {r : Response} {param : Bytes}
    (h : makeCredential a s = (.ok r, s')) (hp : a.authParam = some param) :
    ∃ pr, a.authProto = some pr ∧ Authorised 0x01 pr a.clientDataHash param s.v.pin ∧ s.p.pin.isSome ∧
      s.v.pin.tok.userVerified = true ∧ (s.v.pin.tok.rpId = none ∨ s.v.pin.tok.rpId = some a.rp.id) := by
  obtain ⟨ep, s1, s2, s3, s4, _, h1, h2, _⟩ := makeCredential_ok h
  obtain ⟨e, _, _, rfl⟩ := envOnly h1
  rw [mcAuth, hp] at h2
  obtain ⟨pr, e', h3, h4, h5, h6, h7, _⟩ := checkTokenFor_ok h2
  exact ⟨pr, h3, h4, h5, h6, h7⟩

/-- How a successful assertion begins. -/
theorem getAssertion_ok {a : GaParams} {ch : Channel} {s s' : St} {r : Response}
    (h : getAssertion a ch s = (.ok r, s')) :
    ∃ s1 s2 s3 s4 s5 s6 c rest ad number ga, gaAuth a s = (.ok (), s1) ∧
      gaFindCredential a s1 = (.ok (some c, rest), s2) ∧ gaPresence a s2 = (.ok (), s3) ∧
      incrementGlobalCounter s3 = (.ok (), s4) ∧
      generateAuthData (Dev.sha256 a.rpId) (gaFlags a) s4 = (.ok ad, s5) ∧
      gaRemember { clientDataHash := a.clientDataHash, authData := ad, ext := a.ext, hasUv := a.authParam.isSome }
        rest ch s5 = (.ok number, s6) ∧
      assertionResponse c { clientDataHash := a.clientDataHash, authData := ad, ext := a.ext, hasUv := a.authParam.isSome }
        number s6 = (.ok ga, s') ∧ r = .getAssertion ga ∧ (a.ext.hmacSecret.isSome = true → a.options.up = true) := by
  simp only [getAssertion, bind_ok, guardE_ok, req_ok, pure_ok] at h
  obtain ⟨_, _, h1, _, _, ⟨h0, rfl⟩, _, s1, h2, ⟨c, rest⟩, s2, h3, c', _, ⟨hc, rfl⟩, _, s3, h4, _, s4, h5, ad, s5, h6, number, s6,
    h7, ga, s7, h8, rfl, rfl⟩ := h
  obtain ⟨rfl, _⟩ := authPrecheck_ok h1
  subst hc
  exact ⟨s1, s2, s3, s4, s5, s6, c', rest, ad, number, ga, h2, h3, h4, h5, h6, h7, h8, rfl, by
    intro h; simpa [h] using h0⟩

theorem gaAuth_token {a : GaParams} {ch : Channel} {s s' : St} {r : Response} {param : Bytes}
    (h : getAssertion a ch s = (.ok r, s')) (hp : a.authParam = some param) :
    ∃ pr, a.authProto = some pr ∧ Authorised 0x02 pr a.clientDataHash param s.v.pin ∧ s.p.pin.isSome ∧
      s.v.pin.tok.userVerified = true ∧ (s.v.pin.tok.rpId = none ∨ s.v.pin.tok.rpId = some a.rpId) := by
  obtain ⟨s1, s2, s3, s4, s5, s6, c, rest, ad, number, ga, h1, _⟩ := getAssertion_ok h
  rw [gaAuth, hp] at h1
  obtain ⟨pr, e', h3, h4, h5, h6, h7, _⟩ := checkTokenFor_ok h1
  exact ⟨pr, h3, h4, h5, h6, h7⟩

theorem getCommand_ok {c : Option Stateful} {s s' : St} (h : getCommand s = (.ok c, s')) :
    c = (s.v.sp.clearTimer s.env.now).cmd ∧ s' = { s with v := { s.v with sp := s.v.sp.clearTimer s.env.now } } := by
  simp only [getCommand, bind_ok, clock_ok, modSp, modV_ok, getV_ok, pure_ok] at h
  obtain ⟨_, _, ⟨rfl, rfl⟩, _, _, rfl, _, _, ⟨rfl, rfl⟩, rfl, rfl⟩ := h
  exact ⟨rfl, rfl⟩

theorem cborWriteM_ok {o : Option CVal} {b : Bytes} {s s' : St} (h : cborWriteM o s = (.ok b, s')) :
    s' = s ∧ ∃ v, o = some v ∧ cborWrite v = .ok b := by
  cases o with
  | none => simp [cborWriteM, panicM_ok] at h
  | some v =>
    rw [cborWriteM, liftE_ok] at h
    exact ⟨h.2.symm, v, rfl, h.1⟩

/-- The message that the token of a credential management request must authenticate. -/
def cmMessage (a : CmParams) : Option Bytes :=
  match a.params with
  | none => some [a.sub.toByte]
  | some p => match p.toCbor with
    | none => none
    | some v => match cborWrite v with
      | .ok b => some (a.sub.toByte :: b)
      | .error _ => none

theorem cmAuthData_ok {a : CmParams} {d : Bytes} {s s' : St} (h : cmAuthData a s = (.ok d, s')) :
    s' = s ∧ cmMessage a = some d := by
  unfold cmAuthData at h
  unfold cmMessage
  cases hp : a.params with
  | none => simp only [hp, pure_ok] at h; exact ⟨h.2.symm, by rw [h.1]⟩
  | some p =>
    simp only [hp, bind_ok, pure_ok] at h
    obtain ⟨b, s1, h1, rfl, rfl⟩ := h
    obtain ⟨rfl, v, h2, h3⟩ := cborWriteM_ok h1
    simp [h2, h3]

theorem cmAuth_ok {a : CmParams} {u : Unit} {s s' : St} (h : cmAuth a s = (.ok u, s')) :
    s' = s ∧ ∃ param pr msg, a.authParam = some param ∧ a.authProto = some pr ∧ cmMessage a = some msg ∧
      Authorised 0x04 pr msg param s.v.pin := by
  simp only [cmAuth, bind_ok, req_ok] at h
  obtain ⟨param, _, ⟨h1, rfl⟩, pr, _, ⟨h2, rfl⟩, d, s1, h3, _, s2, h4, h5⟩ := h
  obtain ⟨rfl, h6⟩ := cmAuthData_ok h3
  obtain ⟨rfl, h7, h8⟩ := verifyToken_ok h4
  obtain ⟨rfl, h9⟩ := hasPermission_ok h5
  exact ⟨rfl, param, pr, d, h1, h2, h6, h7, h8, h9⟩

/-- How a successful credential management command begins. -/
theorem credentialManagement_ok {a : CmParams} {ch : Channel} {s s' : St} {r : Response}
    (h : credentialManagement a ch s = (.ok r, s')) :
    ∃ sp o, cmDispatch a ch { s with v := { s.v with sp := sp } } = (.ok o, s') ∧ r = .credMgmt o ∧
      (cmKeeps a.sub (s.v.sp.clearTimer s.env.now).cmd = true → sp = s.v.sp.clearTimer s.env.now) ∧
      (cmKeeps a.sub (s.v.sp.clearTimer s.env.now).cmd = false → sp = .cleared) ∧
      (a.sub.needsToken = true → ∃ param pr msg, a.authParam = some param ∧ a.authProto = some pr ∧
        cmMessage a = some msg ∧ Authorised 0x04 pr msg param s.v.pin) := by
  simp only [credentialManagement, bind_ok, pure_ok, whenM_ok, modSp, modV_ok] at h
  obtain ⟨c, s1, h1, _, s2, h2, _, s3, h3, o, s4, h4, rfl, rfl⟩ := h
  obtain ⟨rfl, rfl⟩ := getCommand_ok h1
  have hs : ∃ sp, s2 = { s with v := { s.v with sp := sp } } ∧
      (cmKeeps a.sub (s.v.sp.clearTimer s.env.now).cmd = true → sp = s.v.sp.clearTimer s.env.now) ∧
      (cmKeeps a.sub (s.v.sp.clearTimer s.env.now).cmd = false → sp = .cleared) := by
    rcases h2 with ⟨hk, rfl⟩ | ⟨hk, rfl⟩
    · exact ⟨.cleared, rfl, by simp_all, fun _ => rfl⟩
    · exact ⟨_, rfl, fun _ => rfl, by simp_all⟩
  obtain ⟨sp, rfl, hsp1, hsp2⟩ := hs
  rcases h3 with ⟨hn, h3⟩ | ⟨hn, rfl⟩
  · obtain ⟨rfl, h5⟩ := cmAuth_ok h3
    exact ⟨sp, o, h4, rfl, hsp1, hsp2, fun _ => h5⟩
  · exact ⟨sp, o, h4, rfl, hsp1, hsp2, by simp [hn]⟩

/-- The message that the token of a configuration request must authenticate. -/
def configMessage (a : ConfigParams) : Option Bytes :=
  match a.params with
  | none => some (List.replicate 32 0xFF ++ [0x0D, a.sub.toByte])
  | some p => match p.toCbor with
    | none => none
    | some v => match cborWrite v with
      | .ok b => some (List.replicate 32 0xFF ++ [0x0D, a.sub.toByte] ++ b)
      | .error _ => none

theorem configAuth_ok {a : ConfigParams} {u : Unit} {s s' : St} (h : configAuth a s = (.ok u, s')) :
    s' = s ∧ ∃ param pr msg, a.authParam = some param ∧ a.authProto = some pr ∧ configMessage a = some msg ∧
      Authorised 0x20 pr msg param s.v.pin := by
  simp only [configAuth, bind_ok, req_ok] at h
  obtain ⟨param, _, ⟨h1, rfl⟩, pr, _, ⟨h2, rfl⟩, d, s1, h3, _, s2, h4, h5⟩ := h
  have h6 : s1 = s ∧ configMessage a = some d := by
    unfold configAuthData at h3
    unfold configMessage
    cases hp : a.params with
    | none => simp only [hp, pure_ok] at h3; exact ⟨h3.2.symm, by rw [h3.1]⟩
    | some p =>
      simp only [hp, bind_ok, pure_ok] at h3
      obtain ⟨b, s1, h1, rfl, rfl⟩ := h3
      obtain ⟨rfl, v, h2, h3⟩ := cborWriteM_ok h1
      simp only [h2, h3]
      exact ⟨trivial, trivial⟩
  obtain ⟨rfl, h6⟩ := h6
  obtain ⟨rfl, h7, h8⟩ := verifyToken_ok h4
  obtain ⟨rfl, h9⟩ := hasPermission_ok h5
  exact ⟨rfl, param, pr, d, h1, h2, h6, h7, h8, h9⟩

theorem configEnforceUv_ok {sub : ConfigSub} {b : Bool} {s s' : St} (h : configEnforceUv sub s = (.ok b, s')) :
    b = (sub != .toggleAlwaysUv && s.p.uvRequired) ∧ ∃ e, s.env.Le e ∧ s' = { s with env := e } := by
  unfold configEnforceUv at h
  split at h
  · rename_i hs
    rw [pure_ok] at h
    exact ⟨by simp [hs, h.1.symm], s.env, .refl _, h.2.symm⟩
  · rename_i hs
    obtain ⟨h1, h2⟩ := hasAlwaysUv_ok h
    exact ⟨by simp [h1, hs], h2⟩

/-- How a successful configuration command begins. -/
theorem configCommand_ok {a : ConfigParams} {s s' : St} {r : Response} (h : configCommand a s = (.ok r, s')) :
    ∃ e, s.env.Le e ∧ configDispatch a { s with env := e } = (.ok (), s') ∧ r = .config ∧
      ((s.p.pin.isSome || (a.sub != .toggleAlwaysUv && s.p.uvRequired)) = true → ∃ param pr msg, a.authParam = some param ∧
        a.authProto = some pr ∧ configMessage a = some msg ∧ Authorised 0x20 pr msg param s.v.pin) := by
  simp only [configCommand, bind_ok, pure_ok, whenM_ok] at h
  obtain ⟨b, s1, h1, hh, s2, h2, _, s3, h3, _, s4, h4, rfl, rfl⟩ := h
  obtain ⟨rfl, e, he, rfl⟩ := configEnforceUv_ok h1
  obtain ⟨rfl, rfl⟩ := pinHash_ok h2
  rcases h3 with ⟨hn, h3⟩ | ⟨hn, rfl⟩
  · obtain ⟨rfl, h5⟩ := configAuth_ok h3
    exact ⟨_, he.next, h4, rfl, fun _ => h5⟩
  · refine ⟨_, he.next, h4, rfl, fun hp => ?_⟩
    simp only [Option.isSome_map] at hn
    rw [hn] at hp
    simp at hp

/-- The message that the token of a large blob fragment must authenticate. -/
def lbMessage (a : LbParams) (set : Bytes) : Bytes := lbAuthData a.offset set

theorem lbAuth_ok {a : LbParams} {set : Bytes} {u : Unit} {s s' : St} (h : lbAuth a set s = (.ok u, s')) :
    s' = s ∧ ∃ param pr, a.authParam = some param ∧ a.authProto = some pr ∧
      Authorised 0x10 pr (lbMessage a set) param s.v.pin := by
  simp only [lbAuth, bind_ok, req_ok] at h
  obtain ⟨param, _, ⟨h1, rfl⟩, pr, _, ⟨h2, rfl⟩, _, s2, h4, h5⟩ := h
  obtain ⟨rfl, h7, h8⟩ := verifyToken_ok h4
  obtain ⟨rfl, h9⟩ := hasPermission_ok h5
  exact ⟨rfl, param, pr, h1, h2, h7, h8, h9⟩

theorem lbNeedsAuth_ok {b : Bool} {s s' : St} (h : lbNeedsAuth s = (.ok b, s')) :
    b = (s.p.pin.isSome || s.p.uvRequired) ∧ ∃ e, s.env.Le e ∧ s' = { s with env := e } := by
  simp only [lbNeedsAuth, bind_ok] at h
  obtain ⟨hh, s1, h1, h2⟩ := h
  obtain ⟨rfl, rfl⟩ := pinHash_ok h1
  split at h2
  · rename_i hs
    rw [pure_ok] at h2
    exact ⟨by simp at hs; simp [hs, h2.1.symm], _, Env.le_next _, h2.2.symm⟩
  · rename_i hs
    obtain ⟨h3, e, h4, rfl⟩ := hasAlwaysUv_ok h2
    exact ⟨by simp at hs; simp [h3, hs], e, (Env.le_next _).trans h4, rfl⟩

/-- How a successful large blob upload request begins. -/
theorem lbSet_ok {a : LbParams} {set : Bytes} {s s' : St} {r : Response} (h : lbSet a set s = (.ok r, s')) :
    ∃ lb e, s.env.Le e ∧ lbAppend a set { s with env := e, v := { s.v with lb := lb } } = (.ok (), s') ∧
      r = .largeBlobs none ∧ a.offset = lb.expectedNextOffset ∧ lb.buffer = s.v.lb.buffer ∧ set.length ≤ maxFragment ∧
      (if a.offset = 0 then a.length = some lb.expectedLength ∧ lb.expectedLength ≤ Dev.maxLargeBlob else lb = s.v.lb) ∧
      ((s.p.pin.isSome || s.p.uvRequired) = true → ∃ param pr, a.authParam = some param ∧
        a.authProto = some pr ∧ Authorised 0x10 pr (lbMessage a set) param s.v.pin) := by
  simp only [lbSet, bind_ok, pure_ok, whenM_ok, guardE_ok, getV_ok, lbStart, modLb, modV_ok, req_ok] at h
  obtain ⟨_, _, ⟨hl, rfl⟩, _, s2, h2, _, _, ⟨rfl, hv⟩, _, _, ⟨ho, rfl⟩, b, s3, h3, _, s4, h4, _, s5, h5, rfl, rfl⟩ := h
  have hs : ∃ lb, s2 = { s with v := { s.v with lb := lb } } ∧ lb.buffer = s.v.lb.buffer ∧
      (if a.offset = 0 then a.length = some lb.expectedLength ∧ lb.expectedLength ≤ Dev.maxLargeBlob else lb = s.v.lb) := by
    rcases h2 with ⟨h0, n, _, ⟨hn, rfl⟩, _, s6, rfl, _, _, ⟨hm, rfl⟩, rfl⟩ | ⟨h0, rfl⟩
    · refine ⟨_, rfl, rfl, ?_⟩
      rw [if_pos (by simpa using h0)]
      exact ⟨hn, by simpa using hm⟩
    · refine ⟨s.v.lb, rfl, rfl, ?_⟩
      rw [if_neg (by simpa using h0)]
  obtain ⟨lb, rfl, hb, hlb⟩ := hs
  subst hv
  obtain ⟨rfl, e, he, rfl⟩ := lbNeedsAuth_ok h3
  rcases h4 with ⟨hn, h4⟩ | ⟨hn, rfl⟩
  · obtain ⟨rfl, h6⟩ := lbAuth_ok h4
    exact ⟨lb, e, he, h5, rfl, by simpa using ho, hb, by simpa using hl, hlb, fun _ => h6⟩
  · refine ⟨lb, e, he, h5, rfl, by simpa using ho, hb, by simpa using hl, hlb, fun hp => ?_⟩
    rw [hn] at hp
    simp at hp

end Verif.Ctap
