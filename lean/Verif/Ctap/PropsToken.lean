import Verif.Ctap.BindLemmas
import Verif.Ctap.CredLemmas
import Verif.Ctap.PropsPin

/-!
# C12, C13, C14: PIN/UV auth tokens

`processParsed cmd ch s = (.ok r, s')`: the device in state `s` executes the parsed command `cmd` that came on channel `ch`
with success, answers `r` and is in state `s'` afterwards.
-/
namespace Verif.Ctap
set_option linter.unusedSectionVars false
set_option maxRecDepth 100000

section
variable [Dev] {P P' : Oracle → Prop} {b : Bool} {s s' : St} {cmd : Command} {ch : Channel} {r : Response}

/-- **C12.** A response carries a token only if a PIN is set, retries remain and fewer than three wrong PINs were given in
this power cycle, the PIN hash in the request, decrypted with the shared secret of the key agreement, is the stored one,
and no PIN change is forced.  The token is 32 fresh random bytes and what the platform decrypts; the tokens of
both protocols are replaced. -/
theorem C12_token_only_for_pin {a : PinParams} {q : PinResponse} {ct : Bytes}
    (h : processParsed (.clientPin a) ch s = (.ok (.clientPin (some q)), s')) (hq : q.token = some ct) :
    ∃ ka phe z hash len k, a.keyAgreement = some ka ∧ a.pinHashEnc = some phe ∧
      Dev.ecdh (s.v.pin.proto a.proto).sk ka.x ka.y = some z ∧
      s.p.pin = some (hash, len) ∧ s.p.retries ≠ 0 ∧ s.v.pin.mismatches < 3 ∧
      PinSpec.decrypt a.proto z phe = some hash ∧ s.p.forcePinChange = false ∧
      s.env.k ≤ k ∧ s'.v.pin.p1.token = PinSpec.random s.env k 32 ∧
      s'.v.pin.p2.token = PinSpec.random s.env (k + 1) 32 ∧
      PinSpec.decrypt a.proto z ct = some (s'.v.pin.proto a.proto).token := by
  obtain ⟨_, h⟩ := processParsed_ok h (by simp)
  simp only [fidoCommand, bind_ok, pure_ok] at h
  obtain ⟨q', s1, h1, h2, rfl⟩ := h
  cases h2
  obtain ⟨ka, phe, z, hash, len, e, k, t, perms, rp, a1, a2, a3, a4, a5, a6, a7, a8, a9, a10, _, _, _, a11, h3⟩ :=
    (tokenGranted h1 hq).out
  refine ⟨ka, phe, z, hash, len, k, a1, a2, ?_, a4, a5, a6, a7, a8, a10, ?_, ?_, a11⟩
  · revert a3
    cases a.proto <;> exact id
  · rw [h3]; rfl
  · rw [h3]; rfl

/-! ## C13 -/

theorem perm_used {perm perms : UInt8} (hp : perm = 1 ∨ perm = 2 ∨ perm = 4 ∨ perm = 16 ∨ perm = 32)
    (h : perm &&& (perms &&& 0x10) ≠ 0) : perm &&& perms ≠ 0 ∧ perm = 16 := by
  have e : perm &&& (perms &&& 0x10) = (perm &&& 0x10) &&& perms := by
    rw [UInt8.and_comm perms, UInt8.and_assoc]
  rw [e] at h
  have z : ∀ p : UInt8, p &&& 0x10 = 0 → (p &&& 0x10) &&& perms = 0 := fun p hp => by rw [hp, UInt8.zero_and]
  rcases hp with rfl | rfl | rfl | rfl | rfl
  · exact absurd (z _ (by decide)) h
  · exact absurd (z _ (by decide)) h
  · exact absurd (z _ (by decide)) h
  · exact ⟨h, rfl⟩
  · exact absurd (z _ (by decide)) h

/-- A token that is in use after the common start of commands is the last issued one, less than 30 s old. -/
theorem tok_issued {o : Oracle} (hg : TokGood s) {perm : UInt8} {pr : Proto} {msg param : Bytes}
    (hp : perm = 1 ∨ perm = 2 ∨ perm = 4 ∨ perm = 16 ∨ perm = 32)
    (ha : Authorised perm pr msg param (prelude cmd ch (s.withOracle o)).v.pin) :
    (prelude cmd ch (s.withOracle o)).v.pin.tok = s.v.pin.tok ∧ s.v.pin.tok.inUse = true ∧
    ∃ new t perms rp, LastIssued s.log new t perms rp ∧ s.env.now < t + 30000 ∧ perm &&& perms ≠ 0 ∧
      (.tokenConsumed ∈ new → perm = 16) ∧ (∀ r, rp = some r → s.v.pin.tok.rpId = some r) := by
  have hu : (s.v.pin.tok.observe s.env.now).inUse = true := ha.inUse
  by_cases he : (s.v.pin.tok.inUse && Verif.Hid.Timer.isElapsed s.v.pin.tok.timer s.env.now) = true
  · simp [TokenState.observe, he, TokenState.new] at hu
  have e : s.v.pin.tok.observe s.env.now = s.v.pin.tok := by rw [TokenState.observe, if_neg he]
  rw [e] at hu
  simp only [hu, Bool.true_and] at he
  have hperm : perm &&& s.v.pin.tok.permissions ≠ 0 := by
    have := ha.perm
    simp only [prelude, St.withOracle, e] at this
    exact this
  refine ⟨e, hu, ?_⟩
  obtain ⟨l1, t, perms, rp, l2, d, a1, a2, a3, a4, a5, a6, a7⟩ := hg hu
  rw [a3] at he
  have hlt : s.env.now < d := by
    simp only [Verif.Hid.Timer.isElapsed] at he
    simpa using he
  refine ⟨l1, t, perms, rp, ⟨a2, l2, a1⟩, by omega, ?_, ?_, a7⟩
  · by_cases hc : Ev.tokenConsumed ∈ l1
    · rw [(a6 hc).1] at hperm
      exact (perm_used hp hperm).1
    · rwa [a5 hc] at hperm
  · intro hc
    rw [(a6 hc).1] at hperm
    exact (perm_used hp hperm).2

/-- What the success of a request that needs a token tells. -/
theorem authorised_of_ok {o : Oracle} (h : processParsed cmd ch (s.withOracle o) = (.ok r, s')) {perm : UInt8}
    (hn : cmd.neededPermission s.p = some perm) :
    (perm = 1 ∨ perm = 2 ∨ perm = 4 ∨ perm = 16 ∨ perm = 32) ∧
    ∃ pr param msg, cmd.auth = some (some pr, some param) ∧
      Authorised perm pr msg param (prelude cmd ch (s.withOracle o)).v.pin := by
  have hc : cmd ≠ .getInfo := by rintro rfl; simp [Command.neededPermission] at hn
  replace h := (processParsed_ok h hc).2
  cases cmd <;> simp only [Command.neededPermission] at hn <;> try (simp at hn; done)
  · rename_i a
    cases hp : a.authParam with
    | none => simp [hp] at hn
    | some param =>
      simp [hp] at hn
      obtain ⟨pr, h1, h2, _⟩ := mcAuth_token h hp
      subst hn
      exact ⟨by simp, pr, param, _, by simp [Command.auth, h1, hp], h2⟩
  · rename_i a
    cases hp : a.authParam with
    | none => simp [hp] at hn
    | some param =>
      simp [hp] at hn
      obtain ⟨pr, h1, h2, _⟩ := gaAuth_token h hp
      subst hn
      exact ⟨by simp, pr, param, _, by simp [Command.auth, h1, hp], h2⟩
  · rename_i a
    split at hn
    · simp at hn
    rename_i hs
    cases hn
    obtain ⟨sp, x, _, _, _, _, h1⟩ := credentialManagement_ok h
    obtain ⟨param, pr, msg, h2, h3, _, h4⟩ := h1 (by
      cases hsub : a.sub <;> simp_all [CmSub.needsToken])
    exact ⟨by simp, pr, param, msg, by simp [Command.auth, h2, h3], h4⟩
  · rename_i a
    split at hn
    · rename_i hs
      cases hn
      simp only [fidoCommand, largeBlobsCommand, hs.1] at h
      cases hset : a.set with
      | none => simp [hset, fail_ok] at h
      | some set =>
        simp only [hset] at h
        obtain ⟨lb, e, _, _, _, _, _, _, _, h1⟩ := lbSet_ok h
        obtain ⟨param, pr, h2, h3, h4⟩ := h1 (by
          have := hs.2
          simp only [Persist.uvRequired, Bool.or_eq_true]
          exact this)
        exact ⟨by simp, pr, param, _, by simp [Command.auth, h2, h3], h4⟩
    · simp at hn
  · rename_i a
    split at hn
    · rename_i hs
      cases hn
      obtain ⟨e, _, _, _, h1⟩ := configCommand_ok h
      obtain ⟨param, pr, msg, h2, h3, _, h4⟩ := h1 (by
        simp only [Persist.uvRequired, Bool.or_eq_true, Bool.and_eq_true, bne_iff_ne]
        exact hs)
      exact ⟨by simp, pr, param, msg, by simp [Command.auth, h2, h3], h4⟩
    · simp at hn

/-- **C13.** A request that needs a token is accepted only if it carries the authentication, under the current token of the
chosen protocol, of some message, and the last token was issued, with the needed permission, less than 30 s ago and since
the last power-up.  If the token has been used for a registration or for an assertion with user presence since then, the
request writes a large blob. -/
theorem C13_token_rights {o : Oracle} (hr : Reach P true s)
    (h : processParsed cmd ch (s.withOracle o) = (.ok r, s')) {perm : UInt8}
    (hn : cmd.neededPermission s.p = some perm) :
    (∃ pr param msg, cmd.auth = some (some pr, some param) ∧ param = PinSpec.tag pr (s.v.pin.proto pr).token msg) ∧
    ∃ new t perms rp, LastIssued s.log new t perms rp ∧ s.env.now < t + 30000 ∧ perm &&& perms ≠ 0 ∧
      (.tokenConsumed ∈ new → perm = 16) := by
  obtain ⟨hp, pr, param, msg, h1, h2⟩ := authorised_of_ok h hn
  obtain ⟨_, _, new, t, perms, rp, h3, h4, h5, h6, _⟩ := tok_issued (tokGood_reach hr) hp h2
  refine ⟨⟨pr, param, msg, h1, ?_⟩, new, t, perms, rp, h3, h4, h5, h6⟩
  have := h2.mac
  revert this
  cases pr <;> exact id

/-! ## C14 -/

/-- In a state where the token in use is bound to `rp`. -/
theorem respects_of_bound {o : Oracle} {rp : Bytes} (hc : CredsOk s.p.creds) (hb : Bound rp s)
    (hg : TokGood s) (h : processParsed cmd ch (s.withOracle o) = (.ok r, s')) : cmd.respects rp s s' := by
  by_cases hi : cmd = .getInfo
  · subst hi; trivial
  replace h := (processParsed_ok h hi).2
  cases cmd with
  | getNextAssertion => trivial
  | getInfo => trivial
  | clientPin _ => trivial
  | reset => trivial
  | selection => trivial
  | largeBlobs _ => trivial
  | config _ => trivial
  | makeCredential a =>
    intro hs
    obtain ⟨param, hp⟩ := Option.isSome_iff_exists.1 hs
    obtain ⟨pr, h1, h2, _, _, h3⟩ := mcAuth_token h hp
    obtain ⟨e, hu, _⟩ := tok_issued hg (by simp) h2
    have := hb hu
    rw [e, this] at h3
    simpa [eq_comm] using h3
  | getAssertion a =>
    intro hs
    obtain ⟨param, hp⟩ := Option.isSome_iff_exists.1 hs
    obtain ⟨pr, h1, h2, _, _, h3⟩ := gaAuth_token h hp
    obtain ⟨e, hu, _⟩ := tok_issued hg (by simp) h2
    have := hb hu
    rw [e, this] at h3
    simpa [eq_comm] using h3
  | credMgmt a =>
    simp only [Command.respects]
    obtain ⟨sp, x, hd, _, _, _, h1⟩ := credentialManagement_ok h
    cases hs : a.sub <;> try trivial
    all_goals
      obtain ⟨param, pr, msg, h2, h3, _, h4⟩ := h1 (by simp [hs, CmSub.needsToken])
      obtain ⟨e, hu, _⟩ := tok_issued hg (by simp) h4
      have hbd := hb hu
      simp only [cmDispatch, hs, bind_ok, req_ok, pure_ok] at hd
    · obtain ⟨_, s1, hd, _⟩ := hd
      simp only [hasNoRpIdPermission, bind_ok, getV_ok, guardE_ok] at hd
      obtain ⟨v, _, ⟨rfl, rfl⟩, hd, _⟩ := hd
      dsimp only at hd
      rw [e, hbd] at hd
      simp at hd
    · obtain ⟨_, s1, hd, _⟩ := hd
      simp only [hasNoRpIdPermission, bind_ok, getV_ok, guardE_ok] at hd
      obtain ⟨v, _, ⟨rfl, rfl⟩, hd, _⟩ := hd
      dsimp only at hd
      rw [e, hbd] at hd
      simp at hd
    · obtain ⟨p, _, ⟨hp, rfl⟩, res, s2, hd, _⟩ := hd
      refine ⟨p, hp, ?_⟩
      simp only [cmCredsBegin, bind_ok, req_ok] at hd
      obtain ⟨hash, _, ⟨hh, rfl⟩, _, s3, hd, _⟩ := hd
      simp only [hasNoOrRpIdHashPermission, bind_ok, getV_ok, guardE_ok] at hd
      obtain ⟨v, _, ⟨rfl, rfl⟩, hd, _⟩ := hd
      dsimp only at hd
      rw [e, hbd] at hd
      rw [hh, eq_of_beq hd]
    · obtain ⟨p, _, ⟨hp, rfl⟩, _, s2, hd, _, rfl⟩ := hd
      simp only [cmDelete, bind_ok, req_ok, checkRpIdPermissions, getV_ok] at hd
      obtain ⟨d, _, ⟨hd1, rfl⟩, _, s3, ⟨v, _, ⟨rfl, rfl⟩, hd⟩, hdel⟩ := hd
      dsimp only at hd
      rw [e, hbd] at hd
      simp only [Option.isNone_some, Bool.false_eq_true, if_false, bind_ok, hasNoOrRpIdPermission, getV_ok, guardE_ok] at hd
      obtain ⟨y, s4, hy, v, _, ⟨rfl, rfl⟩, hd, rfl⟩ := hd
      obtain ⟨hf, mk, e', _, _, _, rfl⟩ := findItem_ok hy
      dsimp only at hd
      rw [e, hbd] at hd
      have hrp : rp = y.2.rpId := by simpa using hd
      simp only [deleteCredential, bind_ok] at hdel
      obtain ⟨z, s5, hz, hw⟩ := hdel
      obtain ⟨hf', mk', e'', _, _, _, rfl⟩ := findItem_ok hz
      have hzy : [z] = [y] := hf'.symm.trans hf
      simp only [List.cons.injEq, and_true] at hzy
      subst hzy
      have := writeP_ok hw
      rw [this]
      refine ⟨z, (findItem_mem hf).1, hrp.symm, ?_⟩
      refine List.filter_congr fun w hwm => ?_
      have hmz := (findItem_mem hf).1
      by_cases hk : w = z
      · subst hk; simp
      · have : w.1 ≠ z.1 := fun hk' => hk (hc.key hwm hmz hk')
        simp [hk, this]
    · obtain ⟨p, _, ⟨hp, rfl⟩, _, s2, hd, _, rfl⟩ := hd
      simp only [cmUpdate, bind_ok, req_ok, checkRpIdPermissions, getV_ok] at hd
      obtain ⟨d, _, ⟨hd1, rfl⟩, u, _, ⟨hu1, rfl⟩, _, s3, ⟨v, _, ⟨rfl, rfl⟩, hd⟩, hdel⟩ := hd
      dsimp only at hd
      rw [e, hbd] at hd
      simp only [Option.isNone_some, Bool.false_eq_true, if_false, bind_ok, hasNoOrRpIdPermission, getV_ok, guardE_ok] at hd
      obtain ⟨y, s4, hy, v, _, ⟨rfl, rfl⟩, hd, rfl⟩ := hd
      obtain ⟨hf, mk, e', _, _, _, rfl⟩ := findItem_ok hy
      dsimp only at hd
      rw [e, hbd] at hd
      have hrp : rp = y.2.rpId := by simpa using hd
      simp only [updateCredential, bind_ok] at hdel
      obtain ⟨z, s5, hz, mk1, s6, hm1, iv, s7, hr1, hw⟩ := hdel
      obtain ⟨hf', mk', e'', _, _, _, rfl⟩ := findItem_ok hz
      have hzy : [z] = [y] := hf'.symm.trans hf
      simp only [List.cons.injEq, and_true] at hzy
      subst hzy
      have hw' := writeP_ok hw
      have k7 := keepCreds hr1
      have k6 := keepCreds hm1
      rw [hw']
      refine ⟨z, (findItem_mem hf).1, hrp.symm,
        { z.2 with userName := u.name, userDisplayName := u.displayName, userIcon := u.icon }, ?_, ?_, ?_⟩
      rotate_left 2
      · dsimp only [Persist.putCred]
        rw [k7, k6]
        refine congrArg (List.cons _) (List.filter_congr fun w hwm => ?_)
        have hmz := (findItem_mem hf).1
        by_cases hk : w = z
        · subst hk; simp
        · have : w.1 ≠ z.1 := fun hk' => hk (hc.key hwm hmz hk')
          simp [hk, this]
      · exact hrp.symm
      · rfl

/-- The token in use is bound to the relying party that it was issued for. -/
theorem bound_of_issued (hr : Reach P true s) {new : List Ev} {t : Nat} {perms : UInt8} {rp : Bytes}
    (hi : LastIssued s.log new t perms (some rp)) : Bound rp s := by
  intro hu
  have hg := tokGood_reach hr
  obtain ⟨l1, t', perms', rp', l2, d, a1, a2, _, _, _, _, a7⟩ := hg hu
  obtain ⟨hi1, old, hi2⟩ := hi
  rw [hi2] at a1
  have : ∀ (x y : List Ev) (p q : Ev) (u v : List Ev), x ++ p :: u = y ++ q :: v → (∀ e ∈ x, e.isBootOrIssued = false) →
      (∀ e ∈ y, e.isBootOrIssued = false) → p.isBootOrIssued = true → q.isBootOrIssued = true → p = q := by
    intro x
    induction x with
    | nil =>
      intro y p q u v he _ hy hp hq
      cases y with
      | nil => simp at he; exact he.1
      | cons z y =>
        simp at he
        have := hy z List.mem_cons_self
        rw [← he.1, hp] at this
        cases this
    | cons z x ih =>
      intro y p q u v he hx hy hp hq
      cases y with
      | nil =>
        simp at he
        have := hx z List.mem_cons_self
        rw [he.1, hq] at this
        cases this
      | cons w y =>
        simp at he
        exact ih y p q u v he.2 (fun e h => hx e (List.mem_cons_of_mem _ h)) (fun e h => hy e (List.mem_cons_of_mem _ h)) hp hq
  have := this _ _ _ _ _ _ a1 hi1 a2 rfl rfl
  cases this
  exact a7 rp rfl

/-- **C14**, tokens issued for a relying party: whatever the device has done since the last token was issued for `rp`, a
request is accepted only if it respects this binding. -/
theorem C14_issued_for {o : Oracle} (hr : Reach P true s) {new : List Ev} {t : Nat} {perms : UInt8} {rp : Bytes}
    (hi : LastIssued s.log new t perms (some rp)) (h : processParsed cmd ch (s.withOracle o) = (.ok r, s')) :
    cmd.respects rp s s' :=
  respects_of_bound (credsOk_reach hr) (bound_of_issued hr hi) (tokGood_reach hr) h

/-- **C14**, first use: after a registration or assertion for `rp` that was authenticated by a token, whatever the device does
then, as long as no other token is issued and the device is not restarted a request is accepted only if it respects the
binding to `rp`. -/
theorem C14_used_for {s1 s2 s3 : St} {cmd' : Command} {ch' : Channel} {r' : Response} {o' : Oracle} {rp : Bytes}
    (h : processParsed cmd ch s = (.ok r, s1)) (hf : cmd.isFor rp)
    (hrun : Run P' s1 true s2) (hr2 : Reach P true s2) (hno : ¬ HappenedSince s1.log Ev.isBootOrIssued s2.log)
    (h' : processParsed cmd' ch' (s2.withOracle o') = (.ok r', s3)) : cmd'.respects rp s2 s3 := by
  have hb : Bound rp s1 := by
    obtain ⟨_, h1⟩ := processParsed_ok h (by rintro rfl; exact hf)
    cases cmd <;> try exact hf.elim
    · rename_i a
      obtain ⟨hs, rfl⟩ := hf
      obtain ⟨param, hp⟩ := Option.isSome_iff_exists.1 hs
      obtain ⟨ep, t1, t2, t3, t4, _, g1, g2, g3, g4, g5⟩ := makeCredential_ok h1
      rw [mcAuth, hp] at g2
      obtain ⟨pr, e', _, _, _, _, _, _, rfl⟩ := checkTokenFor_ok g2
      have k3 := keepPin g3
      have k4 := keepPin g4
      have k5 := keepPin g5
      intro _
      rw [k5]
      dsimp only [TokenState.clearFlags]
      rw [k4, k3]
      rfl
    · rename_i a
      obtain ⟨hs, rfl⟩ := hf
      obtain ⟨param, hp⟩ := Option.isSome_iff_exists.1 hs
      obtain ⟨t1, t2, t3, t4, t5, t6, c, rest, ad, number, ga, g1, g2, g3, g4, g5, g6, g7, _⟩ := getAssertion_ok h1
      rw [gaAuth, hp] at g1
      obtain ⟨pr, e', _, _, _, _, _, _, rfl⟩ := checkTokenFor_ok g1
      have k2 := keepPin g2
      have k3 : t3.v.pin.tok.rpId = t2.v.pin.tok.rpId := by
        rw [gaPresence, whenM_ok] at g3
        rcases g3 with ⟨_, g3⟩ | ⟨_, rfl⟩
        · simp only [bind_ok, clearTokenFlags, modTok, modPin, modV_ok, logE_ok] at g3
          obtain ⟨_, t', g8, _, _, rfl, rfl⟩ := g3
          have := keepPin g8
          dsimp only [TokenState.clearFlags]
          rw [this]
        · rfl
      have k4 := keepPin g4
      have k5 := keepPin g5
      have k6 := keepPin g6
      have k7 := keepPin g7
      intro _
      rw [k7, k6, k5, k4, k3, k2]
      rfl
  rcases run_bound hrun hb with hx | hx
  · exact absurd hx hno
  · exact respects_of_bound (credsOk_reach hr2) hx (tokGood_reach hr2) h'

end

namespace Toy

def rpA : Bytes := b! "a.example"
def rpB : Bytes := b! "b.example"
/-- A device with a token for registration, assertion and credential management at `rpA`. -/
def withToken : St := step good (getTokenPerm pin 7 (some rpA)) withPin

theorem reach_withToken {P : Oracle → Prop} (h : P good) : Reach P true withToken :=
  reach_step good h _ (reach_withPin h) (by decide +kernel)

/-- C12: the right PIN gives a token, another one does not. -/
example : accepted good (getToken pin) withPin = true ∧ accepted good (getToken wrong) withPin = false ∧
    withPin.v.pin.p1.token ≠ (step good (getToken pin) withPin).v.pin.p1.token := by decide +kernel

/-- C13, C14: the token authenticates a registration at `rpA` for 30 s, only there, and only once. -/
example :
    let reg (s : St) rp := register rp (b! "user") true (some (tokenMac s cdh))
    (parse (reg withToken rpA)).neededPermission withToken.p = some 1 ∧
    accepted good (reg withToken rpA) withToken = true ∧
    accepted good (reg withToken rpB) withToken = false ∧
    accepted good (reg withToken rpA) (step good (.wait 29000) withToken) = true ∧
    accepted good (reg withToken rpA) (step good (.wait 30000) withToken) = false ∧
    accepted good (reg withToken rpA) (step good (reg withToken rpA) withToken) = false := by decide +kernel

example : ∃ new t perms, LastIssued withToken.log new t perms (some rpA) := by
  refine ⟨[], 17, 7, by simp, withToken.log.drop 1, ?_⟩
  decide +kernel

/-- C14: a token that is not bound to a relying party (as `getPinToken` gives it) is bound at the first use without
user presence, and can then be used again for this relying party only. -/
example :
    let s := step good (getToken pin) (step good (register rpA (b! "user") true (some (tokenMac withToken cdh))) withToken)
    let ask rp := assertSilent rp (some (tokenMac s cdh))
    let s1 := step good (ask rpA) s
    accepted good (ask rpA) s = true ∧ accepted good (ask rpA) s1 = true ∧
    bytes good (ask rpB) s = some [Status.noCredentials.toByte] ∧
    bytes good (ask rpB) s1 = some [Status.pinAuthInvalid.toByte] := by decide +kernel

end Toy
end Verif.Ctap
