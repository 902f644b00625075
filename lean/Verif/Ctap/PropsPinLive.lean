import Verif.Ctap.PropsLive
import Verif.Ctap.PinLiveSpec

/-!
# C72: the right PIN works
-/
namespace Verif.Ctap
set_option linter.unusedSectionVars false
set_option maxRecDepth 100000

section
variable [Dev] {P : Oracle → Prop} {s s' : St}

theorem takeWhile_padded {pin : Bytes} (h : (0 : UInt8) ∉ pin) : (PinSpec.padded pin).takeWhile (· != 0) = pin := by
  unfold PinSpec.padded
  rw [List.takeWhile_append_of_pos (fun x hx => by simp; rintro rfl; exact h hx)]
  cases 64 - pin.length with
  | zero => simp
  | succ n => simp [List.replicate_succ]

theorem padded_length {pin : Bytes} (h : pin.length ≤ 63) : (PinSpec.padded pin).length = 64 := by
  simp [PinSpec.padded]; omega

/-- What storing a new PIN does. -/
theorem store_run {pr : Proto} {z enc pin : Bytes} (hs : Smooth s) (hd : PinSpec.decrypt pr z enc = some (PinSpec.padded pin))
    (hp : s.MaySet pin) : ∃ e, s.env.Le e ∧ checkAndStoreNewPin (SharedSecret.new pr z) enc s =
      (.ok (), { s with env := e, p := { s.p with pin := some (PinSpec.hash pin, pinChars pin), forcePinChange := false } }) := by
  obtain ⟨cs, hcs, hl⟩ := hp.long
  have hdp : decryptPin (SharedSecret.new pr z) enc = .ok pin := by
    simp only [decryptPin, decrypt_of_spec hd, padded_length hp.short, takeWhile_padded hp.nozero]
    simp
  have : Ok (checkAndStoreNewPin (SharedSecret.new pr z) enc) s := by
    unfold checkAndStoreNewPin
    refine ok_bind (ok_liftE hdp) fun pin' s1 h1 => ?_
    rw [liftE_ok, hdp] at h1
    obtain ⟨h1, rfl⟩ := h1
    cases h1
    refine ok_bind (Go.out _ hs) fun n s1 h1 => ?_
    have hs1 := smooth_of h1 hs
    obtain ⟨rfl, rfl⟩ := minPinLength_ok h1
    refine ok_bind (ok_guard ?_) fun _ s2 h2 => ?_
    · have := hp.short
      simp only [pinChars, hcs, Option.getD_some, Bool.not_eq_true', Bool.or_eq_false_iff, decide_eq_false_iff_not,
        beq_eq_false_iff_ne]
      omega
    rw [guardE_ok] at h2
    obtain ⟨_, h2⟩ := h2
    subst s2
    exact Go.out _ hs1
  obtain ⟨u, s1, h⟩ := this
  have h' := h
  simp only [checkAndStoreNewPin, bind_ok, liftE_ok, hdp, guardE_ok, setPin] at h'
  obtain ⟨pin', _, ⟨e, rfl⟩, n, s2, h2, _, _, ⟨_, rfl⟩, h3⟩ := h'
  cases e
  obtain ⟨rfl, rfl⟩ := minPinLength_ok h2
  have := writeP_ok h3
  subst this
  exact ⟨_, (Env.le_next _).next, by rw [h]; rfl⟩

/-- The right PIN passes the check. -/
theorem verify_run {pr : Proto} {z phe pin : Bytes} (hs : Smooth s) (hd : PinSpec.decrypt pr z phe = some (PinSpec.hash pin))
    (hp : s.PinIs pin) (hm : s.v.pin.mismatches < 3) : ∃ e, s.env.Le e ∧ verifyPinHashEnc pr (SharedSecret.new pr z) phe s =
      (.ok (), { env := e, p := { s.p with pinRetries := none }, log := .pinCompare true :: s.log,
                 v := { s.v with pin := { s.v.pin with mismatches := 0 } } }) := by
  obtain ⟨len, hp⟩ := hp
  have hdp := decrypt_of_spec hd
  have : Ok (verifyPinHashEnc pr (SharedSecret.new pr z) phe) s := by
    unfold verifyPinHashEnc
    refine ok_bind (Go.out _ hs) fun n s1 h1 => ?_
    have hs1 := smooth_of h1 hs
    obtain ⟨rfl, rfl⟩ := pinHash_ok h1
    simp only [hp, Option.map_some]
    refine ok_bind ⟨_, _, rfl⟩ fun v s2 h2 => ?_
    rw [getV_ok] at h2
    obtain ⟨rfl, h2⟩ := h2
    subst s2
    refine ok_bind (ok_guard (by simpa using hm)) fun _ s2 h2 => ?_
    rw [guardE_ok] at h2
    obtain ⟨_, h2⟩ := h2
    subst s2
    refine ok_bind (Go.out _ hs1) fun n s2 h2 => ?_
    have hs2 := smooth_of h2 hs1
    simp only [hdp]
    refine ok_bind ⟨_, _, rfl⟩ fun b s3 h3 => ?_
    simp only [comparePin, bind_ok, logE_ok, pure_ok] at h3
    obtain ⟨_, s4, rfl, rfl, rfl⟩ := h3
    simp only [beq_self_eq_true, if_true]
    have hs3 : Smooth { s2 with log := .pinCompare true :: s2.log } := hs2
    exact ok_bind (Go.out _ hs3) fun _ s4 h4 => Go.out _ (smooth_of h4 hs3)
  obtain ⟨u, s1, h⟩ := this
  obtain ⟨hash, len', e, h1, _, _, h2, rfl⟩ := verifyPinHashEnc_ok h
  exact ⟨e, h2, h⟩

/-- A PIN command that succeeds is answered. -/
theorem pin_answered {a : PinParams} {cid msg : Bytes} {o : Oracle} {r : Option PinResponse} {s1 : St} (hk : Keyed s) (ho : o.Calm)
    (hmsg : Command.deserialize msg = .ok (.clientPin a))
    (h : clientPinCommand a (prelude (.clientPin a) (.main cid) (s.withOracle o)) = (.ok r, s1)) :
    ∃ b t, stepM (.ctap2 (.main cid) msg) (s.withOracle o) = (.ok (.ctap2 b), t) ∧ (Response.clientPin r).SentAs b ∧
      t.p = s1.p ∧ t.v = s1.v ∧ s1.env.now ≤ t.env.now := by
  have : processParsed (.clientPin a) (.main cid) (s.withOracle o) = (.ok (.clientPin r), s1) := by
    rw [processParsed_eq]
    show fidoCommand (.main cid) (.clientPin a) _ = _
    simp only [fidoCommand, bind_ok, pure_ok]
    exact ⟨r, s1, h, rfl, rfl⟩
  obtain ⟨r', s1', b, t, h1, h2, h3, h4⟩ := answered_state (s := s.withOracle o) hmsg ⟨ho, hk.2.2⟩ ⟨_, _, this⟩
  rw [this] at h1
  cases h1
  exact ⟨b, t, h3, h2, h4⟩

theorem sent_none {b : Bytes} (h : (Response.clientPin none).SentAs b) : b = [0x00] := h

theorem agrees_congr {c c' : ClientPin} {pr : Proto} {k : CoseKey} {z : Bytes} (e : c'.proto pr = c.proto pr) (h : c.Agrees pr k z) :
    c'.Agrees pr k z := ⟨h.key, by rw [e]; exact h.secret⟩

/-- **C72**, setting a PIN: while the device has no PIN, an honest request to set one that satisfies the policy succeeds; afterwards
the PIN is set and all attempts are left. -/
theorem C72_set {a : PinParams} {cid msg pin : Bytes} {o : Oracle} (hr : Reach P true s) (ho : o.Calm)
    (hmsg : Command.deserialize msg = .ok (.clientPin a)) (hv : Dev.allowsPinV1 = true ∨ a.proto ≠ .v1)
    (hn : s.p.pin = none) (ha : a.Sets s.v.pin pin) (hp : s.MaySet pin) :
    ∃ t, stepM (.ctap2 (.main cid) msg) (s.withOracle o) = (.ok (.ctap2 [0x00]), t) ∧ t.PinIs pin ∧
      t.p.retries = Dev.maxPinRetries ∧ t.p.forcePinChange = false ∧ t.v.pin.mismatches = s.v.pin.mismatches := by
  have hk := keyed_reach hr
  obtain ⟨hsub, k, z, enc, h1, h2, h3, h4, h5⟩ := ha
  generalize hs0 : prelude (.clientPin a) (.main cid) (s.withOracle o) = s0
  have hs : Smooth s0 := by subst hs0; exact ⟨ho, hk.2.2⟩
  have hp0 : s0.p = s.p := by subst hs0; rfl
  have hm0 : s0.v.pin.mismatches = s.v.pin.mismatches := by subst hs0; rfl
  have hpr : s0.v.pin.proto a.proto = s.v.pin.proto a.proto := by subst hs0; exact prelude_proto (s := s.withOracle o) _ _ _
  have e1 := ok_sharedSecret (s := { s0 with env := s0.env.next }) (agrees_congr hpr h2).key (agrees_congr hpr h2).secret
  have hs1 : Smooth { s0 with env := s0.env.next } := hs
  obtain ⟨e, _, e2⟩ := store_run (pr := a.proto) (z := z) (pin := pin) hs1 h4
    ⟨hp.nozero, hp.short, by show ∃ cs, _ ∧ s0.p.minPin ≤ _; rw [hp0]; exact hp.long⟩
  obtain ⟨u, s2, e3⟩ : Ok resetPinRetries { s0 with env := e, p := { s0.p with pin := some (PinSpec.hash pin, pinChars pin), forcePinChange := false } } :=
    Go.out _ ⟨by show e.o.Calm; rw [show e.o = s0.env.o from (keepEnv e2).2]; exact hs.1, hs.2⟩
  have e4 := writeP_ok e3
  obtain ⟨_, s0', e5⟩ : Ok pinHash s0 := Go.out _ hs
  have e6 := (pinHash_ok e5).2
  rw [(pinHash_ok e5).1, e6, show s0.p.pin = none by rw [hp0, hn]] at e5
  have hrun : clientPinCommand a s0 = (.ok none, s2) := by
    simp only [clientPinCommand, hsub, bind_ok, guardE_ok, pure_ok, processSetPin, req_ok]
    refine ⟨(), s0, ⟨by cases hpp : a.proto <;> simp_all, rfl⟩, (), s2, ?_, trivial, rfl⟩
    refine ⟨k, s0, ⟨h1, rfl⟩, _, s0, ⟨h5, rfl⟩, enc, s0, ⟨h3, rfl⟩, _, _, e5, (), _, ⟨rfl, rfl⟩, _, _, e1, (), _, ?_, (), _, e2, e3⟩
    rw [liftE_ok]
    exact ⟨verify_of_spec, rfl⟩
  obtain ⟨b, t, g1, g2, g3, g4, _⟩ := pin_answered hk ho hmsg (hs0 ▸ hrun)
  obtain rfl := sent_none g2
  refine ⟨t, g1, ⟨pinChars pin, by rw [g3, e4]⟩, by rw [g3, e4]; rfl, by rw [g3, e4], by rw [g4, e4]; exact hm0⟩

/-- **C72**, changing the PIN: an honest request with the right old PIN succeeds while attempts are left; afterwards the new PIN is set
and all attempts are left, also since power-up. -/
theorem C72_change {a : PinParams} {cid msg old pin : Bytes} {o : Oracle} (hr : Reach P true s) (ho : o.Calm)
    (hmsg : Command.deserialize msg = .ok (.clientPin a)) (hv : Dev.allowsPinV1 = true ∨ a.proto ≠ .v1)
    (hold : s.PinIs old) (hre : s.p.retries ≠ 0) (hm : s.v.pin.mismatches < 3) (ha : a.Changes s.v.pin old pin) (hp : s.MaySet pin) :
    ∃ t, stepM (.ctap2 (.main cid) msg) (s.withOracle o) = (.ok (.ctap2 [0x00]), t) ∧ t.PinIs pin ∧
      t.p.retries = Dev.maxPinRetries ∧ t.p.forcePinChange = false ∧ t.v.pin.mismatches = 0 := by
  have hk := keyed_reach hr
  obtain ⟨hsub, k, z, enc, phe, h1, h2, h3, h4, h5, h6, h7⟩ := ha
  generalize hs0 : prelude (.clientPin a) (.main cid) (s.withOracle o) = s0
  have hs : Smooth s0 := by subst hs0; exact ⟨ho, hk.2.2⟩
  have hp0 : s0.p = s.p := by subst hs0; rfl
  have hm0 : s0.v.pin.mismatches = s.v.pin.mismatches := by subst hs0; rfl
  have hpr : s0.v.pin.proto a.proto = s.v.pin.proto a.proto := by subst hs0; exact prelude_proto (s := s.withOracle o) _ _ _
  have e1 := ok_sharedSecret (s := { s0 with env := s0.env.next }) (agrees_congr hpr h2).key (agrees_congr hpr h2).secret
  have hs1 : Smooth { s0 with env := s0.env.next } := hs
  obtain ⟨n, s0', e5⟩ : Ok pinRetries s0 := Go.out _ hs
  obtain ⟨e6, rfl⟩ := pinRetries_ok e5
  obtain ⟨e, _, e2⟩ := verify_run (pr := a.proto) (z := z) (pin := old) hs1 h6 (by unfold St.PinIs at *; rw [← hp0] at hold; exact hold)
    (by show s0.v.pin.mismatches < 3; rw [hm0]; exact hm)
  have hs2 := smooth_of e2 hs1
  obtain ⟨e', _, e3⟩ := store_run (pr := a.proto) (z := z) (pin := pin) hs2 h4
    ⟨hp.nozero, hp.short, by
      have : ({ s0.p with pinRetries := none } : Persist).minPin = s.p.minPin := by unfold Persist.minPin; rw [← hp0]
      show ∃ cs, _ ∧ ({ s0.p with pinRetries := none } : Persist).minPin ≤ _; rw [this]; exact hp.long⟩
  have hs3 := smooth_of e3 hs2
  obtain ⟨_, s4, e7⟩ : Ok (resetToken .v1) _ := Go.out _ hs3
  have hs4 := smooth_of e7 hs3
  obtain ⟨_, s5, e8⟩ : Ok (resetToken .v2) s4 := Go.out _ hs4
  have e7' := resetToken_ok e7
  have e8' := resetToken_ok e8
  have hrun : clientPinCommand a s0 = (.ok none, s5) := by
    simp only [clientPinCommand, hsub, bind_ok, guardE_ok, pure_ok, processChangePin, req_ok]
    refine ⟨(), s0, ⟨by cases hpp : a.proto <;> simp_all, rfl⟩, (), s5, ?_, trivial, rfl⟩
    refine ⟨k, s0, ⟨h1, rfl⟩, _, s0, ⟨h7, rfl⟩, enc, s0, ⟨h3, rfl⟩, phe, s0, ⟨h5, rfl⟩, _, _, e5, (), _,
      ⟨by rw [e6, hp0]; simpa using hre, rfl⟩, _, _, e1, (), _, ?_, (), _, e2, (), _, e3, (), _, e7, e8⟩
    rw [liftE_ok]
    exact ⟨verify_of_spec, rfl⟩
  obtain ⟨b, t, g1, g2, g3, g4, _⟩ := pin_answered hk ho hmsg (hs0 ▸ hrun)
  obtain rfl := sent_none g2
  subst e7'
  subst e8'
  exact ⟨t, g1, ⟨pinChars pin, by rw [g3]⟩, by rw [g3]; rfl, by rw [g3], by rw [g4]; rfl⟩

/-- **C72**, the token: an honest request with the right PIN succeeds while attempts are left and the PIN need not be changed. What
the platform decrypts from the answer is the token of the device. All attempts are left afterwards, and for 30 seconds the token has the
permissions and the relying party that the platform asked for. -/
theorem C72_token {a : PinParams} {cid msg pin z : Bytes} {o : Oracle} {perms : UInt8} {rp : Option Bytes} (hr : Reach P true s) (ho : o.Calm)
    (hmsg : Command.deserialize msg = .ok (.clientPin a)) (hv : Dev.allowsPinV1 = true ∨ a.proto ≠ .v1)
    (hp : s.Accepts pin) (ha : a.Asks s.v.pin pin z perms rp) :
    ∃ ct b t, stepM (.ctap2 (.main cid) msg) (s.withOracle o) = (.ok (.ctap2 b), t) ∧
      (Response.clientPin (some { token := some ct })).SentAs b ∧
      PinSpec.decrypt a.proto z ct = some (t.v.pin.proto a.proto).token ∧
      t.PinIs pin ∧ t.p.retries = Dev.maxPinRetries ∧ t.p.forcePinChange = false ∧ t.v.pin.mismatches = 0 ∧
      ∀ (t' : St) perm rp', t'.p.pin = t.p.pin → t'.v.pin = t.v.pin → t'.env.now < s.env.now + 30000 →
        perm &&& perms ≠ 0 → (rp = none ∨ rp = some rp') → t'.TokenValid perm rp' := by
  have hk := keyed_reach hr
  obtain ⟨hsub, k, phe, h1, h2, h3, h4⟩ := ha
  generalize hs0 : prelude (.clientPin a) (.main cid) (s.withOracle o) = s0
  have hs : Smooth s0 := by subst hs0; exact ⟨ho, hk.2.2⟩
  have hp0 : s0.p = s.p := by subst hs0; rfl
  have hnow : s0.env.now = s.env.now := by subst hs0; rfl
  have hm0 : s0.v.pin.mismatches = s.v.pin.mismatches := by subst hs0; rfl
  have hpr : s0.v.pin.proto a.proto = s.v.pin.proto a.proto := by subst hs0; exact prelude_proto (s := s.withOracle o) _ _ _
  have e1 := ok_sharedSecret (s := { s0 with env := s0.env.next }) (agrees_congr hpr h2).key (agrees_congr hpr h2).secret
  have hs1 : Smooth { s0 with env := s0.env.next } := hs
  have hpin : St.PinIs { s0 with env := s0.env.next } pin := by
    have := hp.pin
    unfold St.PinIs at *; rw [← hp0] at this; exact this
  obtain ⟨e, _, e2⟩ := verify_run (pr := a.proto) (z := z) (pin := pin) hs1 h4 hpin
    (by show s0.v.pin.mismatches < 3; rw [hm0]; exact hp.attempts)
  have hs2 := smooth_of e2 hs1
  have hget : ∀ q : PinParams, q.proto = a.proto → q.keyAgreement = some k → q.pinHashEnc = some phe → q.permissions = none →
      q.permissionsRpId = none → Ok (processGetPinToken q) s0 := by
    intro q q1 q2 q3 q4 q5
    unfold processGetPinToken
    refine ok_bind (ok_req q2) fun _ s1 h => ?_
    rw [req_ok, q2] at h
    obtain ⟨h, rfl⟩ := h
    cases h
    refine ok_bind (ok_req q3) fun _ s1 h => ?_
    rw [req_ok, q3] at h
    obtain ⟨h, rfl⟩ := h
    cases h
    refine ok_bind (ok_guard (by simp [q4, q5])) fun _ s1 h => ?_
    rw [guardE_ok] at h
    obtain ⟨_, rfl⟩ := h
    refine ok_bind (Go.out _ hs) fun n s1 h => ?_
    obtain ⟨rfl, rfl⟩ := pinRetries_ok h
    refine ok_bind (ok_guard (by rw [hp0]; simpa using hp.retries)) fun _ s1 h => ?_
    rw [guardE_ok] at h
    obtain ⟨_, rfl⟩ := h
    rw [q1]
    refine ok_bind ⟨_, _, e1⟩ fun ss s1 h => ?_
    rw [e1] at h
    cases h
    refine ok_bind ⟨_, _, e2⟩ fun ss s1 h => ?_
    rw [e2] at h
    cases h
    refine ok_bind (Go.out _ hs2) fun n s1 h => ?_
    have hs3 := smooth_of h hs2
    obtain ⟨rfl, rfl⟩ := hasForce_ok h
    refine ok_bind (ok_guard (by have := hp.current; rw [← hp0] at this; simpa using this)) fun _ s1 h => ?_
    rw [guardE_ok] at h
    obtain ⟨_, rfl⟩ := h
    refine ok_bind (Go.out _ hs3) fun _ s4 h => ?_
    have hs4 := smooth_of h hs3
    have h' := resetToken_ok h
    refine ok_bind (Go.out _ hs4) fun _ s5 h => ?_
    have hs5 := smooth_of h hs4
    have h'' := resetToken_ok h
    have ht : ∀ pr, (s5.v.pin.proto pr).token.length = 32 := by
      intro pr
      rw [h'', h']
      cases pr <;> simp [ClientPin.setProto, ClientPin.proto]
    refine ok_bind (Go.out _ hs5) fun tm s6 h6 => ?_
    have hs6 := smooth_of h6 hs5
    rw [clock_ok] at h6
    refine ok_bind (Go.out _ hs6) fun _ s7 h7 => ?_
    have hs7 := smooth_of h7 hs6
    rw [modTok, modPin, modV_ok] at h7
    refine ok_bind (Go.out _ hs7) fun v s8 h8 => ?_
    have hs8 := smooth_of h8 hs7
    rw [getV_ok] at h8
    refine ok_bind ?_ fun _ _ _ => ok_pure _ _
    refine ok_encrypt hs8 ?_
    rw [h8.1, h7, h6.2]
    have := ht a.proto
    revert this
    cases a.proto <;> simp only [ClientPin.proto] <;> intro h <;> omega
  obtain ⟨r, s1, hrun, ct, hct⟩ : ∃ r s1, clientPinCommand a s0 = (.ok (some r), s1) ∧ ∃ ct, r = { token := some ct } := by
    have hg : Ok (guardE (Dev.allowsPinV1 || a.proto != .v1) .invalidParameter) s0 :=
      ok_guard (by cases hpp : a.proto <;> simp_all)
    have key : Ok (clientPinCommand a) s0 := by
      unfold clientPinCommand
      refine ok_bind hg fun _ s1 h => ?_
      rw [guardE_ok] at h
      obtain ⟨_, rfl⟩ := h
      rcases hsub with ⟨h, q1, q2, _⟩ | ⟨h, q1, q2, q3, q4⟩ <;> simp only [h]
      · refine ok_bind (hget a rfl h1 h3 q1 q2) fun _ s1 h => ?_
        exact ok_bind (Go.out _ (smooth_of h hs)) fun _ _ _ => ok_pure _ _
      · refine ok_bind ?_ fun _ s1 h => ok_bind (Go.out _ (smooth_of h hs)) fun _ _ _ => ok_pure _ _
        unfold processGetPinTokenWithPermissions
        refine ok_bind (ok_req q1) fun _ s1 h => ?_
        rw [req_ok, q1] at h
        obtain ⟨h, rfl⟩ := h
        cases h
        refine ok_bind (ok_guard (by simpa using q3)) fun _ s1 h => ?_
        rw [guardE_ok] at h
        obtain ⟨_, rfl⟩ := h
        refine ok_bind (ok_guard ?_) fun _ s1 h => ?_
        · rw [q2]
          cases rp with
          | none =>
            have : perms &&& 0x03 = 0 := Classical.byContradiction fun h => q4 h rfl
            simp [this]
          | some r => simp
        rw [guardE_ok] at h
        obtain ⟨_, rfl⟩ := h
        refine ok_bind (hget _ rfl h1 h3 rfl rfl) fun _ s1 h => ok_bind (Go.out _ (smooth_of h hs)) fun _ _ _ => ok_pure _ _
    obtain ⟨r, s1, h⟩ := key
    have h' := h
    simp only [clientPinCommand, bind_ok, guardE_ok] at h'
    obtain ⟨_, _, ⟨_, rfl⟩, h'⟩ := h'
    rcases hsub with ⟨hs, _⟩ | ⟨hs, _⟩ <;> simp only [hs, bind_ok, pure_ok] at h'
    · obtain ⟨r', _, h6, _, _, _, rfl, _⟩ := h'
      obtain ⟨_, _, _, _, _, _, _, ct, _, _, _, _, _, _, _, _, _, _, _, rfl, _⟩ := getPinToken_ok h6
      exact ⟨_, _, h, ct, rfl⟩
    · obtain ⟨r', _, h6, _, _, _, rfl, _⟩ := h'
      simp only [processGetPinTokenWithPermissions, bind_ok, pure_ok] at h6
      obtain ⟨_, _, _, _, _, _, _, _, _, r'', _, h6, _, _, _, rfl, _⟩ := h6
      obtain ⟨_, _, _, _, _, _, _, ct, _, _, _, _, _, _, _, _, _, _, _, rfl, _⟩ := getPinToken_ok h6
      exact ⟨_, _, h, ct, rfl⟩
  subst hct
  obtain ⟨ka, phe', z', hash, len, e, kk, tt, perms', rp', k1, k2, k3, k4, k5, k6, k7, k8, k9, k10, k11, k12, k13, k14, k15⟩ :=
    (tokenGranted hrun rfl).out
  obtain ⟨b, t, g1, g2, g3, g4, g5⟩ := pin_answered hk ho hmsg (hs0 ▸ hrun)
  rw [h1] at k1
  cases k1
  rw [hpr, h2.secret] at k3
  cases k3
  have hpp : perms' = perms ∧ rp' = rp := by
    rcases hsub with ⟨h, q1, q2, q3, q4⟩ | ⟨h, q1, q2, q3, q4⟩ <;> rcases k13 with ⟨h', w1, w2⟩ | ⟨h', w1, w2⟩
    · exact ⟨w1.trans q3.symm, w2.trans q4.symm⟩
    · rw [h] at h'; cases h'
    · rw [h] at h'; cases h'
    · rw [q1] at w1; cases w1; exact ⟨rfl, w2.trans q2⟩
  obtain ⟨rfl, rfl⟩ := hpp
  refine ⟨ct, b, t, g1, g2, by rw [g4]; exact k14, ?_, by rw [g3, k15]; rfl, by rw [g3, k15]; exact k8, by rw [g4, k15], ?_⟩
  · obtain ⟨len, hl⟩ := hpin
    exact ⟨len, by rw [g3, k15]; exact hl⟩
  · intro t' perm rp'' w1 w2 w3 w4 w5
    rw [g3] at w1
    rw [g4] at w2
    subst k15
    have w6 : t'.v.pin.tok = { permissions := perms', rpId := rp', timer := makeTimer tt 30000, userVerified := true, inUse := true } := by
      rw [w2]
    refine ⟨by rw [w1]; show s0.p.pin.isSome; rw [k4]; rfl, by rw [w6], by rw [w6], ?_, by rw [w6]; exact w4, by rw [w6]; exact w5⟩
    rw [w6]
    rw [hnow] at k11
    simp only [makeTimer, Verif.Hid.makeTimer, Hid.Timer.isElapsed]
    simp only [decide_eq_false_iff_not]
    omega

/-! ## The PIN stays -/

/-- The PIN data, and that attempts are left since power-up. -/
def PinKept (p : Persist) (s : St) : Prop :=
  s.p.pin = p.pin ∧ s.p.pinRetries = p.pinRetries ∧ s.p.forcePinChange = p.forcePinChange ∧ s.v.pin.mismatches < 3

section
variable (p : Persist)
instance : SEnv (PinKept p) := ⟨fun _ _ _ _ h => h⟩
instance (P : Oracle → Prop) : SOra P (PinKept p) := ⟨fun _ _ _ h => h⟩
stable_instances (PinKept p) under SMaster SCreds SMinPin SRpIds SEp SAlwaysUv SLargeBlob SU2f SSp SLb STok SKeys
  SPresence SCompare SIssued SConsumed SU2fPrompt SU2fConsume SU2fTouch SCounterEv SCounter

instance : Pres (PinKept p) bootM := by
  constructor
  intro s h
  obtain ⟨e, _, _, ⟨_, h1⟩ | ⟨p1, p2, h1⟩⟩ := bootM_cases s <;> rw [h1]
  · exact h
  · exact ⟨h.1, h.2.1, h.2.2.1, Nat.zero_lt_succ 2⟩

theorem kept_command {cmd : Command} {ch : Channel} (hc : ¬ cmd.concernsPin) (h : PinKept p s) : PinKept p (channelCommand ch cmd s).2 := by
  cases ch with
  | vendor c => cases cmd <;> unfold channelCommand vendorChannelCommand <;> exact Pres.out (I := PinKept p) (self := by pres) _ h
  | main c =>
    cases cmd with
    | credMgmt a =>
      exact Pres.out (I := PinKept p) (m := credentialManagement a _) _ h
    | makeCredential a => exact Pres.out (I := PinKept p) (m := makeCredential a) _ h
    | reset => exact absurd trivial hc
    | getAssertion a => exact Pres.out (I := PinKept p) (m := getAssertion a _) _ h
    | getNextAssertion => exact Pres.out (I := PinKept p) (m := getNextAssertion) _ h
    | getInfo => exact Pres.out (I := PinKept p) (m := getInfo) _ h
    | clientPin a =>
      have : a.sub = .getPinRetries ∨ a.sub = .getKeyAgreement := by
        by_cases h1 : a.sub = .getPinRetries
        · exact .inl h1
        · by_cases h2 : a.sub = .getKeyAgreement
          · exact .inr h2
          · exact absurd ⟨h1, h2⟩ hc
      refine Pres.out (I := PinKept p) (m := do let r ← clientPinCommand a; M.pure (Response.clientPin r)) (self := ?_) _ h
      unfold clientPinCommand
      rcases this with e | e <;> simp only [e] <;> pres
    | selection => exact Pres.out (I := PinKept p) (m := selection) _ h
    | largeBlobs a => exact Pres.out (I := PinKept p) (m := largeBlobsCommand a) _ h
    | config a => exact absurd trivial hc
end

theorem kept_without {kind : Command → Prop} {I : St → Prop} [SEnv I] [hO : SOra P I] [hb : Pres I bootM] [∀ m, Pres I (processU2f m)]
    [Pres I touchButton] [∀ r, Pres I (respond r)] (hs : ∀ cmd ch s, ¬ kind cmd → I s → I (processParsed cmd ch s).2)
    (h : Without P kind s s') (h0 : I s) : I s' := by
  induction h with
  | start => exact h0
  | boot h ho ih => exact hb.out _ (hO.out _ _ ho ih)
  | @step s1 o i h ho hi ih =>
    by_cases h : ∃ ch msg cmd, i = .ctap2 ch msg ∧ Command.deserialize msg = .ok cmd
    · obtain ⟨ch, msg, cmd, rfl, hd⟩ := h
      exact stepM_msg hd (hs cmd ch _ (hi ch msg cmd rfl hd) (hO.out _ _ ho ih))
    · exact stepM_idle (fun ch msg cmd h1 h2 => h ⟨ch, msg, cmd, h1, h2⟩) (hO.out _ _ ho ih)

/-- **C72**, the PIN stays: whatever happens (requests of other kinds, U2F, failures, power cuts, restarts), as long as no request
concerns the PIN and the device is not reset, the PIN that was accepted is still accepted. -/
theorem C72_kept {pin : Bytes} (hp : s.Accepts pin) (h : Without P Command.concernsPin s s') : s'.Accepts pin := by
  obtain ⟨h1, h2, h3, h4⟩ : PinKept s.p s' := kept_without (I := PinKept s.p)
    (fun cmd ch t hn ht => by rw [processParsed_eq]; exact kept_command _ hn ht) h ⟨rfl, rfl, rfl, hp.attempts⟩
  obtain ⟨⟨len, g1⟩, g2, g3, g4⟩ := hp
  exact ⟨⟨len, h1.trans g1⟩, by unfold Persist.retries at *; rw [h2]; exact g2, h4, h3.trans g4⟩

/-! ## From the PIN to the login -/

/-- The credentials and the master keys. -/
def KeepSecrets (p : Persist) (s : St) : Prop := s.p.creds = p.creds ∧ s.p.master = p.master

section
variable (p : Persist)
instance : SEnv (KeepSecrets p) := ⟨fun _ _ _ _ h => h⟩
stable_instances (KeepSecrets p) under SMinPin SRpIds SForce SEp SAlwaysUv SLargeBlob SPin SRetries STok SMis SKeys SU2f SSp SLb
  SPresence SCompare SIssued SConsumed SU2fPrompt SU2fConsume SU2fTouch SCounterEv SCounter
end

theorem clientPin_secrets {a : PinParams} {msg : Bytes} (hd : Command.deserialize msg = .ok (.clientPin a)) (ch : Channel) :
    KeepSecrets s.p (stepM (.ctap2 ch msg) s).2 := by
  refine stepM_msg hd ?_
  rw [processParsed_eq]
  cases ch with
  | vendor c => exact ⟨rfl, rfl⟩
  | main c => exact Pres.out (I := KeepSecrets s.p) (m := do let r ← clientPinCommand a; M.pure (Response.clientPin r)) _ ⟨rfl, rfl⟩

/-- **C72**, from the PIN to the login: the platform asks for a token with the right PIN, decrypts the answer, and within 30 seconds
of the request sends a login with the tag of the client data hash under the token that it decrypted; the user touches the device, and
nothing fails.  The login is answered with a signature of the credential. -/
theorem C72_login {q : PinParams} {a : GaParams} {cid msg cid' msg' pin z sk : Bytes} {o o' : Oracle} {perms : UInt8} {rp : Option Bytes}
    {d : Descriptor} {p : Option Policy} (hr : Reach P true s) (hP : P o)
    -- the request for the token
    (hq : Command.deserialize msg = .ok (.clientPin q)) (hv : Dev.allowsPinV1 = true ∨ q.proto ≠ .v1) (ho : o.Calm)
    (hp : s.Accepts pin) (hask : q.Asks s.v.pin pin z perms rp) (hperm : 0x02 &&& perms ≠ 0) (hrp : rp = none ∨ rp = some a.rpId) :
    ∃ ct token b t, stepM (.ctap2 (.main cid) msg) (s.withOracle o) = (.ok (.ctap2 b), t) ∧
      (Response.clientPin (some { token := some ct })).SentAs b ∧
      PinSpec.decrypt q.proto z ct = some token ∧ (t.v.pin.proto q.proto).token = token ∧
      -- the login
      (t.env.now < s.env.now + 30000 →
        Command.deserialize msg' = .ok (.getAssertion a) → o'.Calm → o'.Confirms →
        a.authProto = some q.proto → a.authParam = some (PinSpec.tag q.proto token a.clientDataHash) → a.ext.hmacSecret = none →
        a.allowList = some [d] → s.Proper d.id → s.Has a.rpId d.id sk p → CanSign sk →
        ∃ g b' t', stepM (.ctap2 (.main cid') msg') (t.withOracle o') = (.ok (.ctap2 b'), t') ∧ (Response.getAssertion g).SentAs b' ∧
          g.credential.id = d.id ∧ Dev.ecdsaSign sk (g.authData ++ a.clientDataHash) = some g.signature) := by
  obtain ⟨ct, b, t, h1, h2, h3, h4, _, _, _, h5⟩ := C72_token (cid := cid) hr ho hq hv hp hask
  refine ⟨ct, _, b, t, h1, h2, h3, rfl, fun k2 k3 k4 k5 k6 k7 k8 k9 k10 k11 k12 => ?_⟩
  have hr' : Reach P true t := by
    have := Reach.step o hP (.ctap2 (.main cid) msg) hr
    rwa [h1] at this
  have hst : t.p.creds = s.p.creds ∧ t.p.master = s.p.master := by
    have := clientPin_secrets (s := s.withOracle o) hq (.main cid)
    rw [h1] at this
    exact this
  refine C71_listed (pre := []) (post := []) (d := d) (p := p) hr' k3 ⟨k4, fun _ => k5, fun h => by simp [k7] at h, ?_, fun h hh => by simp [k8] at hh⟩
    k9 (by simp) ?_ ?_ ?_ k12
  · rw [k6, k7]
    exact ⟨q.proto, rfl, rfl, h5 t 0x02 a.rpId rfl rfl k2 hperm hrp⟩
  · unfold St.Proper St.stored at *
    rw [hst.1, hst.2]
    exact k10
  · unfold St.Has St.stored at *
    rw [hst.1, hst.2]
    exact k11
  · simp [VisibleById, k7]

end
end Verif.Ctap

namespace Verif.Ctap.Toy
set_option maxRecDepth 100000

/-- The PIN request in a message. -/
def pinOf (i : Input) : Option PinParams :=
  match Command.deserialize (body i) with
  | .ok (.clientPin a) => some a
  | _ => none

theorem pinOf_parsed {i : Input} {a : PinParams} (h : pinOf i = some a) : Command.deserialize (body i) = .ok (.clientPin a) := by
  unfold pinOf at h
  split at h
  · next h' => cases h; exact h'
  · cases h

/-- The key agreement key of the platform. -/
def platformKey : CoseKey := { x := x, y := x, alg := -25, kty := 2, crv := 1 }

theorem agrees (c : ClientPin) : c.Agrees .v1 platformKey x := ⟨⟨.inl rfl, rfl, rfl⟩, rfl⟩

/-- The parameters of the requests. -/
def setOf : PinParams :=
  { proto := .v1, sub := .setPin, keyAgreement := some platformKey, authParam := some (mac (newPinEnc pin)), newPinEnc := some (newPinEnc pin) }

def changeOf (old new : Bytes) : PinParams :=
  { proto := .v1, sub := .changePin, keyAgreement := some platformKey, newPinEnc := some (newPinEnc new), pinHashEnc := some (pinHashEnc old),
    authParam := some (mac (newPinEnc new ++ pinHashEnc old)) }

def askOf (pin : Bytes) (perm : UInt8) (rp : Bytes) : PinParams :=
  { proto := .v1, sub := .getPinTokenWithPermissions, keyAgreement := some platformKey, pinHashEnc := some (pinHashEnc pin),
    permissions := some perm, permissionsRpId := some rp }

/-- The new PIN. -/
def pin2 : Bytes := b! "längste PIN"

/-- C72: a PIN is set on a fresh device, and it is then accepted. -/
theorem ex_set : (step good (setPin pin) booted).Accepts pin := by
  obtain ⟨t, h1, h2, h3, h4, h5⟩ := C72_set (P := fun _ => True) (cid := [1, 2, 3, 4]) (pin := pin) (a := setOf) (msg := body (setPin pin))
    (reach_booted trivial) good_calm (pinOf_parsed (by decide +kernel)) (.inl rfl) (by decide +kernel)
    ⟨rfl, platformKey, x, newPinEnc pin, rfl, agrees _, rfl, by decide +kernel, by decide +kernel⟩
    ⟨by decide +kernel, by decide +kernel, [49, 50, 51, 52], by decide +kernel, by decide +kernel⟩
  have : step good (setPin pin) booted = t := congrArg Prod.snd h1
  rw [this]
  exact ⟨h2, by rw [h3]; decide, by rw [h5]; decide +kernel, h4⟩

/-- The device with a credential and this PIN. -/
def pinned : St := step good (setPin pin) (step good (register rpA [1] true none) booted)

theorem reach_pinned {P : Oracle → Prop} (h : P good) : Reach P true pinned :=
  reach_step good h _ (reach_step good h _ (reach_booted h) (by decide +kernel)) (by decide +kernel)

theorem pinned_accepts : pinned.Accepts pin := ⟨⟨4, by decide +kernel⟩, by decide +kernel, by decide +kernel, by decide +kernel⟩

/-- C72: the PIN is still accepted after a registration and a power cycle; then it is changed, to one with a character of two bytes. -/
example : (step good (changePin pin pin2) (boot good (step good (register rpB [2] false none) pinned))).Accepts pin2 := by
  have h0 : (boot good (step good (register rpB [2] false none) pinned)).Accepts pin := by
    refine C72_kept (P := fun _ => True) pinned_accepts (.boot (.step (o := good) (i := register rpB [2] false none) .start trivial ?_) trivial)
    intro ch msg cmd h1 h2
    cases h1
    obtain rfl : cmd = parse (register rpB [2] false none) := by
      show cmd = (match Command.deserialize (body (register rpB [2] false none)) with | .ok c => c | .error _ => .getInfo)
      rw [show Command.deserialize (body (register rpB [2] false none)) = _ from h2]
    have h3 : (match parse (register rpB [2] false none) with | .makeCredential _ => true | _ => false) = true := by decide +kernel
    split at h3
    · next e => rw [e]; exact id
    · cases h3
  obtain ⟨t, h1, h2, h3, h4, h5⟩ := C72_change (P := fun _ => True) (cid := [1, 2, 3, 4]) (old := pin) (pin := pin2) (a := changeOf pin pin2)
    (s := boot good (step good (register rpB [2] false none) pinned))
    (msg := body (changePin pin pin2))
    (reach_boot good trivial (reach_step good trivial _ (reach_pinned trivial) (by decide +kernel)) (by decide +kernel))
    good_calm (pinOf_parsed (by decide +kernel)) (.inl rfl) h0.pin h0.retries h0.attempts
    ⟨rfl, platformKey, x, newPinEnc pin2, pinHashEnc pin, rfl, agrees _, rfl, by decide +kernel, rfl, by decide +kernel, by decide +kernel⟩
    ⟨by decide +kernel, by decide +kernel, "längste PIN".toList.map (·.toNat), by decide +kernel, by decide +kernel⟩
  have : step good (changePin pin pin2) (boot good (step good (register rpB [2] false none) pinned)) = t := congrArg Prod.snd h1
  rw [this]
  exact ⟨h2, by rw [h3]; decide, by rw [h5]; decide, h4⟩

/-- The state after the request for a token, and the login with it. -/
def tokened : St := step good (getTokenPerm pin 2 (some rpA)) pinned
def storedId : Bytes := match pinned.stored with | c :: _ => c.id | [] => []
def login : Input := assert rpA (some [storedId]) (some (tokenMac tokened cdh))

/-- C72: from the PIN to the login. -/
example : ∃ g b t, stepM login (tokened.withOracle good) = (.ok (.ctap2 b), t) ∧ (Response.getAssertion g).SentAs b ∧
    g.credential.id = storedId := by
  obtain ⟨a, ha⟩ : ∃ a, gaOf login = some a := Option.isSome_iff_exists.1 (by decide +kernel)
  have e : (gaOf login).map (fun a => (a.authParam, a.authProto, a.rpId, a.allowList)) =
    some (some (tokenMac tokened cdh), some .v1, rpA, some [{ id := storedId }]) := by decide +kernel
  have e' : (gaOf login).map (fun a => (a.ext.hmacSecret.isNone, a.clientDataHash)) = some (true, cdh) := by decide +kernel
  rw [ha] at e e'
  simp only [Option.map_some, Option.some.injEq, Prod.mk.injEq, Option.isNone_iff_eq_none] at e e'
  obtain ⟨e1, e2, e3, e4⟩ := e
  obtain ⟨e5, e6⟩ := e'
  obtain ⟨c, hc⟩ : ∃ c, pinned.stored = [c] := by
    have : pinned.stored.length = 1 := by decide +kernel
    exact List.length_eq_one_iff.1 this
  have hid : storedId = c.id := by unfold storedId; rw [hc]
  have hrp : c.rpId = rpA := by
    have : pinned.stored.all (fun c => c.rpId == rpA) = true := by decide +kernel
    rw [hc] at this
    simpa using this
  obtain ⟨ct, token, b, t, h1, h2, _, h4, h3⟩ := C72_login (P := fun _ => True) (cid := [1, 2, 3, 4]) (cid' := [1, 2, 3, 4]) (a := a) (q := askOf pin 2 rpA)
    (msg := body (getTokenPerm pin 2 (some rpA))) (msg' := body login) (s := pinned) (o := good) (o' := good) (d := { id := storedId }) (sk := c.sk)
    (p := c.policy) (pin := pin) (z := x) (perms := 2) (rp := some rpA) (reach_pinned trivial) trivial (pinOf_parsed (by decide +kernel)) (.inl rfl)
    good_calm pinned_accepts ⟨.inr ⟨rfl, rfl, rfl, by decide, by simp⟩, platformKey, pinHashEnc pin, rfl, agrees _, rfl, by decide +kernel⟩ (by decide)
    (.inr (by rw [e3]))
  have ht : t = tokened := congrArg Prod.snd h1.symm
  subst ht
  obtain ⟨g, b', t', k1, k2, k3, _⟩ := h3 (by decide +kernel) (gaOf_parsed ha) good_calm good_confirms e2
    (by rw [e1, e6, ← h4]; rfl) e5 e4 ⟨by rw [hc]; simp [hid], fun _ _ ht => absurd ht.1 (by decide +kernel)⟩ (.inl ⟨c, ⟨by rw [hc]; simp, hid.symm, by rw [hrp, e3]⟩, rfl, rfl⟩) (canSign _)
  exact ⟨g, b', t', k1, k2, k3⟩

end Verif.Ctap.Toy
