import Verif.Ctap.LogLemmas

/-!
# Inversion of successful runs: explicit results and states
-/
namespace Verif.Ctap
set_option linter.unusedSectionVars false
variable [Dev]

/-! ## The common start of all CTAP2 commands -/

/-- The state after the common start of `process_parsed_command`. -/
def prelude (cmd : Command) (ch : Channel) (s : St) : St :=
  { s with v :=
    { pin := { s.v.pin with tok := s.v.pin.tok.observe s.env.now }
      u2f := U2fUp.new
      sp := if keepsStateful cmd ((s.v.sp.clearOldChannels ch).clearTimer s.env.now).cmd
            then (s.v.sp.clearOldChannels ch).clearTimer s.env.now else .cleared
      lb := s.v.lb } }

theorem processParsed_eq (cmd : Command) (ch : Channel) (s : St) :
    processParsed cmd ch s = channelCommand ch cmd (prelude cmd ch s) := by
  simp only [processParsed, bind_def, M.bind, updateTimeouts, clock, modTok, modPin, modV, clearOtherChannels,
    getCommand, modSp, getV, M.pure, whenM, prelude]
  cases h : keepsStateful cmd ((s.v.sp.clearOldChannels ch).clearTimer s.env.now).cmd <;> simp [modV, M.pure]

/-- Only the main channel offers the commands other than getInfo. -/
theorem channelCommand_ok {ch : Channel} {cmd : Command} {s s' : St} {r : Response}
    (h : channelCommand ch cmd s = (.ok r, s')) (hc : cmd ≠ .getInfo) :
    (∃ cid, ch = .main cid) ∧ fidoCommand ch cmd s = (.ok r, s') := by
  cases ch with
  | main cid => exact ⟨⟨cid, rfl⟩, h⟩
  | vendor cid => cases cmd <;> simp_all [channelCommand, vendorChannelCommand, fail]

theorem processParsed_ok {ch : Channel} {cmd : Command} {s s' : St} {r : Response}
    (h : processParsed cmd ch s = (.ok r, s')) (hc : cmd ≠ .getInfo) :
    (∃ cid, ch = .main cid) ∧ fidoCommand ch cmd (prelude cmd ch s) = (.ok r, s') := by
  rw [processParsed_eq] at h
  exact channelCommand_ok h hc

/-! ## Environment -/

/-- Time and interactions go forward, the oracle stays. -/
structure Env.Le (e e' : Env) : Prop where
  now : e.now ≤ e'.now
  k : e.k ≤ e'.k
  o : e'.o = e.o

theorem Env.Le.refl (e : Env) : e.Le e := ⟨Nat.le_refl _, Nat.le_refl _, rfl⟩
theorem Env.Le.trans {a b c : Env} (h1 : a.Le b) (h2 : b.Le c) : a.Le c :=
  ⟨Nat.le_trans h1.now h2.now, Nat.le_trans h1.k h2.k, h2.o.trans h1.o⟩
theorem Env.le_next (e : Env) : e.Le e.next := ⟨next_now_le _, Nat.le_succ _, rfl⟩
theorem Env.Le.next {a b : Env} (h : a.Le b) : a.Le b.next := h.trans (Env.le_next b)

/-! ## Simple functions -/

theorem read_ok {g : Persist → α} {a : α} {s s' : St} (h : (do let p ← readP; M.pure (g p)) s = (.ok a, s')) :
    a = g s.p ∧ s' = { s with env := s.env.next } := by
  rw [bind_ok] at h
  obtain ⟨p, s1, h1, h2⟩ := h
  obtain ⟨rfl, rfl⟩ := readP_ok h1
  rw [pure_ok] at h2
  exact ⟨h2.1.symm, h2.2.symm⟩

theorem pinHash_ok {h : Option Bytes} {s s' : St} (hh : pinHash s = (.ok h, s')) :
    h = s.p.pin.map (·.1) ∧ s' = { s with env := s.env.next } := read_ok hh
theorem pinRetries_ok {n : Nat} {s s' : St} (hh : pinRetries s = (.ok n, s')) :
    n = s.p.retries ∧ s' = { s with env := s.env.next } := read_ok hh
theorem minPinLength_ok {n : Nat} {s s' : St} (hh : minPinLength s = (.ok n, s')) :
    n = s.p.minPin ∧ s' = { s with env := s.env.next } := read_ok hh
theorem hasForce_ok {b : Bool} {s s' : St} (hh : hasForcePinChange s = (.ok b, s')) :
    b = s.p.forcePinChange ∧ s' = { s with env := s.env.next } := read_ok hh
theorem codePoints_ok {h : Option Nat} {s s' : St} (hh : pinCodePointLength s = (.ok h, s')) :
    h = s.p.pin.map (·.2) ∧ s' = { s with env := s.env.next } := read_ok hh
theorem signatureCounter_ok {n : Nat} {s s' : St} (hh : signatureCounter s = (.ok n, s')) :
    n = s.p.counter.getD 1 ∧ s' = { s with env := s.env.next } := read_ok hh

/-- The always-UV setting in force. -/
def Persist.uvRequired (p : Persist) : Bool := Dev.enforceAlwaysUv || p.alwaysUv

theorem hasAlwaysUv_ok {b : Bool} {s s' : St} (hh : hasAlwaysUv s = (.ok b, s')) :
    b = s.p.uvRequired ∧ ∃ e, s.env.Le e ∧ s' = { s with env := e } := by
  simp only [hasAlwaysUv] at hh
  split at hh
  · rename_i h
    rw [pure_ok] at hh
    exact ⟨by simp [Persist.uvRequired, h, hh.1.symm], s.env, .refl _, hh.2.symm⟩
  · rename_i h
    obtain ⟨h1, h2⟩ := read_ok hh
    exact ⟨by simp [Persist.uvRequired, h, h1], _, Env.le_next _, h2⟩

/-! ## PIN -/

theorem getSharedSecret_ok {pr : Proto} {k : CoseKey} {ss : SharedSecret} {s s' : St}
    (h : getSharedSecret pr k s = (.ok ss, s')) :
    (s.v.pin.proto pr).decapsulate pr k = .ok ss ∧ s' = s := by
  simp only [getSharedSecret, bind_ok, getV_ok, liftE_ok] at h
  obtain ⟨v, s1, ⟨rfl, rfl⟩, h2, h3⟩ := h
  exact ⟨h2, h3.symm⟩

theorem decapsulate_ok {p : PinProtocol} {pr : Proto} {k : CoseKey} {ss : SharedSecret}
    (h : p.decapsulate pr k = .ok ss) : ∃ z, Dev.ecdh p.sk k.x k.y = some z ∧ ss = SharedSecret.new pr z := by
  simp only [PinProtocol.decapsulate, CoseKey.ecdhCoordinates] at h
  split at h
  · simp at h
  · rename_i x y hk
    split at hk
    · simp at hk
    · split at hk
      · simp at hk
      · simp at hk
        obtain ⟨rfl, rfl⟩ := hk
        split at h <;> simp at h
        rename_i z hz
        exact ⟨z, hz, h.symm⟩

theorem decrPinRetries_ok {s s' : St} {u : Unit} (h : decrPinRetries s = (.ok u, s')) :
    ∃ e, s.env.Le e ∧ s' = { s with env := e, p := { s.p with pinRetries := s'.p.pinRetries } } ∧
      s'.p.retries = s.p.retries - 1 := by
  simp only [decrPinRetries, bind_ok] at h
  obtain ⟨n, s1, h1, h2⟩ := h
  obtain ⟨rfl, rfl⟩ := pinRetries_ok h1
  split at h2
  · have := writeP_ok h2
    subst this
    exact ⟨_, (Env.le_next _).next, rfl, by simp [Persist.retries]⟩
  · rename_i h3
    rw [pure_ok] at h2
    obtain ⟨_, rfl⟩ := h2
    exact ⟨_, Env.le_next _, rfl, by simp at h3; simp; omega⟩

theorem regenerate_ok {pr : Proto} {s s' : St} {u : Unit} (h : regenerate pr s = (.ok u, s')) :
    s' = { s with env := s.env.next, v := { s.v with pin := (s.v.pin.setProto pr
        { s.v.pin.proto pr with sk := (List.range 32).map (s.env.o.rnd s.env.k) }) } } := by
  simp only [regenerate, bind_ok, modPin, modV_ok] at h
  obtain ⟨b, s1, h1, h2⟩ := h
  obtain ⟨rfl, rfl⟩ := rng_ok h1
  exact h2

theorem resetToken_ok {pr : Proto} {s s' : St} {u : Unit} (h : resetToken pr s = (.ok u, s')) :
    s' = { s with env := s.env.next, v := { s.v with pin := (s.v.pin.setProto pr
        { s.v.pin.proto pr with token := (List.range 32).map (s.env.o.rnd s.env.k) }) } } := by
  simp only [resetToken, bind_ok, modPin, modV_ok] at h
  obtain ⟨b, s1, h1, h2⟩ := h
  obtain ⟨rfl, rfl⟩ := rng_ok h1
  exact h2

theorem verifyPinHashEnc_ok {pr : Proto} {ss : SharedSecret} {phe : Bytes} {s s' : St} {u : Unit}
    (h : verifyPinHashEnc pr ss phe s = (.ok u, s')) :
    ∃ hash len e, s.p.pin = some (hash, len) ∧ s.v.pin.mismatches < 3 ∧ ss.decrypt phe = .ok hash ∧ s.env.Le e ∧
      s' = { env := e, p := { s.p with pinRetries := none }, log := .pinCompare true :: s.log,
             v := { s.v with pin := { s.v.pin with mismatches := 0 } } } := by
  simp only [verifyPinHashEnc, bind_ok] at h
  obtain ⟨h0, s1, h1, h2⟩ := h
  obtain ⟨rfl, rfl⟩ := pinHash_ok h1
  cases hp : s.p.pin with
  | none => simp [hp, fail_ok] at h2
  | some q =>
    obtain ⟨hash, len⟩ := q
    simp only [hp, Option.map_some, bind_ok, getV_ok, guardE_ok] at h2
    obtain ⟨v, s2, ⟨rfl, rfl⟩, _, s3, ⟨hm, rfl⟩, _, s4, h3, h4⟩ := h2
    obtain ⟨e, he, h5, h6⟩ := decrPinRetries_ok h3
    cases hd : ss.decrypt phe with
    | error e => simp [hd, fail_ok] at h4
    | ok dec =>
    simp only [hd] at h4
    simp only [comparePin, bind_ok, logE_ok, pure_ok] at h4
    obtain ⟨b, s5, ⟨_, s6, rfl, rfl, rfl⟩, h7⟩ := h4
    split at h7
    · rename_i heq
      simp only [bind_ok, modPin, modV_ok] at h7
      obtain ⟨_, s7, h8, rfl⟩ := h7
      have h9 := writeP_ok (by exact h8 : writeP _ _ _ = _)
      have heq' : hash = dec := by simpa using heq
      subst heq'
      refine ⟨hash, len, s4.env.next, rfl, by simpa using hm, rfl, ?_, ?_⟩
      · rw [h5]; exact (Env.Le.trans (Env.le_next _) he).next
      · rw [h9, h5]; simp
    · simp [bind_ok, fail_ok] at h7

theorem aesEncrypt_ok {key pt ct : Bytes} {b : Bool} {s s' : St} (h : aesEncrypt key pt b s = (.ok ct, s')) :
    (∃ e, s.env.Le e ∧ s' = { s with env := e }) ∧
    ∃ iv : Bytes, (b = true → iv.length = 16) ∧ Verif.Crypto.aesCbcEncrypt (Dev.aesEnc key) iv pt b = .ok ct := by
  simp only [aesEncrypt, bind_ok, drawIv] at h
  obtain ⟨iv, s1, h1, h2⟩ := h
  have h3 : Verif.Crypto.aesCbcEncrypt (Dev.aesEnc key) iv pt b = .ok ct ∧ s1 = s' := by
    cases hc : Verif.Crypto.aesCbcEncrypt (Dev.aesEnc key) iv pt b <;> simp [hc, liftWrap, M.pure, fail, panicM] at h2
    exact ⟨by rw [h2.1], h2.2⟩
  obtain ⟨h3, rfl⟩ := h3
  split at h1
  · exact ⟨⟨_, Env.le_next _, (rng_ok h1).2⟩, iv, fun _ => rng_length h1, h3⟩
  · rename_i hn
    rw [pure_ok] at h1
    refine ⟨⟨s.env, .refl _, h1.2.symm⟩, iv, fun hb => ?_, h3⟩
    subst hb
    exfalso
    simp only [Bool.true_and, beq_iff_eq] at hn
    simp only [Verif.Crypto.aesCbcEncrypt] at h3
    split at h3 <;> simp_all

theorem getPinToken_ok {a : PinParams} {s s' : St} {r : PinResponse} (h : processGetPinToken a s = (.ok r, s')) :
    ∃ ka phe z hash len e k ct, a.keyAgreement = some ka ∧ a.pinHashEnc = some phe ∧
      Dev.ecdh (s.v.pin.proto a.proto).sk ka.x ka.y = some z ∧
      s.p.pin = some (hash, len) ∧ s.p.retries ≠ 0 ∧ s.v.pin.mismatches < 3 ∧
      (SharedSecret.new a.proto z).decrypt phe = .ok hash ∧ s.p.forcePinChange = false ∧ s.env.Le e ∧ s.env.k ≤ k ∧
      (∃ t, s.env.now ≤ t ∧ t ≤ e.now ∧ s' =
           { env := e, p := { s.p with pinRetries := none },
             log := .pinCompare true :: s.log,
             v := { s.v with pin :=
              { p1 := { s.v.pin.p1 with token := (List.range 32).map (s.env.o.rnd k) },
                p2 := { s.v.pin.p2 with token := (List.range 32).map (s.env.o.rnd (k + 1)) },
                mismatches := 0,
                tok := { permissions := 0x03, rpId := none, timer := makeTimer t 30000, userVerified := true,
                         inUse := true } } } }) ∧
      r = { token := some ct } ∧
      ∃ iv : Bytes, (a.proto.embedsIv = true → iv.length = 16) ∧
        Verif.Crypto.aesCbcEncrypt (Dev.aesEnc (SharedSecret.new a.proto z).aesKey) iv (s'.v.pin.proto a.proto).token
          a.proto.embedsIv = .ok ct := by
  simp only [processGetPinToken, bind_ok, req_ok, guardE_ok, clock_ok, getV_ok, modTok, modPin, modV_ok, pure_ok] at h
  obtain ⟨ka, _, ⟨hka, rfl⟩, phe, _, ⟨hphe, rfl⟩, _, _, ⟨_, rfl⟩, n, s1, h1, _, _, ⟨hn, rfl⟩, ss, s2, h2, _, s3, h3,
    f, s4, h4, _, _, ⟨hf, rfl⟩, _, s5, h5, _, s6, h6, t, s7, ⟨rfl, rfl⟩, _, s8, h8, v, s9, ⟨rfl, rfl⟩, ct, s10, h10,
    rfl, rfl⟩ := h
  obtain ⟨rfl, rfl⟩ := pinRetries_ok h1
  obtain ⟨h2', rfl⟩ := getSharedSecret_ok h2
  obtain ⟨z, hz, rfl⟩ := decapsulate_ok h2'
  obtain ⟨hash, len, e, hp, hm, hd, he, rfl⟩ := verifyPinHashEnc_ok h3
  obtain ⟨rfl, rfl⟩ := hasForce_ok h4
  have h5 := resetToken_ok h5
  subst h5
  have h6 := resetToken_ok h6
  subst h6
  subst h8
  have hpr : (SharedSecret.new a.proto z).proto = a.proto := by cases a.proto <;> rfl
  simp only [SharedSecret.encrypt, hpr] at h10
  obtain ⟨⟨e', he', rfl⟩, iv, hiv, hct⟩ := aesEncrypt_ok h10
  have hle : s.env.Le e := (Env.le_next _).trans he
  refine ⟨ka, phe, z, hash, len, e', e.next.k, ct, hka, hphe, hz, hp, by simpa using hn, hm, hd, by simpa using hf,
    ?_, ?_, ⟨e.next.next.next.now, ?_, he'.now, ?_⟩, rfl, iv, hiv, hct⟩
  · exact hle.next.next.next.trans he'
  · exact hle.next.k
  · exact hle.next.next.next.now
  · have ho : e.o = s.env.o := he.o
    simp only [ClientPin.setProto, ClientPin.proto, TokenState.beginUsing, Env.next, ho]

end Verif.Ctap
