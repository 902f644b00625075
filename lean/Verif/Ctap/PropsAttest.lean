import Verif.Ctap.PropsAuthData
import Verif.Ctap.PropsKept

/-!
# C82: certificates that identify the device
-/
namespace Verif.Ctap

section
variable [Dev] {P : Oracle → Prop} {s s' : St} {ch : Channel}

/-! ## Specification -/

/-- The request asks for enterprise attestation, it is switched on, and the device gives it in this case: if platform and vendor
have agreed on platform-managed attestation, or to relying parties that the vendor chose. -/
def EpGranted (a : McParams) (s : St) : Prop :=
  ∃ n mode, a.enterprise = some n ∧ s.p.enterprise = true ∧ Dev.epMode = some mode ∧
    (n = 2 ∧ mode = .platformManaged ∨ a.rp.id ∈ Dev.epRpIds)

/-- The request is meant to switch enterprise attestation on. -/
def Command.enablesEp : Command → Prop
  | .config a => a.sub = .enableEp
  | _ => False

/-! ## Certificates -/

theorem mcEnterprise_ok {a : McParams} {ep : Bool} (h : mcEnterprise a s = (.ok ep, s')) :
    (ep = true ↔ EpGranted a s) ∧
    ∀ n, a.enterprise = some n → (n = 1 ∨ n = 2) ∧ Dev.epMode.isSome = true ∧ s.p.enterprise = true := by
  unfold mcEnterprise at h
  cases hn : a.enterprise with
  | none =>
    simp only [hn, pure_ok] at h
    obtain ⟨rfl, rfl⟩ := h
    refine ⟨⟨fun h => (nomatch h), ?_⟩, fun _ h => nomatch h⟩
    rintro ⟨n, _, h, _⟩
    rw [hn] at h
    cases h
  | some n =>
    simp only [hn, bind_ok, req_ok, enterpriseAttestation, guardE_ok, liftE_ok, pure_ok] at h
    obtain ⟨mode, _, ⟨hmode, rfl⟩, b, s1, ⟨p, _, hp, rfl, rfl⟩, _, _, ⟨hon, rfl⟩, m, _, ⟨hm, rfl⟩, h, rfl⟩ := h
    obtain ⟨rfl, _⟩ := readP_ok hp
    have hm' : (n = 1 ∧ m = .vendorFacilitated) ∨ (n = 2 ∧ m = .platformManaged) := by
      unfold EpMode.parse at hm
      split at hm
      · cases hm; exact .inl ⟨by assumption, rfl⟩
      · split at hm
        · cases hm; exact .inr ⟨by assumption, rfl⟩
        · cases hm
    refine ⟨?_, fun k hk => ?_⟩
    · rw [← h]
      simp only [Bool.or_eq_true, Bool.and_eq_true, beq_iff_eq, List.contains_iff_mem]
      constructor
      · rintro (⟨rfl, h2⟩ | h1)
        · refine ⟨n, mode, hn, hon, hmode, .inl ⟨?_, h2⟩⟩
          rcases hm' with ⟨_, h⟩ | ⟨h, _⟩
          · cases h
          · exact h
        · exact ⟨n, mode, hn, hon, hmode, .inr h1⟩
      · rintro ⟨n', mode', h1, _, h3, h4⟩
        rw [hn] at h1
        cases h1
        rw [hmode] at h3
        cases h3
        rcases h4 with ⟨rfl, rfl⟩ | h4
        · refine .inl ⟨?_, rfl⟩
          rcases hm' with ⟨h, _⟩ | ⟨_, h⟩
          · cases h
          · exact h
        · exact .inr h4
    · cases hk
      refine ⟨?_, by rw [hmode]; rfl, hon⟩
      rcases hm' with ⟨h, _⟩ | ⟨h, _⟩
      · exact .inl h
      · exact .inr h

/-- **C82.** The answer to a registration contains a certificate only if the device is configured to send the certificate that it shares
with others of its batch, or if enterprise attestation was asked for, is switched on, and is given to this relying party. In the latter
case, the answer says so. -/
theorem C82_certificate {a : McParams} {m : McResponse} (h : processParsed (.makeCredential a) ch s = (.ok (.makeCredential m), s')) :
    (m.epAtt = some true ↔ EpGranted a s) ∧ (m.epAtt = none ∨ m.epAtt = some true) ∧
    (m.x5c.isSome = true ↔ EpGranted a s ∨ Dev.useBatchAttestation = true) ∧
    ∀ cert, m.x5c = some cert → ∃ att, s.p.attestation = some att ∧ cert = att.certificate := by
  obtain ⟨_, h⟩ := processParsed_ok h (by simp)
  obtain ⟨ep, s1, s2, s3, s4, _, h1, h2, h3, h4, h5⟩ := makeCredential_ok h
  obtain ⟨hep, _⟩ := mcEnterprise_ok h1
  obtain ⟨_, _, i3⟩ := keepCfg h1
  obtain ⟨_, _, j3⟩ := keepCfg h2
  obtain ⟨_, _, k3⟩ := keepCfg h3
  obtain ⟨_, _, l3⟩ := keepCfg h4
  simp only [mcFinish, bind_ok, pure_ok] at h5
  obtain ⟨mp, s5, a1, lbk, s6, a2, sk, s7, a3, id, s8, a4, ad, s9, a5, ⟨sig, x5c⟩, s10, a6, a7, rfl⟩ := h5
  cases a7
  obtain ⟨_, _, m3⟩ := keepCfg a1
  obtain ⟨_, _, n3⟩ := keepCfg a2
  obtain ⟨_, _, o3⟩ := keepCfg a3
  obtain ⟨_, _, p3⟩ := keepCfg a4
  have hatt : s9.p.attestation = s.p.attestation := by
    rw [keepP a5]; exact p3.trans (o3.trans (n3.trans (m3.trans (l3.trans (k3.trans (j3.trans i3))))))
  have hep : ep = true ↔ EpGranted a s := hep
  refine ⟨?_, ?_, ?_, ?_⟩
  · rw [← hep]; cases ep <;> simp
  · cases ep <;> simp
  · rw [← hep]
    unfold mcSign at a6
    split at a6
    · rename_i hb
      simp only [bind_ok, attestationGet, mapErr_ok, req_ok] at a6
      obtain ⟨_, _, _, att, _, _, a6⟩ := a6
      cases hs : Dev.ecdsaSign att.sk (ad ++ a.clientDataHash) with
      | none => simp only [hs] at a6; cases a6
      | some x =>
        simp only [hs, pure_ok, Prod.mk.injEq] at a6
        rw [← a6.1.2]
        simpa using hb
    · rename_i hb
      simp only [bind_ok, pure_ok] at a6
      obtain ⟨_, _, _, a6, _⟩ := a6
      cases a6
      simpa using hb
  · intro cert hc
    rcases mcSign_ok a6 with ⟨h, _⟩ | ⟨att, h1, h2, _⟩
    · rw [show x5c = _ from hc] at h; cases h
    · rw [show x5c = _ from hc] at h2
      cases h2
      exact ⟨att, hatt ▸ h1, rfl⟩

/-- **C82**, refusal: if enterprise attestation is asked for in a way that the device does not know, or while it is switched off, there is
no answer instead of an answer without it. -/
theorem C82_asked {a : McParams} {m : McResponse} {n : Nat} (h : processParsed (.makeCredential a) ch s = (.ok (.makeCredential m), s'))
    (hn : a.enterprise = some n) : (n = 1 ∨ n = 2) ∧ Dev.epMode.isSome = true ∧ s.p.enterprise = true := by
  obtain ⟨_, h⟩ := processParsed_ok h (by simp)
  obtain ⟨ep, s1, s2, s3, s4, _, h1, _⟩ := makeCredential_ok h
  exact (mcEnterprise_ok h1).2 n hn

/-! ## The switch -/

def EpOff (s : St) : Prop := s.p.enterprise = false

section
instance : SEnv EpOff := ⟨fun _ _ _ _ h => h⟩
instance (P : Oracle → Prop) : SOra P EpOff := ⟨fun _ _ _ h => h⟩
stable_instances EpOff under SMaster SCreds SPin SRetries SMinPin SRpIds SForce SAlwaysUv SLargeBlob STok SMis SKeys SU2f
  SSp SLb SPresence SCompare SIssued SConsumed SU2fPrompt SU2fConsume SU2fTouch SCounterEv SBoot SCounter
instance : SErase EpOff := ⟨fun _ _ => rfl⟩
end

/-- After the message, it is off; or the request was authorised and meant to switch it on. -/
def EpSwitched (s : St) (cmd : Command) (t : St) : Prop :=
  EpOff t ∨ ∃ a, cmd = .config a ∧ a.sub = .enableEp ∧ Dev.epMode.isSome = true ∧
    (s.p.pin.isSome = true ∨ s.p.uvRequired = true → ∃ param pr msg, a.authParam = some param ∧
      a.authProto = some pr ∧ configMessage a = some msg ∧ Authorised 0x20 pr msg param s.v.pin)

instance {s0 : St} {cmd : Command} : SEnv (EpSwitched s0 cmd) := ⟨fun _ _ _ _ h => h⟩
stable_instances (EpSwitched s0 cmd) under SCounterEv

omit [Dev] in
theorem epOff {m : M α} {r : Res α} (h : m s = (r, s')) (h0 : EpOff s) [hp : Pres EpOff m] : EpOff s' := by
  have := hp.out s h0; rwa [h] at this

theorem dispatch_switched {a : ConfigParams} (h : EpOff s)
    (hauth : (s'.p.pin.isSome || (a.sub != .toggleAlwaysUv && s'.p.uvRequired)) = true → ∃ param pr msg, a.authParam = some param ∧
      a.authProto = some pr ∧ configMessage a = some msg ∧ Authorised 0x20 pr msg param s'.v.pin) :
    EpSwitched s' (.config a) (configDispatch a s).2 := by
  unfold configDispatch
  cases hs : a.sub with
  | enableEp =>
    cases he : Dev.epMode with
    | none =>
      refine .inl ?_
      simp only [configEnableEp, he]
      exact h
    | some md =>
      refine .inr ⟨a, rfl, hs, by rw [he]; rfl, fun hp => hauth ?_⟩
      rw [hs]
      rcases hp with hp | hp <;> simp [hp]
  | toggleAlwaysUv => exact .inl (Pres.out (I := EpOff) _ h)
  | setMinPinLength => exact .inl (Pres.out (I := EpOff) (self := by pres) _ h)
  | vendorPrototype => exact .inl h

theorem config_switched {a : ConfigParams} (h : EpOff s) : EpSwitched s (.config a) (configCommand a s).2 := by
  unfold configCommand
  refine bind_snd (Q := EpSwitched s (.config a)) (.inl (Pres.out (I := EpOff) _ h)) fun b s1 h1 => ?_
  obtain ⟨rfl, e, he, rfl⟩ := configEnforceUv_ok h1
  refine bind_snd (Q := EpSwitched s (.config a)) (.inl (Pres.out (I := EpOff) _ h)) fun hh s2 h2 => ?_
  obtain ⟨rfl, rfl⟩ := pinHash_ok h2
  refine bind_snd (Q := EpSwitched s (.config a)) (.inl (Pres.out (I := EpOff) _ h)) fun _ s3 h3 => ?_
  have h3' : EpOff s3 := epOff h3 h
  have hauth : (s.p.pin.isSome || (a.sub != .toggleAlwaysUv && s.p.uvRequired)) = true → ∃ param pr msg, a.authParam = some param ∧
      a.authProto = some pr ∧ configMessage a = some msg ∧ Authorised 0x20 pr msg param s.v.pin := by
    rw [whenM_ok] at h3
    intro hp
    rcases h3 with ⟨hn, h3⟩ | ⟨hn, rfl⟩
    · obtain ⟨rfl, h5⟩ := configAuth_ok h3
      exact h5
    · simp only [Option.isSome_map] at hn
      rw [hn] at hp
      cases hp
  refine bind_snd (Q := EpSwitched s (.config a)) ?_ fun _ s4 h4 => ?_
  · exact dispatch_switched h3' hauth
  · have := dispatch_switched (a := a) h3' hauth
    rw [h4] at this
    exact this

omit [Dev] in
/-- A token that still authenticates after the timers were looked at did so before. -/
theorem authorised_before [Dev] {perm : UInt8} {pr : Proto} {m param : Bytes} {cmd : Command}
    (h : Authorised perm pr m param (prelude cmd ch s).v.pin) : Authorised perm pr m param s.v.pin := by
  have hu : (s.v.pin.tok.observe s.env.now).inUse = true := h.inUse
  by_cases he : (s.v.pin.tok.inUse && Verif.Hid.Timer.isElapsed s.v.pin.tok.timer s.env.now) = true
  · simp [TokenState.observe, he, TokenState.new] at hu
  have e : s.v.pin.tok.observe s.env.now = s.v.pin.tok := by rw [TokenState.observe, if_neg he]
  have e2 : (prelude cmd ch s).v.pin = s.v.pin := by
    show { s.v.pin with tok := s.v.pin.tok.observe s.env.now } = s.v.pin
    rw [e]
  rwa [e2] at h

/-- One message. -/
theorem message_switched {msg : Bytes} {cmd : Command} (hd : Command.deserialize msg = .ok cmd) (h : EpOff s) :
    EpSwitched s cmd (stepM (.ctap2 ch msg) s).2 := by
  refine stepM_msg (I := EpSwitched s cmd) hd ?_
  rw [processParsed_eq]
  have hp : EpOff (prelude cmd ch s) := h
  cases ch with
  | vendor c =>
    refine .inl ?_
    cases cmd <;> unfold channelCommand vendorChannelCommand <;> exact Pres.out (I := EpOff) (self := by pres) _ hp
  | main c =>
    cases cmd with
    | config a =>
      rcases config_switched (s := prelude (.config a) (.main c) s) (a := a) hp with g | ⟨a', e, g1, g2, g3⟩
      · exact .inl g
      · refine .inr ⟨a', e, g1, g2, fun hh => ?_⟩
        obtain ⟨param, pr, m, k1, k2, k3, k4⟩ := g3 hh
        exact ⟨param, pr, m, k1, k2, k3, authorised_before k4⟩
    | reset => exact .inl (Pres.out (I := EpOff) (m := resetCommand) _ hp)
    | credMgmt a => exact .inl (Pres.out (I := EpOff) (m := credentialManagement a _) _ hp)
    | makeCredential a => exact .inl (Pres.out (I := EpOff) (m := makeCredential a) _ hp)
    | getAssertion a => exact .inl (Pres.out (I := EpOff) (m := getAssertion a _) _ hp)
    | getNextAssertion => exact .inl (Pres.out (I := EpOff) (m := getNextAssertion) _ hp)
    | getInfo => exact .inl (Pres.out (I := EpOff) (m := getInfo) _ hp)
    | clientPin a =>
      exact .inl (Pres.out (I := EpOff) (m := do let r ← clientPinCommand a; M.pure (Response.clientPin r)) _ hp)
    | selection => exact .inl (Pres.out (I := EpOff) (m := selection) _ hp)
    | largeBlobs a => exact .inl (Pres.out (I := EpOff) (m := largeBlobsCommand a) _ hp)

/-- **C82**, the switch: enterprise attestation is off in a new device, and stays off, whatever happens, until a request that is meant to
switch it on. -/
theorem C82_off (h : Without P Command.enablesEp s s') (h0 : s.p.enterprise = false) : s'.p.enterprise = false := by
  induction h with
  | start => exact h0
  | boot h ho ih => exact Pres.out (I := EpOff) (m := bootM) _ ih
  | @step s1 o i h ho hi ih =>
    by_cases h : ∃ ch msg cmd, i = .ctap2 ch msg ∧ Command.deserialize msg = .ok cmd
    · obtain ⟨ch, msg, cmd, rfl, hd⟩ := h
      rcases message_switched (s := s1.withOracle o) (ch := ch) hd ih with h | ⟨a, rfl, h, _⟩
      · exact h
      · exact absurd h (hi ch msg _ rfl hd)
    · exact stepM_idle (I := EpOff) (fun ch msg cmd h1 h2 => h ⟨ch, msg, cmd, h1, h2⟩) ih

/-- **C82**, the switch: only a request that is meant to switch it on does so; if the device has a PIN, or user verification is always
required, the request carries the authentication of a PIN token with the right to configure the device. -/
theorem C82_switched {o : Oracle} {i : Input} (h0 : s.p.enterprise = false) (h1 : (stepM i (s.withOracle o)).2.p.enterprise = true) :
    ∃ ch msg a, i = .ctap2 ch msg ∧ Command.deserialize msg = .ok (.config a) ∧ a.sub = .enableEp ∧ Dev.epMode.isSome = true ∧
      (s.p.pin.isSome = true ∨ s.p.uvRequired = true → ∃ param pr m, a.authParam = some param ∧
        a.authProto = some pr ∧ configMessage a = some m ∧ Authorised 0x20 pr m param s.v.pin) := by
  by_cases h : ∃ ch msg cmd, i = .ctap2 ch msg ∧ Command.deserialize msg = .ok cmd
  · obtain ⟨ch, msg, cmd, rfl, hd⟩ := h
    rcases message_switched (s := s.withOracle o) (ch := ch) hd h0 with h | ⟨a, rfl, h⟩
    · rw [show _ = false from h] at h1; cases h1
    · exact ⟨ch, msg, a, rfl, hd, h⟩
  · have : EpOff (stepM i (s.withOracle o)).2 := stepM_idle (I := EpOff) (fun ch msg cmd h1 h2 => h ⟨ch, msg, cmd, h1, h2⟩) h0
    rw [show _ = false from this] at h1
    cases h1

end
end Verif.Ctap

/-! ## Example: a device that offers enterprise attestation to one relying party -/
namespace Verif.Ctap.EpToy
open Verif.Cbor (Value)
open Toy (good factory send map cdh param rpA rpB ch)
set_option maxRecDepth 100000

/-- The device of the examples, with enterprise attestation for `rpA`. -/
@[reducible] def epDev : Dev := { Toy.dev with epMode := some .vendorFacilitated, epRpIds := [rpA] }

instance (priority := high) : Dev := epDev

def booted : St := (bootM (factory.withOracle good)).2

/-- Switches enterprise attestation on; there is no PIN. -/
def enable : Input := send 0x0D (map [(.unsigned 1, .unsigned 1)])

def enabled : St := (stepM enable (booted.withOracle good)).2

def register (rp : Bytes) (ep : Nat) : Input :=
  send 0x01 (map [(.unsigned 1, .bytes cdh), (.unsigned 2, map [(.text (b! "id"), .text rp)]),
    (.unsigned 3, map [(.text (b! "id"), .bytes [1])]), (.unsigned 4, .array [param]), (.unsigned 10, .unsigned ep)])

/-- The certificate and the mark of the answer. -/
def shown (i : Input) (s : St) : Option (Option Bytes × Option Bool) :=
  match i with
  | .ctap2 ch msg =>
    match Command.deserialize msg with
    | .ok c =>
      match (processParsed c ch (s.withOracle good)).1 with
      | .ok (.makeCredential m) => some (m.x5c, m.epAtt)
      | _ => none
    | _ => none
  | _ => none

/-- C82: off in a new device, on after the request; then the chosen relying party gets the certificate, another one does not, and
before it there is no answer. -/
example : booted.p.enterprise = false ∧ enabled.p.enterprise = true ∧
    shown (register rpA 1) booted = none ∧
    shown (register rpA 1) enabled = some (some [1, 2, 3], some true) ∧
    shown (register rpB 1) enabled = some (none, none) ∧
    shown (register rpB 2) enabled = some (none, none) ∧
    shown (register rpA 3) enabled = none := by decide +kernel

example := C82_switched (s := booted) (o := good) (i := enable) (by decide +kernel) (by decide +kernel)

/-- What a message asks for. -/
def asks (i : Input) : Option Command :=
  match i with
  | .ctap2 _ msg => (Command.deserialize msg).toOption
  | _ => none

instance (c : Command) : Decidable c.enablesEp := by unfold Command.enablesEp; split <;> infer_instance

example : Without (fun _ => True) Command.enablesEp booted (stepM (register rpA 1) (booted.withOracle good)).2 := by
  refine .step .start trivial ?_
  intro c m cmd h1 h2
  have h : (asks (register rpA 1)).all (fun c => decide (¬ c.enablesEp)) = true := by decide +kernel
  rw [h1, asks, h2] at h
  simpa [Except.toOption] using h

end Verif.Ctap.EpToy
