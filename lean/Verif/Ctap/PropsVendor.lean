import Verif.Ctap.PropsPanic

/-!
# C57: the attestation is programmed at most once, after a touch
-/
set_option linter.unusedSectionVars false
namespace Verif.Ctap
open Verif.Cbor (Value)
section
variable [Dev] {s s' : St} {ch : Channel} {t : Tock}

/-- The key and certificate that a message asks to program: it is a vendor command 0x40 with parameters as in
`commands.rs`. -/
def materialOf (msg : Bytes) : Option Attestation :=
  match msg with
  | [] => none
  | c :: rest =>
    if c ≠ 0x40 then none
    else match cborRead rest with
      | .error _ => none
      | .ok v =>
        match VendorConfigure.ofCbor v with
        | .error _ => none
        | .ok p => p.material

theorem snd_split {α β : Type} {m : M α} {f : α → M β} {I : St → Prop} (h1 : I (m s).2)
    (h2 : ∀ a s1, m s = (.ok a, s1) → I (f a s1).2) : I ((m >>= f) s).2 :=
  bind_split (Q := fun _ s => I s) (fun _ _ => h1) h2

/-- Compared to `s0`: the attestation is the same, or there was none, the user touched the device, and it is `x`. -/
def Programmed (s0 : St) (x : Option Attestation) (s : St) : Prop :=
  s.p.attestation = s0.p.attestation ∨
    s0.p.attestation = none ∧ x ≠ none ∧ s.p.attestation = x ∧ HappenedSince s0.log Ev.isPresence s.log

theorem Programmed.log {s0 : St} {x : Option Attestation} (h : Programmed s0 x s) (hp : s'.p.attestation = s.p.attestation)
    (es : List Ev) (hl : s'.log = es ++ s.log) : Programmed s0 x s' := by
  rcases h with h | ⟨h0, hx, h1, pre, h2, h3⟩
  · exact .inl (hp.trans h)
  · refine .inr ⟨h0, hx, hp.trans h1, es ++ pre, ?_, ?_⟩
    · rw [hl, h2, List.append_assoc]
    · obtain ⟨e, h4, h5⟩ := h3
      exact ⟨e, List.mem_append.2 (.inr h4), h5⟩

section
variable (s0 : St) (x : Option Attestation)
local notation "K" => Programmed s0 x
instance : SEnv K := ⟨fun _ _ _ _ h => h⟩
instance (Q : Oracle → Prop) : SOra Q K := ⟨fun _ _ _ h => h⟩
stable_instances K under SMaster SCreds SMinPin SRpIds SForce SEp SAlwaysUv SPin SRetries SLargeBlob STok SMis SKeys SU2f SSp SLb
instance : SPresence K := ⟨fun _ _ h => h.log rfl [_] rfl⟩
instance : SCompare K := ⟨fun _ _ h => h.log rfl [_] rfl⟩
instance : SIssued K := ⟨fun _ _ _ _ h => h.log rfl [_] rfl⟩
instance : SConsumed K := ⟨fun _ h => h.log rfl [_] rfl⟩
instance : SU2fPrompt K := ⟨fun _ _ h => h.log rfl [_] rfl⟩
instance : SU2fConsume K := ⟨fun _ _ h => h.log rfl [_] rfl⟩
instance : SU2fTouch K := ⟨fun _ _ h => h.log rfl [_] rfl⟩
instance : SCounterEv K := ⟨fun _ _ _ h => h.log rfl [_] rfl⟩
instance : SCounter K := ⟨fun _ _ _ h => h.log rfl _ rfl⟩
instance : SErase K := ⟨fun _ h => h.log rfl [_] rfl⟩
instance : SBoot K := ⟨fun _ _ h => h.log rfl [_] rfl⟩
step_instances K

theorem vendorProgram_programmed {c : Option Attestation} (a : Attestation) (hc : s.p.attestation = c) (h0 : s0.p.attestation = c)
    (hx : x = some a) (hm : HappenedSince s0.log Ev.isPresence s.log) (hs : K s) : K (vendorProgram c (some a) s).2 := by
  cases c with
  | some c =>
    exact hs
  | none =>
    let J : St → Prop := fun s => K s ∧ HappenedSince s0.log Ev.isPresence s.log
    have hm : J s := ⟨hs, hm⟩
    have he : SEnv J := ⟨fun _ _ _ _ h => h⟩
    have : Pres J (attestationSet a) := by
      have : Pres J (writeP fun p => { p with attestation := some a }) :=
        presWriteP fun s h => ⟨.inr ⟨h0, by rw [hx]; simp, hx.symm, h.2⟩, h.2⟩
      unfold attestationSet; exact ⟨fun s h => by rw [mapErr_snd]; exact this.out s h⟩
    have h1 : Pres J (vendorProgram none (some a)) := by
      unfold vendorProgram; pres
    exact (h1.out s hm).1

theorem vendorConfigure_programmed {p : VendorConfigure} (hx : p.material = x) : K (vendorConfigure t p s0).2 := by
  have hs : K s0 := .inl rfl
  cases x with
  | none =>
    have hp : ∀ c, Pres (Programmed s0 none) (vendorProgram c p.material) := fun c => by rw [hx]; unfold vendorProgram; pres
    have : Pres (Programmed s0 none) (vendorConfigure t p) := by unfold vendorConfigure; pres
    exact this.out _ hs
  | some a =>
    unfold vendorConfigure
    simp only [hx, Option.isSome_some, Bool.true_or]
    refine snd_split ((Pres.out (I := Programmed s0 (some a)) (m := whenM true checkPresenceE) _ hs)) fun u s1 h1 => ?_
    have h1' : checkPresenceE s0 = (.ok u, s1) := h1
    obtain ⟨e, _, rfl⟩ := presenceE_ok h1'
    have hs1 : Programmed s0 (some a) { s0 with env := e, log := .presence e.now :: s0.log } := hs.log rfl [_] rfl
    refine snd_split ((Pres.out (I := Programmed s0 (some a)) (m := attestationGet) _ hs1)) fun c s2 h2 => ?_
    have hl2 := keepLog h2
    have hp2 := keepP h2
    have hc : s2.p.attestation = c := by
      obtain ⟨p, s3, h3, h4⟩ := bind_ok.1 (mapErr_ok.1 h2)
      obtain ⟨rfl, rfl⟩ := readP_ok h3
      obtain ⟨h4, h5⟩ := pure_ok.1 h4
      rw [← h4, hp2]
    have hs2 : Programmed s0 (some a) s2 := .inl (by rw [hp2])
    have hm2 : HappenedSince s0.log Ev.isPresence s2.log := by
      rw [hl2]; exact ⟨[_], rfl, _, List.mem_singleton.2 rfl, rfl⟩
    have hs3 := vendorProgram_programmed s0 (some a) a hc (by rw [← hc, hp2]) rfl hm2 hs2
    refine snd_split hs3 fun r s3 h3 => ?_
    rw [h3] at hs3
    exact Pres.out (I := Programmed s0 (some a)) (self := by pres) _ hs3

instance (v : Option Value) : Pres K (vendorEncode v) := by unfold vendorEncode; pres

theorem tockCbor_programmed (msg : Bytes) : Programmed s0 (materialOf msg) (tockCbor t msg s0).2 := by
  cases msg with
  | nil => exact .inl rfl
  | cons c rest =>
    unfold tockCbor
    by_cases h1 : c = 0x40
    · simp only [h1, if_true]
      cases hv : cborRead rest with
      | error e => exact .inl rfl
      | ok v =>
        refine snd_split (Pres.out (I := Programmed s0 _) (m := liftE (.ok v)) _ (.inl rfl)) fun v' s1 h2 => ?_
        obtain ⟨h2, rfl⟩ := liftE_ok.1 h2
        cases h2
        refine snd_split (Pres.out (I := Programmed s0 _) (m := liftE (VendorConfigure.ofCbor v)) _ (.inl rfl)) fun p s1 h2 => ?_
        obtain ⟨h5, rfl⟩ := liftE_ok.1 h2
        have hm : materialOf (0x40 :: rest) = p.material := by simp [materialOf, hv, h5]
        have h3 := vendorConfigure_programmed (t := t) s0 (materialOf (0x40 :: rest)) hm.symm
        refine snd_split h3 fun r s1 h4 => ?_
        rw [h4] at h3
        exact Pres.out (I := Programmed s0 _) (self := by pres) _ h3
    · simp only [h1, if_false]
      by_cases h2 : c = 0x42
      · simp only [h2, if_true]
        exact Pres.out (I := Programmed s0 _) (self := by pres) _ (.inl rfl)
      · simp only [h2, if_false]
        by_cases h3 : c = 0x43
        · simp only [h3, if_true]
          exact Pres.out (I := Programmed s0 _) (self := by pres) _ (.inl rfl)
        · simp only [h3, if_false]
          exact .inl rfl

theorem errorSome_snd (m : M (Option Bytes)) (s : St) : (errorSome m s).2 = (m s).2 := by
  unfold errorSome
  rcases m s with ⟨r, s1⟩
  cases r <;> rfl

theorem tockHook_programmed (msg : Bytes) : Programmed s0 (materialOf msg) (tockHook t ch msg s0).2 := by
  have : tockHook t ch msg s0 = (.ok none, s0) ∨ tockHook t ch msg s0 = errorSome (tockCbor t msg) s0 := by
    unfold tockHook
    cases t.vendorHid <;> cases ch
    · exact .inr rfl
    · exact .inr rfl
    · exact .inl rfl
    · exact .inr rfl
  rcases this with h | h <;> rw [h]
  · exact .inl rfl
  · rw [errorSome_snd]; exact tockCbor_programmed s0 msg

end

/-- Runs of a device with the vendor commands: power-up, messages of any kind on any channel, touches, passing of time, in any
environment. -/
inductive TockRun (t : Tock) : St → St → Prop
  | refl (s : St) : TockRun t s s
  | boot {s0 s : St} (o : Oracle) (h : TockRun t s0 s) : TockRun t s0 (bootM (s.withOracle o)).2
  | input {s0 s : St} (o : Oracle) (i : Input) (h : TockRun t s0 s) : TockRun t s0 (stepM i (s.withOracle o)).2
  | message {s0 s : St} (o : Oracle) (ch : Channel) (msg : Bytes) (h : TockRun t s0 s) :
      TockRun t s0 (tockCommand t ch msg (s.withOracle o)).2

/-- **C57.** A message changes the attestation only if there was none before, the message carries the new one, and the user
touches the device while the message is processed. -/
theorem C57_programmed (msg : Bytes) : Programmed s (materialOf msg) (tockCommand t ch msg s).2 := by
  have h := tockHook_programmed (t := t) (ch := ch) s msg
  unfold tockCommand
  refine snd_split h fun r s1 h1 => ?_
  rw [h1] at h
  cases r with
  | some b => exact Pres.out (I := Programmed s (materialOf msg)) (self := by pres) _ h
  | none => exact Pres.out (I := Programmed s (materialOf msg)) (m := processCommand ch msg) _ h

/-- Any other input leaves the attestation as it is. -/
theorem C57_input (i : Input) : (stepM i s).2.p.attestation = s.p.attestation := by
  rcases Pres.out (I := Programmed s none) (m := stepM i) s (.inl rfl) with h | ⟨_, h, _⟩
  · exact h
  · exact absurd rfl h

/-- **C57.** Once programmed, the attestation stays, whatever the device receives, also by factory reset, loss of power and
failing storage. -/
theorem C57_once {a : Attestation} (h : TockRun t s s') (ha : s.p.attestation = some a) : s'.p.attestation = some a := by
  induction h with
  | refl => exact ha
  | boot o h ih =>
    rename_i s0 s
    rcases Pres.out (I := Programmed s none) (m := bootM) (s.withOracle o) (.inl rfl) with h | ⟨_, h, _⟩
    · exact h.trans ih
    · exact absurd rfl h
  | input o i h ih => exact (C57_input i).trans ih
  | message o ch msg h ih =>
    rename_i s0 s
    rcases C57_programmed (s := s.withOracle o) (t := t) (ch := ch) msg with h | ⟨h, _⟩
    · exact h.trans ih
    · have := ih
      rw [show (s.withOracle o).p = s.p from rfl, this] at h
      cases h

end
end Verif.Ctap

namespace Verif.Ctap.Toy
set_option maxRecDepth 100000

/-- Features of a Tock device. -/
def tock : Tock := { vendorHid := false, withCtap1 := true, lock := true, upgrade := none }
/-- A device without attestation, after power-up. -/
def blank : St := boot good { factory with p := {} }
/-- `{2: {1: certificate, 2: key}}`. -/
def program (k : UInt8) : Bytes := [0x40, 0xA1, 2, 0xA2, 1, 0x41, 9, 2, 0x58, 32] ++ List.replicate 32 k

/-- C57: the first message programs the attestation after a touch; a second one, with another key, is answered with success
but changes nothing. Without a touch nothing is programmed. -/
example : (materialOf (program 5)).map (·.sk) = some (List.replicate 32 5) ∧
    (tockCommand tock ch (program 5) (blank.withOracle good)).2.p.attestation = materialOf (program 5) ∧
    (tockCommand tock ch (program 6) ((tockCommand tock ch (program 5) (blank.withOracle good)).2)).1 = .ok [0, 0xA2, 1, 0xF5, 2, 0xF5] ∧
    (tockCommand tock ch (program 6) ((tockCommand tock ch (program 5) (blank.withOracle good)).2)).2.p.attestation =
      materialOf (program 5) ∧
    (tockCommand tock ch (program 5) (blank.withOracle idle)).2.p.attestation = none := by decide +kernel

end Verif.Ctap.Toy
