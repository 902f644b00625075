import Verif.Device.Fast

/-!
# C69: an example

A registration and an assertion, run in the kernel with the cryptography of the firmware (`Fast.dev_eq`).
-/
namespace Verif.Device.Real
open Verif.Ctap
set_option maxRecDepth 100000
set_option linter.unusedVariables false

@[reducible] def board : Board where
  wordBits := 32
  wordBits_eq := .inl rfl
  turns := 8
  aaguid := List.replicate 16 0xAA
  aaguid_len := rfl
  allowsPinV1 := true
  defaultCredProtect := none
  defaultMinPinLength := 4
  defaultMinPinLength_ge := by decide
  defaultMinPinLength_le := by decide
  defaultMinPinRpIds := []
  enforceAlwaysUv := false
  epMode := none
  epRpIds := []
  maxMsgSize := 7609
  maxMsgSize_ge := by decide
  maxMsgSize_le := by decide
  maxPinRetries := 8
  maxPinRetries_le := by decide
  useBatchAttestation := false
  useSignatureCounter := true
  maxCredBlobLength := 32
  maxCredBlobLength_ge := by decide
  maxCredBlobLength_le := by decide
  maxCredCountInList := none
  maxCredCountInList_lt := by simp
  maxLargeBlob := 2048
  maxLargeBlob_ge := by decide
  maxLargeBlob_lt := by decide
  maxRpIds := 8
  maxRpIds_lt := by decide
  maxResidentKeys := 3
  maxResidentKeys_le := by decide
  firmwareVersion := none
  firmwareVersion_lt := by simp


/-- Power-up, one input, one command, with a given cryptography. -/
def boot (D : Dev) (s : St) : St := (bootM (s.withOracle Toy.good)).2
def step (D : Dev) (i : Input) (s : St) : St := (stepM i (s.withOracle Toy.good)).2
def bytesOf : Input → Bytes
  | .ctap2 _ m => m
  | _ => []
def parse (D : Dev) (i : Input) : Command := match Command.deserialize (bytesOf i) with | .ok c => c | .error _ => .getInfo
def run (D : Dev) (i : Input) (s : St) : Res Response × St := processParsed (parse D i) Toy.ch (s.withOracle Toy.good)

def booted (D : Dev) : St := boot D Toy.factory
def reg : Input := Toy.register (b! "a.com") [1] true none
def registered (D : Dev) : St := step D reg (booted D)

/-- The id that the random number generator of the example gives. -/
def newId : Bytes := (List.range 32).map fun i => UInt8.ofNat (29 + i)
def use : Input := Toy.assert (b! "a.com") (some [newId]) none

/-- The outcomes that are looked for. -/
def isMc : Res Response → Bool
  | .ok (.makeCredential m) => credentialIdIn m.authData == newId && m.x5c.isNone && decide (m.authData.length < 1000)
  | _ => false
def isGa : Res Response → Bool
  | .ok (.getAssertion g) => decide (g.authData.length < 1000)
  | _ => false

theorem isMc_spec {r : Res Response} (h : isMc r = true) :
    ∃ m, r = .ok (.makeCredential m) ∧ credentialIdIn m.authData = newId ∧ m.x5c = none ∧ m.authData.length < 1000 := by
  unfold isMc at h
  split at h
  · simp only [Bool.and_eq_true, beq_iff_eq, decide_eq_true_eq, Option.isNone_iff_eq_none] at h
    exact ⟨_, rfl, h.1.1, h.1.2, h.2⟩
  · cases h

theorem isGa_spec {r : Res Response} (h : isGa r = true) : ∃ g, r = .ok (.getAssertion g) ∧ g.authData.length < 1000 := by
  unfold isGa at h
  split at h
  · exact ⟨_, rfl, by simpa using h⟩
  · cases h

def regParsed (D : Dev) : Bool := match Command.deserialize (bytesOf reg) with
  | .ok (.makeCredential a) => a.clientDataHash == Toy.cdh && a.options.rk && a.rp.id == b! "a.com"
  | _ => false
def useParsed (D : Dev) : Bool := match parse D use with
  | .getAssertion a => a.clientDataHash == Toy.cdh && a.rpId == b! "a.com" && a.allowList == some [{ id := newId }]
  | _ => false
def isRegistered (D : Dev) : Bool := isMc (run D reg (booted D)).1
def isUsed (D : Dev) : Bool := isGa (run D use (registered D)).1
def isAlive (D : Dev) : Bool := (bootM (Toy.factory.withOracle Toy.good)).1.alive

/-- All of this. -/
def all (D : Dev) : Bool := isAlive D && regParsed D && useParsed D && isRegistered D && isUsed D

theorem parsed : (regParsed (Fast.dev board) && useParsed (Fast.dev board)) = true := by decide +kernel
theorem alive : isAlive (Fast.dev board) = true := by decide +kernel
theorem is_registered : isRegistered (Fast.dev board) = true := by decide +kernel
theorem is_used : isUsed (Fast.dev board) = true := by decide +kernel

theorem combined {B : Board} {a : McParams} {g : GaParams} {m : McResponse} {u : GaResponse} (h1 : isAlive software = true)
    (p1 : Command.deserialize (bytesOf reg) = .ok (.makeCredential a)) (p2 : parse software reg = .makeCredential a)
    (p3 : a.clientDataHash = Toy.cdh) (p4 : a.options.rk = true) (p5 : a.rp.id = b! "a.com")
    (q1 : parse software use = .getAssertion g) (q2 : g.clientDataHash = Toy.cdh) (q3 : g.rpId = b! "a.com")
    (q4 : g.allowList = some [{ id := newId }])
    (m1 : (run software reg (booted software)).1 = .ok (.makeCredential m)) (m2 : credentialIdIn m.authData = newId)
    (m3 : m.x5c = none) (m4 : m.authData.length < 1000)
    (u1 : (run software use (registered software)).1 = .ok (.getAssertion u)) (u2 : u.authData.length < 1000) :
    ∃ m g x y, (run software reg (booted software)).1 = .ok (.makeCredential m) ∧ KeyIn m.authData x y ∧
      Verifies x y (m.authData ++ Toy.cdh) m.sig ∧
      (run software use (registered software)).1 = .ok (.getAssertion g) ∧
      Verifies x y (g.authData ++ Toy.cdh) g.signature := by
  have hl : (Toy.cdh).length = 32 := rfl
  have hr : Reach (fun _ => True) true (booted software) := by
    have : Reach (fun _ => True) (isAlive software) (booted software) :=
      Reach.boot (P := fun _ => True) Toy.good trivial (Reach.factory Toy.env0 (some ⟨List.replicate 32 7, [1, 2, 3]⟩))
    rwa [h1] at this
  have e0 : registered software = (stepM (.ctap2 Toy.ch (bytesOf reg)) ((booted software).withOracle Toy.good)).2 := rfl
  have e1 : run software reg (booted software) = processParsed (parse software reg) Toy.ch ((booted software).withOracle Toy.good) := rfl
  have e2 : run software use (registered software) = processParsed (parse software use) Toy.ch ((registered software).withOracle Toy.good) := rfl
  refine ⟨m, u, ?_⟩
  have r1 : processParsed (.makeCredential a) Toy.ch ((booted software).withOracle Toy.good) =
      (.ok (.makeCredential m), (run software reg (booted software)).2) := by
    rw [← p2, ← e1, ← m1]
  have r2 : processParsed (.getAssertion g) Toy.ch ((registered software).withOracle Toy.good) =
      (.ok (.getAssertion u), (run software use (registered software)).2) := by
    rw [← q1, ← e2, ← u1]
  generalize hb : booted software = bt at *
  obtain ⟨x, y, k1, k2, _⟩ := C69_registration r1 (by rw [p3, List.length_append, hl]; omega)
  have hw : Without (fun _ => True) (Unregisters a m) (stepM (.ctap2 Toy.ch (bytesOf reg)) (bt.withOracle Toy.good)).2
      (registered software) := by
    rw [e0]; exact .start
  obtain ⟨u', x', y', v1, v2, v3, v4⟩ := C69_stored hr trivial p1 r1 p4 hw (by rw [q3, p5]) (by rw [q4, m2]) r2
  cases v1
  obtain ⟨rfl, rfl⟩ := k1.unique v3
  refine ⟨x, y, m1, k1, ?_, u1, ?_⟩
  · rw [← p3]; exact k2 m3
  · rw [← q2]; exact v4 (by rw [q2, List.length_append, hl]; omega)

theorem regParsed_spec {D : Dev} (h : regParsed D = true) : ∃ a, Command.deserialize (bytesOf reg) = .ok (.makeCredential a) ∧
    parse D reg = .makeCredential a ∧ a.clientDataHash = Toy.cdh ∧ a.options.rk = true ∧ a.rp.id = b! "a.com" := by
  unfold regParsed at h
  unfold parse
  revert h
  cases Command.deserialize (bytesOf reg) with
  | ok c =>
    cases c <;> intro h <;> simp only [Bool.and_eq_true, beq_iff_eq, Bool.false_eq_true] at h
    exact ⟨_, rfl, rfl, h.1.1, h.1.2, h.2⟩
  | error e => intro h; cases h

theorem useParsed_spec {D : Dev} (h : useParsed D = true) : ∃ a, parse D use = .getAssertion a ∧ a.clientDataHash = Toy.cdh ∧
    a.rpId = b! "a.com" ∧ a.allowList = some [{ id := newId }] := by
  unfold useParsed at h
  revert h
  cases parse D use <;> intro h <;> simp only [Bool.and_eq_true, beq_iff_eq, Bool.false_eq_true] at h
  exact ⟨_, rfl, h.1.1, h.1.2, h.2⟩

theorem isRegistered_spec {D : Dev} (h : isRegistered D = true) : ∃ m, (run D reg (booted D)).1 = .ok (.makeCredential m) ∧
    credentialIdIn m.authData = newId ∧ m.x5c = none ∧ m.authData.length < 1000 := isMc_spec h
theorem isUsed_spec {D : Dev} (h : isUsed D = true) : ∃ g, (run D use (registered D)).1 = .ok (.getAssertion g) ∧
    g.authData.length < 1000 := isGa_spec h

theorem same {D D' : Dev} (h : D = D') (h0 : (regParsed D' && useParsed D') = true) (h1 : isAlive D' = true)
    (h2 : isRegistered D' = true) (h3 : isUsed D' = true) : all D = true := by
  subst h
  simp only [Bool.and_eq_true] at h0
  simp only [all, h0.1, h0.2, h1, h2, h3, Bool.and_self]

theorem works {B : Board} (h : all (@software B) = true) :
    ∃ m g x y, (run (@software B) reg (booted (@software B))).1 = .ok (.makeCredential m) ∧ KeyIn m.authData x y ∧
      Verifies x y (m.authData ++ Toy.cdh) m.sig ∧
      (run (@software B) use (registered (@software B))).1 = .ok (.getAssertion g) ∧
      Verifies x y (g.authData ++ Toy.cdh) g.signature := by
  simp only [all, Bool.and_eq_true] at h
  obtain ⟨⟨⟨⟨h1, r⟩, u⟩, h2⟩, h3⟩ := h
  obtain ⟨a, p1, p2, p3, p4, p5⟩ := regParsed_spec r
  obtain ⟨g, q1, q2, q3, q4⟩ := useParsed_spec u
  obtain ⟨m, m1, m2, m3, m4⟩ := isRegistered_spec h2
  obtain ⟨u, u1, u2⟩ := isUsed_spec h3
  exact combined h1 p1 p2 p3 p4 p5 q1 q2 q3 q4 m1 m2 m3 m4 u1 u2

/-- C69: on this device the registration succeeds and its signature verifies under the key in the answer, and so does the
signature of the assertion after it. -/
example : ∃ m g x y, (run (@software board) reg (booted (@software board))).1 = .ok (.makeCredential m) ∧ KeyIn m.authData x y ∧
    Verifies x y (m.authData ++ Toy.cdh) m.sig ∧
    (run (@software board) use (registered (@software board))).1 = .ok (.getAssertion g) ∧
    Verifies x y (g.authData ++ Toy.cdh) g.signature :=
  works (same (Fast.dev_eq board) parsed alive is_registered is_used)

end Verif.Device.Real
