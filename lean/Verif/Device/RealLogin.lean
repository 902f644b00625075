import Verif.Device.Real
import Verif.Device.PropsUsb

/-!
# C83: an example

A registration and a login over USB, run in the kernel with the cryptography of the firmware (`Fast.dev_eq`).
-/
namespace Verif.Device.Real
open Verif.Ctap hiding Transport
open Verif.Hid (Transport IsInit)
set_option maxRecDepth 100000
set_option linter.unusedVariables false

/-- The device of `Real.lean` with 64-bit words, for which `C78_exact_partial` tells what the messages of the example say. -/
@[reducible] def board64 : Board := { board with wordBits := 64, wordBits_eq := .inr rfl }

/-- The answer to a message. -/
def ansOf (D : Dev) (i : Input) (s : St) : Bytes :=
  match (stepM i (s.withOracle Toy.good)).1 with
  | .ok (.ctap2 b) => b
  | _ => []

/-- It begins with the status of success, and fits into the packets of USB. -/
def isGood (b : Bytes) : Bool := b.head? == some 0 && decide (b.length ≤ 7609)

/-- The first channel that the device gives out. -/
def cid1 : Bytes := [0, 0, 0, 1]
def regU : Input := .ctap2 (.main cid1) (bytesOf reg)
def useU : Input := .ctap2 (.main cid1) (bytesOf use)

def reg' (D : Dev) : Bool := isGood (ansOf D regU (booted D)) && decide ((bytesOf reg).length ≤ 7609)
def use' (D : Dev) : Bool := isGood (ansOf D useU (step D regU (booted D))) && decide ((bytesOf use).length ≤ 7609)
def isRegistered' (D : Dev) : Bool := isMc (processParsed (parse D reg) (.main cid1) ((booted D).withOracle Toy.good)).1

theorem parsed64 : (regParsed (Fast.dev board64) && useParsed (Fast.dev board64)) = true := by decide +kernel
theorem alive64 : isAlive (Fast.dev board64) = true := by decide +kernel
theorem is_registered64 : isRegistered' (Fast.dev board64) = true := by decide +kernel
theorem reg64 : reg' (Fast.dev board64) = true := by decide +kernel
theorem use64 : use' (Fast.dev board64) = true := by decide +kernel

theorem ansOf_step {D : Dev} {i : Input} {s : St} (h : isGood (ansOf D i s) = true) :
    stepM i (s.withOracle Toy.good) = (.ok (.ctap2 (ansOf D i s)), step D i s) ∧ (ansOf D i s).head? = some 0 ∧ (ansOf D i s).length ≤ 7609 := by
  simp only [isGood, Bool.and_eq_true, beq_iff_eq, decide_eq_true_eq] at h
  refine ⟨?_, h⟩
  unfold ansOf step at *
  rcases h1 : stepM i (s.withOracle Toy.good) with ⟨r, t⟩
  rw [h1] at h
  split at h
  · next e => simp only at e; subst e; rfl
  · simp at h

/-- A packet that asks for a channel. -/
def initPacket : Bytes := [0xFF, 0xFF, 0xFF, 0xFF] ++ [0x86, 0, 8] ++ ([1, 2, 3, 4, 5, 6, 7, 8] ++ List.replicate 49 0)

theorem isInitPacket : IsInit initPacket [0xFF, 0xFF, 0xFF, 0xFF] 0x06 8 ([1, 2, 3, 4, 5, 6, 7, 8] ++ List.replicate 49 0) :=
  ⟨0x86, 0, 8, rfl, rfl, rfl, rfl, rfl⟩

/-- The device fresh from the factory; after power-up; after a client got a channel. -/
def dev0 : Usb.Device := { st := Toy.factory, hid := ⟨Hid.Hid.new 0, Hid.Hid.new 0⟩, wink := none }
def dev1 (D : Dev) : Usb.Device := (Usb.boot (dev0.withOracle Toy.good)).2
def dev2 (D : Dev) : Usb.Device := (Usb.step (.packet .main initPacket) ((dev1 D).withOracle Toy.good)).2

/-- A registration and a login over USB. -/
def Works (D : Dev) : Prop := ∃ d ac g x y ans ans' d3 d4, Usb.Reach (fun _ => True) true d ∧
  Exchanged .main cid1 (bytesOf reg) ans (d.withOracle Toy.good) d3 ∧ GivesKey ac d3.st.p.attestation ans newId x y ∧
  Exchanged .main cid1 (bytesOf use) ans' (d3.withOracle Toy.good) d4 ∧ ProvesKey g ans' newId x y

theorem combined64 {B : Board} {ac : McParams} {g : GaParams} {m : McResponse} (hw : B.wordBits = 64) (hmax : B.maxMsgSize = 7609)
    (h1 : isAlive software = true)
    (p1 : Command.deserialize (bytesOf reg) = .ok (.makeCredential ac)) (p2 : parse software reg = .makeCredential ac)
    (p4 : ac.options.rk = true) (p5 : ac.rp.id = b! "a.com")
    (q1 : Command.deserialize (bytesOf use) = .ok (.getAssertion g)) (q3 : g.rpId = b! "a.com")
    (q4 : g.allowList = some [{ id := newId }])
    (m1 : (processParsed (parse software reg) (.main cid1) ((booted software).withOracle Toy.good)).1 = .ok (.makeCredential m)) (m2 : credentialIdIn m.authData = newId)
    (r1 : reg' software = true) (u1 : use' software = true) :
    Works software := by
  simp only [reg', use', Bool.and_eq_true, decide_eq_true_eq] at r1 u1
  obtain ⟨r1, r2⟩ := r1
  obtain ⟨u1, u2⟩ := u1
  obtain ⟨a1, a2, a3⟩ := ansOf_step r1
  obtain ⟨b1, b2, b3⟩ := ansOf_step u1
  have hr1 : Usb.Reach (fun _ => True) true (dev1 software) := by
    have : Usb.Reach (fun _ => True) (isAlive software) (dev1 software) :=
      .boot (P := fun _ => True) Toy.good trivial (.factory Toy.env0 (some ⟨List.replicate 32 7, [1, 2, 3]⟩) _ none)
    rwa [h1] at this
  have hi : Usb.Idle .main (dev1 software) := Usb.C70_boot _ _
  obtain ⟨q, data', c1, c2, c3, c4, c5⟩ := Usb.C70_channel (d := (dev1 software).withOracle Toy.good) hi isInitPacket (by show 0 + 2 < 2 ^ 32; decide)
  have hcid : (data'.drop 8).take 4 = cid1 := by
    obtain ⟨q', data'', k1, k2, _, k4, _⟩ := Usb.init_packet (d := (dev1 software).withOracle Toy.good) hi.1 hi.2.1 hi.2.2 (Nat.le_trans (by decide) Dev.maxMsgSize_ge) isInitPacket
    have e : [q'] = [q] := Res.ok.inj (k1.symm.trans c1)
    cases e
    rw [← (Usb.isInit_data k2 c2).2, k4]
    show Hid.natToCid (0 + 1) = cid1
    decide
  rw [hcid] at c4
  have hr2 : Usb.Reach (fun _ => True) true (dev2 software) := by
    have := Usb.Reach.step (P := fun _ => True) Toy.good trivial (.packet .main initPacket) hr1
    rw [c1] at this
    exact this
  have hst : (dev2 software).st.withOracle Toy.good = (booted software).withOracle Toy.good := by
    show (Usb.step (.packet .main initPacket) ((dev1 software).withOracle Toy.good)).2.st.withOracle Toy.good = _
    rw [c5]
    rfl
  have hs1 : stepM (.ctap2 (Usb.channel .main cid1) (bytesOf reg)) ((dev2 software).withOracle Toy.good).st =
      (.ok (.ctap2 (ansOf software regU (booted software))), step software regU (booted software)) := by
    show stepM regU ((dev2 software).st.withOracle Toy.good) = _
    rw [hst]; exact a1
  obtain ⟨d3, x1, x2, x3⟩ := can_exchange (d := (dev2 software).withOracle Toy.good) c4 (by show _ ≤ B.maxMsgSize; omega) hs1 a3
  have hs2 : stepM (.ctap2 (Usb.channel .main cid1) (bytesOf use)) (d3.withOracle Toy.good).st =
      (.ok (.ctap2 (ansOf software useU (step software regU (booted software)))), step software useU (step software regU (booted software))) := by
    show stepM useU (d3.st.withOracle Toy.good) = _
    rw [x2]; exact b1
  obtain ⟨d4, y1, y2, y3⟩ := can_exchange (d := d3.withOracle Toy.good) x3 (by show _ ≤ B.maxMsgSize; omega) hs2 b3
  have w : Dev.wordBits = 64 := hw
  have hm1 := (C78_exact_partial w).1 p1
  have hm2 := (C78_exact_partial w).1 q1
  obtain ⟨id, x, y, z1, z2⟩ := C83_usb_registration hr2 trivial hm1 x1 a2
  have hid : id = newId := by
    obtain ⟨m', d, c, s1, s2, s3, _, _, _, s4, rfl, _⟩ := z1
    have hp : processParsed (.makeCredential ac) (.main cid1) ((booted software).withOracle Toy.good) =
        (.ok (.makeCredential m), (processParsed (parse software reg) (.main cid1) ((booted software).withOracle Toy.good)).2) := by
      rw [← p2, ← m1]
    have hrb : Reach (fun _ => True) true (booted software) := Usb.C70_commands hr1
    have hsaid := C79_format hrb configFits (show stepM (.ctap2 (.main cid1) (bytesOf reg)) _ = _ from a1) (by omega) p1 hp
    have := C79_one_meaning (r := .makeCredential m') (r' := .makeCredential m) rfl s1 hsaid
    cases this
    rw [← m2, s3]
    exact (credentialIdIn_bytes s2 s4).symm
  subst hid
  exact ⟨dev2 software, ac, g, x, y, _, _, d3, d4, hr2, x1, z1, y1, C83_usb_stored hr2 trivial hm1 x1 a2 p4 z1 .start trivial hm2 (q3.trans p5.symm) q4 y1 b2⟩


theorem same64 {D D' : Dev} (h : D = D') (h0 : (regParsed D' && useParsed D') = true) (h1 : isAlive D' = true)
    (h2 : isRegistered' D' = true) (h3 : reg' D' = true) (h4 : use' D' = true) :
    regParsed D = true ∧ useParsed D = true ∧ isAlive D = true ∧ isRegistered' D = true ∧ reg' D = true ∧ use' D = true := by
  subst h
  simp only [Bool.and_eq_true] at h0
  exact ⟨h0.1, h0.2, h1, h2, h3, h4⟩

theorem useParsed_spec' {D : Dev} (h : useParsed D = true) : ∃ a, Command.deserialize (bytesOf use) = .ok (.getAssertion a) ∧
    a.rpId = b! "a.com" ∧ a.allowList = some [{ id := newId }] := by
  obtain ⟨a, h1, _, h2, h3⟩ := useParsed_spec h
  refine ⟨a, ?_, h2, h3⟩
  unfold parse at h1
  split at h1
  · next e => rw [← h1]; exact e
  · cases h1

theorem works64 {B : Board} (hw : B.wordBits = 64) (hmax : B.maxMsgSize = 7609) (h : regParsed (@software B) = true ∧ useParsed (@software B) = true ∧
    isAlive (@software B) = true ∧ isRegistered' (@software B) = true ∧ reg' (@software B) = true ∧ use' (@software B) = true) :
    Works software := by
  obtain ⟨h1, h2, h3, h4, h5, h6⟩ := h
  obtain ⟨a, p1, p2, p3, p4, p5⟩ := regParsed_spec h1
  obtain ⟨g, q1, q3, q4⟩ := useParsed_spec' h2
  obtain ⟨m, m1, m2, m3, m4⟩ := isMc_spec h4
  exact combined64 hw hmax h3 p1 p2 p4 p5 q1 q3 q4 m1 m2 h5 h6

/-- C83: a registration and a login over USB on this device succeed, so that the theorems apply to them. -/
example : Works (@software board64) :=
  works64 (B := board64) rfl rfl (same64 (Fast.dev_eq board64) parsed64 alive64 is_registered64 reg64 use64)

end Verif.Device.Real
