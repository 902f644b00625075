import Verif.Ctap.RequestEnc
import Verif.Ctap.PropsWire
import Verif.Ctap.Toy

/-!
# Properties C77 and C78: requests

`Command.Says` (`RequestSpec.lean`) is the format of the requests, as tables. **C77**: what follows the format is understood as what it
says, every request can be said, and everything else in a message has no effect. **C78**: nothing else is accepted.
-/
namespace Verif.Ctap
open Verif.Cbor (Value)
section
variable [Dev]

/-- **C77**: a message that says a command is understood as this command. -/
theorem C77_understood {msg : Bytes} {cmd : Command} (h : cmd.Says Dev.wordBits msg) : Command.deserialize msg = .ok cmd := by
  obtain ⟨c, rest, rfl, h⟩ := h
  refine deserialize_iff.2 ⟨c, rest, rfl, ?_⟩
  rcases h with h | ⟨v, h1, rfl, h2⟩
  · exact .inl h
  · exact .inr ⟨v, cborRead_enc h1, carries_imp (fun _ _ _ ⟨k, a1, a2, _⟩ => ⟨k, a1, a2, (nomatch ·)⟩) h1.1 h2⟩

/-- **C77**: no message says two commands. -/
theorem C77_one_meaning {msg : Bytes} {cmd cmd' : Command} (h : cmd.Says Dev.wordBits msg) (h' : cmd'.Says Dev.wordBits msg) : cmd = cmd' := by
  have := C77_understood h
  rw [C77_understood h'] at this
  exact (Except.ok.inj this).symm

/-- **C77**: every command, with all combinations of its parameters within their ranges, can be said. -/
theorem C77_expressible {cmd : Command} (h : cmd.Typed Dev.wordBits) : ∃ msg, cmd.Says Dev.wordBits msg := command_says h

/-- **C77**: two messages that say the same are answered in the same way and have the same effect, in all states and environments. So
fields that the format does not mention, and whether a default is left out or written, make no difference. -/
theorem C77_same {msg msg' : Bytes} {cmd : Command} (h : cmd.Says Dev.wordBits msg) (h' : cmd.Says Dev.wordBits msg') (ch : Channel) :
    stepM (.ctap2 ch msg) = stepM (.ctap2 ch msg') := by
  simp only [stepM, processCommand, C77_understood h, C77_understood h']

/-- **C78**, on targets with 64-bit words: exactly the messages that say a command are understood. -/
theorem C78_exact_partial (hw : Dev.wordBits = 64) {msg : Bytes} {cmd : Command} : Command.deserialize msg = .ok cmd ↔ cmd.Says Dev.wordBits msg := by
  refine ⟨fun h => ?_, C77_understood⟩
  obtain ⟨c, rest, rfl, hc⟩ := deserialize_iff.1 h
  refine ⟨c, rest, rfl, ?_⟩
  rcases hc with hc | ⟨v, h1, h2⟩
  · exact .inl hc
  · obtain ⟨h3, _, h4⟩ := cborRead_ok h1
    refine .inr ⟨v, h3, h4 hw, carries_imp (fun v n hv ⟨k, a1, a2, _⟩ => ⟨k, a1, a2, fun _ => ?_⟩) h3.1 h2⟩
    subst a1
    rw [hw]
    exact hv

/-- **C78**, on all targets: what is understood is a command with parameters in their ranges, and the message contains a value that
says it, if numbers that do not fit in a word may stand for their remainder. What is missing for 32-bit words: see
`C78_false_usize32`, and `C02_false_usize32` for the lengths of strings. -/
theorem C78_accepted_partial {msg : Bytes} {cmd : Command} (h : Command.deserialize msg = .ok cmd) :
    cmd.Typed Dev.wordBits ∧ ∃ c rest, msg = c :: rest ∧ (cmd.Bare c ∨ ∃ v, Sendable Dev.wordBits v ∧ cborRead rest = .ok v ∧
      cborRead v.enc = .ok v ∧ cmd.Carries Dev.wordBits true c v) := by
  obtain ⟨c, rest, rfl, hc⟩ := deserialize_iff.1 h
  rcases hc with hc | ⟨v, h1, h2⟩
  · exact ⟨by cases cmd <;> first | exact True.intro | exact False.elim hc, c, rest, rfl, .inl hc⟩
  · obtain ⟨h3, h4, _⟩ := cborRead_ok h1
    exact ⟨carries_typed h3.1 h2, c, rest, rfl, .inr ⟨v, h3, h1, h4, h2⟩⟩

/-- **C78**: what is understood can also be said properly, with the same answer and effect. -/
theorem C78_rephrased {msg : Bytes} {cmd : Command} (h : Command.deserialize msg = .ok cmd) :
    ∃ msg', cmd.Says Dev.wordBits msg' ∧ ∀ ch, stepM (.ctap2 ch msg) = stepM (.ctap2 ch msg') := by
  obtain ⟨msg', h'⟩ := C77_expressible (C78_accepted_partial h).1
  exact ⟨msg', h', fun ch => by simp only [stepM, processCommand, h, C77_understood h']⟩

/-- **C78**: a message that says no command is answered with one byte that is an error, and changes nothing. -/
theorem C78_refused {msg : Bytes} (h : ∀ cmd : Command, ∀ c rest, msg = c :: rest → ¬ cmd.Bare c ∧
    ∀ v, cborRead rest = .ok v → ¬ cmd.Carries Dev.wordBits true c v) (ch : Channel) (s : St) :
    ∃ b, b ≠ 0 ∧ stepM (.ctap2 ch msg) s = (.ok (.ctap2 [b]), s) := by
  cases hd : Command.deserialize msg with
  | ok cmd =>
    obtain ⟨c, rest, h1, h2⟩ := deserialize_iff.1 hd
    obtain ⟨h3, h4⟩ := h cmd c rest h1
    rcases h2 with h2 | ⟨v, h2, h5⟩
    · exact absurd h2 h3
    · exact absurd h5 (h4 v h2)
  | error e =>
    refine ⟨e.toByte, Status.toByte_ne fun he => (inferInstance : NE (Command.deserialize msg)).out (he ▸ hd), ?_⟩
    simp only [stepM, processCommand, hd]
    rfl

end

/-! ## Concrete cases -/
section
open Toy

theorem of_toOption {x : Except Status Command} {a : Command} (h : x.toOption = some a) : x = .ok a := by
  cases x with
  | error e => cases h
  | ok b => cases h; rfl

/-- The parameters of a request for the key of the first protocol, with a field that the format does not have. -/
def keyRequest : Value := .map [(.unsigned 1, .unsigned 1), (.unsigned 2, .unsigned 2), (.unsigned 99, .text (b! "x"))]

/-- A message with an unknown field says a command. -/
example : (Command.clientPin { proto := .v1, sub := .getKeyAgreement }).Says 32 [0x06, 0xA3, 0x01, 0x01, 0x02, 0x02, 0x18, 99, 0x61, 0x78] :=
  ⟨0x06, _, rfl, .inr ⟨keyRequest, ⟨by
      have := keyOk_wf (k := .text (b! "x")) (by decide +kernel)
      refine ⟨by decide, ⟨?_, ?_, ?_, ?_, ?_, this, trivial⟩, ?_⟩ <;> simp [Value.WF, Value.enc, Verif.Cbor.head, Verif.Cbor.LexLt], by decide⟩, by decide +kernel, rfl, _, rfl, ⟨.unsigned 1, by simp, rfl⟩, ⟨.unsigned 2, by simp, rfl⟩,
    .inl ⟨rfl, by simp [Absent]⟩, .inl ⟨rfl, by simp [Absent]⟩, .inl ⟨rfl, by simp [Absent]⟩, .inl ⟨rfl, by simp [Absent]⟩,
    .inl ⟨rfl, by simp [Absent]⟩, .inl ⟨rfl, by simp [Absent]⟩⟩⟩

/-- It is understood. -/
example : Command.deserialize [0x06, 0xA3, 0x01, 0x01, 0x02, 0x02, 0x18, 99, 0x61, 0x78] = .ok (.clientPin { proto := .v1, sub := .getKeyAgreement }) :=
  of_toOption (by decide +kernel)

/-- A request for an assertion with many parameters. -/
def manyParameters : GaParams where
  rpId := b! "example.com"
  clientDataHash := List.replicate 32 7
  allowList := some [{ id := [1, 2, 3], transports := some [.usb, .nfc] }]
  ext.hmacSecret := some { keyAgreement := ⟨List.replicate 32 1, List.replicate 32 2, -25, 2, 1⟩, saltEnc := List.replicate 32 3, saltAuth := [4], proto := .v1 }
  options.up := false
  authParam := some [5]
  authProto := some .v2

/-- It is of the types. -/
example : (Command.getAssertion manyParameters).Typed 32 := by
  refine ⟨keyOk_wf (k := .text (b! "example.com")) (by decide +kernel), by simp [IsBytes, manyParameters], ?_, ⟨?_, by decide⟩, ?_⟩
  · rintro l ⟨⟩
    refine ⟨by decide, fun d hd => ?_⟩
    obtain rfl := List.mem_singleton.1 hd
    exact ⟨by simp [IsBytes], by rintro l ⟨⟩; decide⟩
  · rintro h ⟨⟩
    exact ⟨⟨rfl, .inl rfl, rfl, by decide, by decide⟩, by simp [IsBytes], by simp [IsBytes]⟩
  · rintro b ⟨⟩
    simp [IsBytes]

/-- A message that says nothing: the option `up` is false in a registration. -/
example : (match Command.deserialize ([0x01, 0xA5, 0x01, 0x41, 0x00, 0x02, 0xA1, 0x62, 0x69, 0x64, 0x61, 0x78, 0x03, 0xA1, 0x62, 0x69, 0x64, 0x41, 0x00, 0x04, 0x80, 0x07, 0xA1] ++
    [0x62, 0x75, 0x70, 0xF4]) with | .error e => e == .invalidOption | .ok _ => false) = true := by
  decide +kernel

/-- The request to read 10 bytes of the large blobs at offset `2^32`. -/
def farRequest : Value := .map [(.unsigned 1, .unsigned 10), (.unsigned 3, .unsigned (2 ^ 32))]

/-- **C78** is false on targets with 32-bit words: the cast `as usize` (`command.rs:389-396`) drops the high bits of the numbers of a
request for large blobs. The request to read at offset `2^32` is understood as one to read at offset 0, which it does not say. -/
theorem C78_false_usize32 : Command.deserialize (0x0C :: farRequest.enc) = .ok (.largeBlobs { get := some 10, offset := 0 }) ∧
    ¬ (Command.largeBlobs { get := some 10, offset := 0 }).Says 32 (0x0C :: farRequest.enc) := by
  have hr : cborRead farRequest.enc = .ok farRequest := cborRead_enc ⟨by
    refine ⟨by decide, ⟨?_, ?_, ?_, ?_, trivial⟩, ?_⟩ <;> simp [Value.WF, Value.enc, Verif.Cbor.head, Verif.Cbor.LexLt], by decide⟩
  refine ⟨of_toOption (by decide +kernel), ?_⟩
  rintro ⟨c, rest, he, hb | ⟨v, h1, h2, _, h3, m, rfl, h4, h5, ⟨x, h6, k, rfl, h7, h8⟩, h9⟩⟩
  · exact hb
  · have hc : cborRead rest = .ok (.map m) := by rw [h2]; exact cborRead_enc h1
    cases he
    rw [hr] at hc
    cases hc
    simp at h6
    subst h6
    exact absurd (h8 rfl) (by decide)

end
end Verif.Ctap
