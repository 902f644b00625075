import Verif.Ctap.WireSpec
import Verif.Ctap.WireRespLemmas

/-!
# C74: every answer is a well-formed message, and failures are not reported as success
-/
namespace Verif.Ctap
open Verif.Cbor (Value readNested)
set_option linter.unusedSectionVars false
set_option maxRecDepth 100000

section
variable [Dev] {P : Oracle → Prop} {s s' : St}

theorem Status.toByte_inj {a b : Status} (h : a.toByte = b.toByte) : a = b := by
  cases a <;> cases b <;> first | rfl | exact absurd h (by decide)

theorem Status.toByte_ne {e : Status} (h : e ≠ .ok) : e.toByte ≠ 0 := fun h' => h (Status.toByte_inj h')

theorem respond_ok {r : Response} {b : Bytes} (h : respond r s = (.ok b, s')) : r.SentAs b := by
  obtain ⟨o, ho, h1⟩ := encodeResponse_eq r
  simp only [respond, bind_ok, pure_ok] at h
  obtain ⟨b', s1, h2, _, s2, _, _, s3, _, rfl, rfl⟩ := h
  unfold Response.SentAs
  rw [ho]
  cases o with
  | none =>
    rw [h1] at h2
    cases h2
    rfl
  | some v =>
    obtain ⟨e, he, h1⟩ := h1
    rw [h1] at h2
    cases h2
    refine ⟨e, ?_, rfl⟩
    unfold cborWrite at he
    split at he
    · cases he; assumption
    · cases he

theorem respond_err {r : Response} {e : Status} : respond r s ≠ (.err e, s') := by
  obtain ⟨o, ho, h1⟩ := encodeResponse_eq r
  intro h
  have : ∀ b, encodeResponse r s ≠ (.ok b, s) := by
    intro b hb
    simp only [respond, bind_def, M.bind, hb, effect] at h
    split at h
    · rename_i heq
      split at heq
      · cases heq
      · cases heq
        cases r <;> cases h
    · rename_i heq
      split at heq <;> cases heq
    · cases h
    · cases h
  cases o with
  | none => exact this _ (h1 s)
  | some v =>
    obtain ⟨b, _, h1⟩ := h1
    exact this _ (h1 s)

/-- How an answer comes about. -/
theorem step_answer {ch : Channel} {msg b : Bytes} (h : stepM (.ctap2 ch msg) s = (.ok (.ctap2 b), s')) :
    (∃ e, Command.deserialize msg = .error e ∧ b = [e.toByte]) ∨
    ∃ cmd, Command.deserialize msg = .ok cmd ∧ ((∃ e t, processParsed cmd ch s = (.err e, t) ∧ b = [e.toByte]) ∨
      ∃ r t, processParsed cmd ch s = (.ok r, t) ∧ r.SentAs b) := by
  simp only [stepM, bind_ok, pure_ok, Reply.ctap2.injEq] at h
  obtain ⟨b', s1, h, rfl, rfl⟩ := h
  unfold processCommand at h
  cases hd : Command.deserialize msg with
  | error e =>
    simp only [hd, pure_ok] at h
    exact .inl ⟨e, rfl, h.1.symm⟩
  | ok cmd =>
    refine .inr ⟨cmd, rfl, ?_⟩
    simp only [hd, errorByte] at h
    split at h
    · rename_i e s2 he
      cases h
      simp only [bind_def, M.bind] at he
      split at he
      · exact absurd he respond_err
      · rename_i hp; cases he; exact .inl ⟨_, _, hp, rfl⟩
      · cases he
      · cases he
    · simp only [bind_ok] at h
      obtain ⟨r, s2, h1, h2⟩ := h
      exact .inr ⟨r, s2, h1, respond_ok h2⟩

/-- **C74**. Every answer to a CTAP2 message is well-formed: the status byte of an error and nothing else, or the status byte of
success, possibly followed by a map in canonical encoding, nested at most four levels deep, with texts that are texts. -/
theorem C74_answer {b : Bool} (hr : Reach P b s) (hc : ConfigFits) {o : Oracle} {ch : Channel} {msg ans : Bytes}
    (h : stepM (.ctap2 ch msg) (s.withOracle o) = (.ok (.ctap2 ans), s')) (hl : ans.length < 2 ^ 64) : WellFormedAnswer ans := by
  rcases step_answer h with ⟨e, h1, rfl⟩ | ⟨cmd, _, ⟨e, t, h1, rfl⟩ | ⟨r, t, h1, h2⟩⟩
  · exact .error _ (Status.toByte_ne fun he => (inferInstance : NE (Command.deserialize msg)).out (he ▸ h1))
  · exact .error _ (Status.toByte_ne fun he => (inferInstance : NF (processParsed cmd ch)).out (s.withOracle o) (by rw [h1, he]))
  · unfold Response.SentAs at h2
    have hw := WireOk.reach hr
    have hw : WireOk (s.withOracle o) := ⟨hw.data, hw.creds, hw.retries⟩
    split at h2
    · cases h2
    · subst h2; exact .done
    · rename_i v hv
      obtain ⟨e, he, rfl⟩ := h2
      obtain ⟨m, rfl⟩ := response_map hv
      have hwf := Verif.Cbor.wf_of_fit _ _ _ he (by simp only [List.length_cons] at hl; omega) (response_fits hc hw h1 hv)
      have hd := Verif.Cbor.write_ok_depth _ _ _ he
      have hq := Verif.Cbor.C01_write_canonical (Nat.le_refl 64) _ _ hwf hd
      rw [show Verif.Cbor.writeNested (Value.map m) (some 4) = (Value.map m).write (some 4) from rfl, he] at hq
      cases hq
      exact .data m hwf (Int.ofNat_le.1 hd)

/-- **C74**. The first byte tells whether the command was executed: it is that of success exactly if the message is a command and
the command succeeded. -/
theorem C74_status {ch : Channel} {msg ans : Bytes} (h : stepM (.ctap2 ch msg) s = (.ok (.ctap2 ans), s')) :
    ans.head? = some 0 ↔ ∃ cmd r t, Command.deserialize msg = .ok cmd ∧ processParsed cmd ch s = (.ok r, t) := by
  have hne : ∀ {e : Status}, e ≠ .ok → [e.toByte].head? ≠ some 0 := fun he h' => Status.toByte_ne he (Option.some.inj h')
  rcases step_answer h with ⟨e, h1, rfl⟩ | ⟨cmd, h0, ⟨e, t, h1, rfl⟩ | ⟨r, t, h1, h2⟩⟩
  · refine ⟨fun h' => absurd h' (hne fun he => (inferInstance : NE (Command.deserialize msg)).out (he ▸ h1)), ?_⟩
    rintro ⟨cmd, r, t, h2, _⟩
    rw [h1] at h2
    cases h2
  · refine ⟨fun h' => absurd h' (hne fun he => (inferInstance : NF (processParsed cmd ch)).out s (by rw [h1, he])), ?_⟩
    rintro ⟨cmd', r, t, h2, h3⟩
    rw [h0] at h2
    cases h2
    rw [h1] at h3
    cases h3
  · refine ⟨fun _ => ⟨cmd, r, t, h0, h1⟩, fun _ => ?_⟩
    unfold Response.SentAs at h2
    split at h2
    · cases h2
    · subst h2; rfl
    · obtain ⟨e, _, rfl⟩ := h2; rfl

/-- **C74**. The client decodes what the device meant: after a successful command, the rest of the answer is empty if the response
carries no data, and otherwise the decoder of canonical CBOR returns exactly the data of the response. -/
theorem C74_decodes {b : Bool} (hr : Reach P b s) (hc : ConfigFits) {o : Oracle} {ch : Channel} {msg ans : Bytes} {cmd : Command}
    {r : Response} {t : St} (h : stepM (.ctap2 ch msg) (s.withOracle o) = (.ok (.ctap2 ans), s')) (hl : ans.length < 2 ^ 64)
    (hd : Command.deserialize msg = .ok cmd) (hp : processParsed cmd ch (s.withOracle o) = (.ok r, t)) :
    ∃ body, ans = 0 :: body ∧
      ((r.toCbor = some none ∧ body = []) ∨ ∃ v, r.toCbor = some (some v) ∧ readNested 64 body (some 4) = .ok v) := by
  have hw := WireOk.reach hr
  have hw : WireOk (s.withOracle o) := ⟨hw.data, hw.creds, hw.retries⟩
  rcases step_answer h with ⟨e, h1, rfl⟩ | ⟨cmd', h0, ⟨e, t, h1, rfl⟩ | ⟨r', t', h1, h2⟩⟩
  · rw [hd] at h1; cases h1
  · rw [hd] at h0; cases h0; rw [hp] at h1; cases h1
  · rw [hd] at h0; cases h0; rw [hp] at h1; cases h1
    unfold Response.SentAs at h2
    split at h2
    · cases h2
    · rename_i hv; subst h2; exact ⟨[], rfl, .inl ⟨hv, rfl⟩⟩
    · rename_i v hv
      obtain ⟨e, he, rfl⟩ := h2
      exact ⟨e, rfl, .inr ⟨v, hv, Verif.Cbor.read_write_fit he (by simp only [List.length_cons] at hl; omega) (response_fits hc hw hp hv)⟩⟩

end

/-! ## The hypotheses hold: a registration, a refused login and GetInfo -/

namespace Toy

theorem configFits : @ConfigFits dev := by
  constructor <;> decide

/-- The answer to a message. -/
def answer (o : Oracle) (i : Input) (s : St) : Bytes :=
  match (stepM i (s.withOracle o)).1 with
  | .ok (.ctap2 b) => b
  | _ => []

theorem step_answered {o : Oracle} {i : Input} {s : St} (h : (answer o i s).isEmpty = false) :
    stepM i (s.withOracle o) = (.ok (.ctap2 (answer o i s)), step o i s) := by
  unfold answer step at *
  rcases h1 : stepM i (s.withOracle o) with ⟨r, t⟩
  rw [h1] at h
  split at h
  · next e => simp only at e; subst e; rfl
  · simp at h

def getInfoInput : Input := .ctap2 (.main [1, 2, 3, 4]) [0x04]

/-- The keys of the map in an answer. -/
def answerKeys (b : Bytes) : List Nat :=
  match readNested 64 (b.drop 1) (some 4) with
  | .ok (.map m) => m.filterMap fun e => match e.1 with | .unsigned n => some n | _ => none
  | _ => []

example : WellFormedAnswer (answer good (register rpA [1] true none) booted) ∧
    answerKeys (answer good (register rpA [1] true none) booted) = [1, 2, 3] :=
  ⟨C74_answer (reach_booted (P := fun _ => True) trivial) configFits (step_answered (by decide +kernel)) (by decide +kernel), by decide +kernel⟩

example : WellFormedAnswer (answer good getInfoInput booted) ∧
    answerKeys (answer good getInfoInput booted) = [1, 2, 3, 4, 5, 6, 8, 9, 10, 11, 12, 13, 15, 16, 20] :=
  ⟨C74_answer (reach_booted (P := fun _ => True) trivial) configFits (step_answered (by decide +kernel)) (by decide +kernel), by decide +kernel⟩

example : WellFormedAnswer (answer good (.ctap2 (.main [1, 2, 3, 4]) [0x08]) booted) ∧
    answer good (.ctap2 (.main [1, 2, 3, 4]) [0x08]) booted = [0x30] :=
  ⟨C74_answer (reach_booted (P := fun _ => True) trivial) configFits (step_answered (by decide +kernel)) (by decide +kernel), by decide +kernel⟩

/-- The registration succeeded, as its answer says, and the answer is decoded to the response. -/
example : ∃ (r : Response) (body : Bytes) (v : Value), answer good (register rpA [1] true none) booted = 0 :: body ∧
    r.toCbor = some (some v) ∧ readNested 64 body (some 4) = .ok v := by
  have h := step_answered (o := good) (i := register rpA [1] true none) (s := booted) (by decide +kernel)
  obtain ⟨cmd, r, t, h1, h2⟩ := (C74_status h).1 (by decide +kernel)
  obtain ⟨body, h3, ⟨h4, h5⟩ | ⟨v, h4, h5⟩⟩ := C74_decodes (reach_booted (P := fun _ => True) trivial) configFits h (by decide +kernel) h1 h2
  · exact absurd (congrArg List.length (h3.trans (by rw [h5]))) (by decide +kernel)
  · exact ⟨r, body, v, h3, h4, h5⟩

end Toy
end Verif.Ctap
