import Verif.Ctap.AnswerLemmas
import Verif.Ctap.Toy

/-!
# Property C79: answers in the format of the specification
-/
namespace Verif.Ctap
open Verif.Cbor (Value readNested)
set_option maxRecDepth 100000

theorem head_ne_nil (a b : Nat) : Verif.Cbor.head a b ≠ [] := by
  unfold Verif.Cbor.head
  repeat' split
  all_goals simp

theorem enc_ne_nil (v : Value) : v.enc ≠ [] := by
  cases v <;> simp [Value.enc, head_ne_nil]

section
variable [Dev] {P : Oracle → Prop} {s s' : St}

theorem format_of (hw : WireOk s) (hc : ConfigFits) {o : Oracle} {ch : Channel} {msg ans : Bytes} {cmd : Command}
    {r : Response} {t : St} (h : stepM (.ctap2 ch msg) (s.withOracle o) = (.ok (.ctap2 ans), s')) (hl : ans.length < 2 ^ 64)
    (hd : Command.deserialize msg = .ok cmd) (hp : processParsed cmd ch (s.withOracle o) = (.ok r, t)) : r.SaidBy ans := by
  have hw : WireOk (s.withOracle o) := ⟨hw.data, hw.creds, hw.retries⟩
  rcases step_answer h with ⟨e, h1, rfl⟩ | ⟨cmd', h0, ⟨e, t, h1, rfl⟩ | ⟨r', t', h1, h2⟩⟩
  · rw [hd] at h1; cases h1
  · rw [hd] at h0; cases h0; rw [hp] at h1; cases h1
  · rw [hd] at h0; cases h0; rw [hp] at h1; cases h1
    unfold Response.SentAs at h2
    split at h2
    · cases h2
    · rename_i hv; exact .inl ⟨response_empty hv, h2⟩
    · rename_i v hv
      obtain ⟨e, he, rfl⟩ := h2
      have hwf := Verif.Cbor.wf_of_fit _ _ _ he (by simp only [List.length_cons] at hl; omega) (response_fits hc hw hp hv)
      have hdp := Verif.Cbor.write_ok_depth _ _ _ he
      have hq := Verif.Cbor.C01_write_canonical (Nat.le_refl 64) _ _ hwf hdp
      rw [show Verif.Cbor.writeNested v (some 4) = v.write (some 4) from rfl, he] at hq
      cases hq
      exact .inr ⟨v, hwf, Int.ofNat_le.1 hdp, rfl, response_carried hv⟩

/-- **C79**. The answer to a command that succeeded says its response in the format of the specification. -/
theorem C79_format {b : Bool} (hr : Reach P b s) (hc : ConfigFits) {o : Oracle} {ch : Channel} {msg ans : Bytes} {cmd : Command}
    {r : Response} {t : St} (h : stepM (.ctap2 ch msg) (s.withOracle o) = (.ok (.ctap2 ans), s')) (hl : ans.length < 2 ^ 64)
    (hd : Command.deserialize msg = .ok cmd) (hp : processParsed cmd ch (s.withOracle o) = (.ok r, t)) : r.SaidBy ans :=
  format_of (WireOk.reach hr) hc h hl hd hp

/-- **C79**. The answer to a command has only one meaning: the client can recover the response. -/
theorem C79_one_meaning {ans : Bytes} {r r' : Response} (hk : r.kind = r'.kind) (h : r.SaidBy ans) (h' : r'.SaidBy ans) : r = r' := by
  have hne : ∀ v : Value, v.WF 64 → [0] ≠ (0 : UInt8) :: v.enc := by
    intro v hv he
    injection he with _ he
    exact enc_ne_nil v he.symm
  rcases h with ⟨h1, rfl⟩ | ⟨v, h1, _, rfl, h2⟩
  · rcases h' with ⟨h1', _⟩ | ⟨v', h1', _, he, _⟩
    · exact empty_one hk h1 h1'
    · exact absurd he (hne v' h1')
  · rcases h' with ⟨_, he⟩ | ⟨v', h1', _, he, h2'⟩
    · exact absurd he.symm (hne v h1)
    · injection he with _ he
      have := Verif.Cbor.enc_inj (Nat.le_refl 64) h1 h1' he
      subst this
      exact carried_one h1 hk h2 h2'

end

/-! ## The hypotheses hold: a registration -/
namespace Toy

/-- The registration succeeded, and its answer has one meaning. -/
example : (answer good (register rpA [1] true none) booted).head? = some 0 ∧
    ∃ r : Response, r.SaidBy (answer good (register rpA [1] true none) booted) ∧
      ∀ r' : Response, r'.kind = r.kind → r'.SaidBy (answer good (register rpA [1] true none) booted) → r' = r := by
  have h := step_answered (o := good) (i := register rpA [1] true none) (s := booted) (by decide +kernel)
  refine ⟨by decide +kernel, ?_⟩
  obtain ⟨cmd, r, t, h1, h2⟩ := (C74_status h).1 (by decide +kernel)
  have h3 := C79_format (reach_booted (P := fun _ => True) trivial) configFits h (by decide +kernel) h1 h2
  exact ⟨r, h3, fun r' hk h' => C79_one_meaning hk h' h3⟩

end Toy
end Verif.Ctap
