import Verif.Ctap.U2fLiveLemmas
import Verif.Ctap.PropsApdu
import Verif.Ctap.PropsRegLive

/-!
# C87: honest U2F requests are answered
-/
namespace Verif.Ctap
set_option linter.unusedSectionVars false
section
variable [Dev] {P : Oracle → Prop} {s s' : St}

/-- The touch is there when the request looks for it. -/
theorem fair_consume {c : U2fCommand} {msg : Bytes} {o : Oracle} {s1 : St} (h : c.Fair msg s o) (hc : c.needsTouch = true)
    (h1 : hasAlwaysUv (s.withOracle o) = (.ok false, s1)) {e : Env} (he : (s.withOracle o).env.Le e)
    (hs1 : s1 = { s.withOracle o with env := e }) :
    ∃ s2, consumeUp s1 = (.ok true, s2) ∧ s2.env = s1.env ∧ s2.p = s1.p := by
  obtain ⟨t, h2, h3⟩ := h.touch hc
  have hg0 : Granted t (s.withOracle o) := by have := touched_granted h2; exact this
  have hg : Granted t s1 := by
    rw [hs1]
    exact SEnv.out (I := Granted t) (s.withOracle o) e he.now he.o hg0
  refine granted_consume hg (Nat.lt_of_le_of_lt ?_ h3)
  have hu : (u2fCommand msg (s.withOracle o)) = u2fDispatch c s1 := by
    unfold u2fCommand
    rw [bindSw_do (orSw_do h1)]
    simp only [h.parsed]
    rfl
  have k1 : s1.env.now ≤ (u2fDispatch c s1).2.env.now := (keepEnv (s := s1) (m := u2fDispatch c) rfl).1
  have k2 : (u2fCommand msg (s.withOracle o)).2.env.now ≤ (stepM (.ctap1 msg) (s.withOracle o)).2.env.now := by
    have hq : KeepEnv (u2fCommand msg (s.withOracle o)).2.env.now (u2fCommand msg (s.withOracle o)).2.env.o
        (processU2f msg (s.withOracle o)).2 := by
      unfold processU2f
      refine bind_snd ⟨Nat.le_refl _, rfl⟩ fun r s1 h => ?_
      rw [h]
      have : ∀ n o, Pres (KeepEnv n o) (do
          effect fun _ => .ok ()
          match U2fCommand.parse msg, r with
          | .ok (.authenticate _ _ _ _), .ok b => do
            logE (.counter (Verif.Cbor.beNat ((b.drop 1).take 4)) .assertion)
            M.pure r
          | _, _ => M.pure r) := fun n o => by pres
      exact (this _ _).out _ ⟨Nat.le_refl _, rfl⟩
    have hq2 : KeepEnv (u2fCommand msg (s.withOracle o)).2.env.now (u2fCommand msg (s.withOracle o)).2.env.o
        (stepM (.ctap1 msg) (s.withOracle o)).2 := by
      unfold stepM
      refine bind_snd hq fun r s1 h => ?_
      rw [h] at hq
      exact hq
    exact hq2.1
  rw [hu] at k2
  exact Nat.le_trans k1 k2

/-- **C87**, registration. An honest U2F registration, in an environment where nothing fails, on a device with an attestation key
that can sign and a random number generator that delivers private keys, is answered with success. The answer has the layout of the
standard (U2F Raw Message Formats, 4.3), with a public key to which the device knows the private key. Whatever happens afterwards, as
long as the device is not reset, an honest authentication with the key handle is answered: a client that only asks whether the handle
is known is told so; any other gets an answer with the layout of the standard (5.4), signed with that private key. -/
theorem C87_registered {c a msg : Bytes} {o : Oracle} (hr : Reach P true s) (ho : P o) (h : (U2fCommand.register c a).Fair msg s o)
    (hk : o.DrawsKeys) (hat : ∃ att, s.p.attestation = some att ∧ CanSign att.sk) :
    ∃ r t sk x y handle cert sig, stepM (.ctap1 msg) (s.withOracle o) = (.ok (.ctap1 (.ok r)), t) ∧
      r = [0x05, 0x04] ++ x ++ y ++ [UInt8.ofNat handle.length] ++ handle ++ cert ++ sig ∧ handle.length = 241 ∧
      sk.length = 32 ∧ Dev.ecdsaPub sk = some (x, y) ∧
      (∃ ask, s.p.attestation = some ⟨ask, cert⟩ ∧ Dev.ecdsaSign ask ([0x00] ++ a ++ c ++ handle ++ [0x04] ++ x ++ y) = some sig) ∧
      ∀ s2, Run P t true s2 → ¬ HappenedSince t.log Ev.isErased s2.log →
      ∀ (c' msg' : Bytes) (f : U2fFlags) (o' : Oracle), (U2fCommand.authenticate c' a handle f).Fair msg' s2 o' →
        ∃ x t', stepM (.ctap1 msg') (s2.withOracle o') = (.ok (.ctap1 x), t') ∧
          if f = .checkOnly then x = .error .condUseNotSatisfied
          else ∃ n sig', x = .ok ([0x01] ++ Verif.Cbor.beBytes 4 n ++ sig') ∧
            Dev.ecdsaSign sk (a ++ [0x01] ++ Verif.Cbor.beBytes 4 n ++ c') = some sig' := by
  have ha : a.length = 32 := by
    obtain ⟨A, _, _, hl⟩ := C53_request.1 h.parsed
    cases hl; assumption
  have hk1 := keyed_reach hr
  have hs : Smooth (s.withOracle o) := ⟨h.calm, hk1.2.2⟩
  obtain ⟨s1, h1, e, he, hs1e⟩ := hasAlwaysUv_do hs h.noUv
  have hs1 := smooth_of h1 hs
  obtain ⟨s2, h2, h2e, h2p⟩ := fair_consume h rfl h1 he hs1e
  have hs2 := smooth_of h2 hs1
  have hp2 : s2.p = s.p := by rw [h2p, hs1e]; rfl
  have ho2 : s2.env.o = o := by rw [h2e, hs1e]; exact he.o
  obtain ⟨r, s3, sk, mk, x, y, handle, att, sig, h3, h4, h5, h6, h7, h8, h9, h10, rfl⟩ := register_do (c := c) (a := a) hs2
    (by rw [ho2]; exact hk) ha (by rw [hp2]; exact hat)
  have hs3 := smooth_of h3 hs2
  have hd : u2fDispatch (.register c a) s1 = (.ok (.ok (0x05 :: (0x04 :: x ++ y) ++ [UInt8.ofNat handle.length] ++ handle ++ att.certificate ++ sig)), s3) := by
    simp only [u2fDispatch, bind_ok]
    exact ⟨true, s2, h2, h3⟩
  obtain ⟨t, h11, h12, _⟩ := u2f_do h.parsed h1 hd hs3.1
  refine ⟨_, t, sk, x, y, handle, att.certificate, sig, h11, by simp, h7, h4.2, h8, ⟨att.sk, by rw [← hp2, h9], by simpa using h10⟩, ?_⟩
  intro s4 hrun hn c' msg' f o' hf
  have hm : s4.p.master = some mk := run_master hrun (by rw [h12, h5]) hn
  have hr' := Reach.step o ho (.ctap1 msg) hr
  rw [h11] at hr'
  have hk4 : Keyed s4 := run_inv (I := Keyed) hrun (keyed_reach hr')
  have hw := opens_iff.1 h6
  have hs4 : Smooth (s4.withOracle o') := ⟨hf.calm, hk4.2.2⟩
  obtain ⟨s5, g1, e', he', hs5e⟩ := hasAlwaysUv_do hs4 hf.noUv
  have hs5 := smooth_of g1 hs4
  obtain ⟨s6, g2, g2e, g2p⟩ : ∃ s6, u2fCheckUp f s5 = (.ok true, s6) ∧ s6.env = s5.env ∧ s6.p = s5.p := by
    unfold u2fCheckUp
    by_cases hfe : f = .enforce
    · rw [if_pos hfe]
      subst hfe
      exact fair_consume hf rfl g1 he' hs5e
    · rw [if_neg hfe]
      exact ⟨s5, rfl, rfl, rfl⟩
  have hs6 : Smooth s6 := by
    have : Smooth s5 := hs5
    exact ⟨by rw [g2e]; exact this.1, by rw [g2p]; exact this.2⟩
  have hp6 : s6.p = s4.p := by rw [g2p, hs5e]; rfl
  obtain ⟨rr, s7, g3, g4⟩ := authenticate_do (c := c') (f := f) hs6 (by rw [hp6]; exact hm) hw (by simp) h4.1.2
  have hs7 := smooth_of g3 hs6
  have gd : u2fDispatch (.authenticate c' a handle f) s5 = (.ok rr, s7) := by
    simp only [u2fDispatch, bind_ok]
    exact ⟨true, s6, g2, g3⟩
  obtain ⟨t', g5, _, g6⟩ := u2f_do hf.parsed g1 gd hs7.1
  refine ⟨rr, t', g5, ?_⟩
  by_cases hfc : f = .checkOnly
  · rw [if_pos hfc] at g4 ⊢
    exact g4
  · rw [if_neg hfc] at g4 ⊢
    obtain ⟨b, rfl⟩ := g4
    obtain ⟨n, sig', rfl, g7⟩ := C34_u2f_usable hf.parsed (s := s4.withOracle o') hm hw g6 b rfl
    exact ⟨n, sig', rfl, g7⟩

end
end Verif.Ctap

namespace Verif.Ctap.Toy
set_option maxRecDepth 100000

/-- The bytes of a U2F request. -/
def u2fBody : Input → Bytes
  | .ctap1 m => m
  | _ => []

/-- The client repeats the request before the touch, and asks for the version after it. -/
def polled : St := step good u2fReg (step good (.wait 900) asked)
def answeredLater : St := step good (.ctap1 [0, 3, 0, 0]) (step good (.wait 2000) (step good .touch polled))

theorem u2fReg_parsed : U2fCommand.parse (u2fBody u2fReg) = .ok (.register cdh (Dev.sha256 rpA)) := by
  have hreg : (U2fCommand.parse (u2fBody u2fReg)).toOption = some (.register cdh (Dev.sha256 rpA)) := by decide +kernel
  cases h : U2fCommand.parse (u2fBody u2fReg) <;> rw [h] at hreg <;> cases hreg
  rfl

theorem reach_answeredLater : Reach (fun _ => True) true answeredLater :=
  reach_step good trivial _ (reach_step good trivial _ (reach_step good trivial _ (reach_step good trivial _ (reach_step good trivial _
    (reach_step good trivial _ (reach_booted trivial) (by decide +kernel)) (by decide +kernel)) (by decide +kernel)) (by decide +kernel))
    (by decide +kernel)) (by decide +kernel)

theorem touched_for : TouchedFor polled.env.now answeredLater := by
  refine ⟨booted, asked, polled, u2fBody u2fReg, _, good, good, u2fReg_parsed, rfl, ?_, ?_, rfl, by decide +kernel, ?_⟩
  · refine Prod.ext ?_ rfl
    have : (match (stepM u2fReg (booted.withOracle good)).1 with
      | .ok (.ctap1 (.error .condUseNotSatisfied)) => true | _ => false) = true := by decide +kernel
    show (stepM u2fReg (booted.withOracle good)).1 = _
    revert this
    split
    · intro _; assumption
    · intro h; cases h
  · have h1 : Only Input.isU2f asked (step good (.wait 900) asked) := .step .start good (.wait 900) trivial rfl
    exact .step h1 good u2fReg trivial (by decide +kernel)
  · have h1 : Only Input.isQuiet (step good .touch polled) (step good (.wait 2000) (step good .touch polled)) :=
      .step .start good (.wait 2000) trivial rfl
    refine .step h1 good (.ctap1 [0, 3, 0, 0]) ?_ (by decide +kernel)
    intro c hc
    have : U2fCommand.parse [0, 3, 0, 0] = .ok .version := by rfl
    rw [this] at hc
    cases hc
    rfl

/-- C87: the hypotheses of the registration. -/
example : Reach (fun _ => True) true answeredLater ∧
    (U2fCommand.register cdh (Dev.sha256 rpA)).Fair (u2fBody u2fReg) answeredLater good ∧ good.DrawsKeys ∧
    ∃ att, answeredLater.p.attestation = some att ∧ CanSign att.sk := by
  have h2 : ∀ a, answeredLater.p.attestation = some a → CanSign a.sk := fun a _ => canSign _
  have h3 : answeredLater.p.attestation.isSome = true := by decide +kernel
  obtain ⟨att, h4⟩ := Option.isSome_iff_exists.1 h3
  refine ⟨reach_answeredLater, ⟨u2fReg_parsed, good_calm, by decide +kernel, fun _ => ⟨_, touched_for, by decide +kernel⟩⟩, good_drawsKeys,
    att, h4, h2 att h4⟩

/-- An authentication request. -/
def u2fAuthAs (p1 : UInt8) (application handle : Bytes) : Bytes :=
  [0, 2, p1, 0, 0] ++ Verif.Cbor.beBytes 2 (65 + handle.length) ++ cdh ++ application ++ [UInt8.ofNat handle.length] ++ handle

def u2fDone : St := step good u2fReg answeredLater
def u2fHandle : Bytes := (((okBytes (reply good u2fReg answeredLater)).getD []).drop 67).take 241

theorem parsed_of {msg : Bytes} {c : U2fCommand} (h : (U2fCommand.parse msg).toOption = some c) : U2fCommand.parse msg = .ok c := by
  cases h' : U2fCommand.parse msg <;> rw [h'] at h <;> cases h
  rfl

/-- C87: the hypotheses of the authentications, after a power cycle: the client asks whether the key handle is known, or for a
signature without a touch. -/
example : Run (fun _ => True) u2fDone true (boot good u2fDone) ∧ ¬ HappenedSince u2fDone.log Ev.isErased (boot good u2fDone).log ∧
    (U2fCommand.authenticate cdh (Dev.sha256 rpA) u2fHandle .checkOnly).Fair (u2fAuthAs 0x07 (Dev.sha256 rpA) u2fHandle) (boot good u2fDone) good ∧
    (U2fCommand.authenticate cdh (Dev.sha256 rpA) u2fHandle .dontEnforce).Fair (u2fAuthAs 0x08 (Dev.sha256 rpA) u2fHandle) (boot good u2fDone) good := by
  refine ⟨?_, ?_, ⟨parsed_of (by decide +kernel), good_calm, by decide +kernel, (fun h => by cases h)⟩,
    ⟨parsed_of (by decide +kernel), good_calm, by decide +kernel, (fun h => by cases h)⟩⟩
  · have := Run.boot (P := fun _ => True) good trivial (Run.refl (s0 := u2fDone))
    rwa [show (bootM (u2fDone.withOracle good)).1.alive = true by decide +kernel] at this
  · rintro ⟨new, h, e, he, hq⟩
    have : (boot good u2fDone).log.any Ev.isErased = false := by decide +kernel
    rw [h] at this
    exact absurd hq (by simpa using List.any_eq_false.1 this e (List.mem_append_left _ he))

end Verif.Ctap.Toy
