import Verif.Ctap.RegLemmas
import Verif.Ctap.PropsU2f
import Verif.Ctap.U2fLiveSpec

/-!
# When U2F requests succeed
-/
namespace Verif.Ctap
set_option linter.unusedSectionVars false
variable [Dev] {P : Oracle → Prop} {s s' : St}

/-! ## The touch -/

/-- A touch is asked for since `t`, and there is none. -/
def Waiting (t : Nat) (s : St) : Prop :=
  t ≤ s.env.now ∧ Verif.Hid.Timer.isElapsed s.v.u2f.hasUp s.env.now = true ∧ ∃ d, s.v.u2f.needsUp = some d ∧ t + 10000 ≤ d

/-- There was a touch at `t`, and it was not used. -/
def Granted (t : Nat) (s : St) : Prop := t ≤ s.env.now ∧ s.v.u2f.hasUp = some (t + 30000)

theorem elapsed_mono {t : Verif.Hid.Timer} {a b : Nat} (h : a ≤ b) (he : Verif.Hid.Timer.isElapsed t a = true) :
    Verif.Hid.Timer.isElapsed t b = true := by
  cases t with
  | none => rfl
  | some d => simp only [Verif.Hid.Timer.isElapsed, decide_eq_true_eq] at he ⊢; omega

section
variable (t : Nat)
instance : SEnv (Waiting t) := ⟨fun _ _ h1 _ h => ⟨Nat.le_trans h.1 h1, elapsed_mono h1 h.2.1, h.2.2⟩⟩
instance : SEnv (Granted t) := ⟨fun _ _ h1 _ h => ⟨Nat.le_trans h.1 h1, h.2⟩⟩
stable_instances (Waiting t) under SMaster SCounterEv SCounter
stable_instances (Granted t) under SMaster SCounterEv SCounter

instance : Pres (Waiting t) consumeUp := by
  constructor
  intro s h
  rw [consumeUp_eq]
  unfold U2fUp.consume
  rw [if_pos h.2.1]
  exact ⟨h.1, h.2.1, s.env.now + 10000, rfl, Nat.add_le_add_right h.1 _⟩
end

instance (t : Nat) (c : U2fCommand) : Pres (Waiting t) (u2fDispatch c) := by
  unfold u2fDispatch u2fCheckUp
  pres

instance (t : Nat) (m : Bytes) : Pres (Waiting t) (u2fCommand m) := by
  unfold u2fCommand
  pres

theorem waiting_only {t : Nat} (h : Only Input.isU2f s s') (hs : Waiting t s) : Waiting t s' := by
  induction h with
  | start => exact hs
  | @step u h o i hi _ ih =>
    have ih : Waiting t (u.withOracle o) := ih
    cases i with
    | ctap2 ch m => cases hi
    | touch => cases hi
    | wait ms => exact (presWait (I := Waiting t) ms).out _ ih
    | ctap1 m =>
      have : Pres (Waiting t) (stepM (.ctap1 m)) := by unfold stepM; pres
      exact this.out _ ih

theorem granted_quiet {t : Nat} {c : U2fCommand} (hc : c.needsTouch = false) : Pres (Granted t) (u2fDispatch c) := by
  cases c with
  | register c a => cases hc
  | authenticate c a hd f =>
    have hf : f ≠ .enforce := by simpa [U2fCommand.needsTouch] using hc
    unfold u2fDispatch u2fCheckUp
    simp only [hf, if_false]
    pres
  | version => unfold u2fDispatch; pres
  | vendor b => unfold u2fDispatch; pres

theorem granted_only {t : Nat} (h : Only Input.isQuiet s s') (hs : Granted t s) : Granted t s' := by
  induction h with
  | start => exact hs
  | @step u h o i hi _ ih =>
    have ih : Granted t (u.withOracle o) := ih
    cases i with
    | ctap2 ch m => cases hi
    | touch => cases hi
    | wait ms => exact (presWait (I := Granted t) ms).out _ ih
    | ctap1 m =>
      have : Pres (Granted t) (u2fCommand m) := by
        unfold u2fCommand
        cases hm : U2fCommand.parse m with
        | error e => dsimp only; pres
        | ok c =>
          have := granted_quiet (t := t) (hi c hm)
          dsimp only
          pres
      have : Pres (Granted t) (stepM (.ctap1 m)) := by unfold stepM processU2f; pres
      exact this.out _ ih

theorem orSw_error {m : M α} {sw e : Sw} (h : orSw m sw s = (.ok (.error e), s')) : e = sw := by
  simp only [orSw] at h
  rcases hm : m s with ⟨r, s1⟩
  rw [hm] at h
  cases r <;> simp at h
  exact h.1.symm

theorem register_error {c a : Bytes} {e : Sw} (h : u2fRegister c a s = (.ok (.error e), s')) : e ≠ .condUseNotSatisfied := by
  simp only [u2fRegister, bind_ok] at h
  obtain ⟨sk, s1, _, h⟩ := h
  cases hp : Dev.ecdsaPub sk with
  | none => simp only [hp, pure_ok] at h; cases h.1; simp
  | some xy =>
    simp only [hp, bindSw_ok] at h
    rcases h with ⟨hd, s2, _, h⟩ | ⟨e', h, h'⟩
    · split at h
      · rw [pure_ok] at h; cases h.1; simp
      · rw [bindSw_ok] at h
        rcases h with ⟨att, s3, _, h⟩ | ⟨e', h, h'⟩
        · unfold u2fRegisterResponse at h
          cases hs : Dev.ecdsaSign att.sk (registerData a c hd (toUncompressed xy.1 xy.2)) with
          | none => simp only [hs] at h; cases h
          | some sig => simp only [hs, pure_ok] at h; cases h.1
        · cases h'
          unfold u2fAttestation at h
          rw [bindSw_ok] at h
          rcases h with ⟨o, s4, _, h⟩ | ⟨e', h, h'⟩
          · cases o <;> simp only [pure_ok] at h <;> cases h.1
            simp
          · cases h'; rw [orSw_error h]; simp
    · cases h'; rw [orSw_error h]; simp

theorem sign_error {c a sk : Bytes} {e : Sw} (h : u2fSign c a sk s = (.ok (.error e), s')) : e ≠ .condUseNotSatisfied := by
  simp only [u2fSign, bindSw_ok] at h
  rcases h with ⟨_, s1, _, h⟩ | ⟨e', h, h'⟩
  · rcases h with ⟨_, s1, _, h⟩ | ⟨e', h, h'⟩
    · rcases h with ⟨_, s1, _, h⟩ | ⟨e', h, h'⟩
      · rw [pure_ok] at h; cases h.1
      · cases h'; rw [orSw_error h]; simp
    · cases h'; rw [orSw_error h]; simp
  · cases h'; rw [orSw_error h]; simp

theorem authenticate_error {c a hd : Bytes} {e : Sw} (h : u2fAuthenticate c a hd .enforce s = (.ok (.error e), s')) :
    e ≠ .condUseNotSatisfied := by
  rw [u2fAuthenticate, bindSw_ok] at h
  rcases h with ⟨w, s1, _, h⟩ | ⟨e', h, h'⟩
  · cases hw : w.filter fun c => listedOk c.policy false with
    | none => simp only [hw, pure_ok] at h; cases h.1; simp
    | some c' =>
      simp only [hw] at h
      rw [if_neg (by simp)] at h; exact sign_error h
  · cases h'; rw [orSw_error h]; simp

theorem asked_waiting {msg : Bytes} {c : U2fCommand} (hm : U2fCommand.parse msg = .ok c) (hc : c.needsTouch = true)
    (h : stepM (.ctap1 msg) s = (.ok (.ctap1 (.error .condUseNotSatisfied)), s')) : Waiting s.env.now s' := by
  simp only [stepM, bind_ok, pure_ok] at h
  obtain ⟨r, s1, h1, h2, rfl⟩ := h
  cases h2
  simp only [processU2f, bind_ok] at h1
  obtain ⟨r, s2, h1, u, s3, h2, h3⟩ := h1
  obtain ⟨_, _, rfl⟩ := (effect_ok).1 h2
  obtain ⟨rfl, rfl⟩ : r = .error .condUseNotSatisfied ∧ s1 = { s2 with env := s2.env.next } := by
    rw [hm] at h3
    cases r with
    | error e => cases c <;> (simp only [pure_ok] at h3; exact ⟨h3.1, h3.2.symm⟩)
    | ok b =>
      cases c with
      | authenticate _ _ _ _ =>
        simp only [bind_ok, pure_ok] at h3
        obtain ⟨_, _, _, e, _⟩ := h3
        cases e
      | _ => simp only [pure_ok] at h3; cases h3.1
  suffices Waiting s.env.now s2 from SEnv.out (I := Waiting s.env.now) s2 _ (next_now_le _) rfl this
  simp only [u2fCommand, bindSw_ok, orSw_ok] at h1
  rcases h1 with ⟨al, s1, h1, h⟩ | ⟨e, h1, e2⟩
  · obtain ⟨_, e, he, rfl⟩ := hasAlwaysUv_ok h1
    cases al with
    | true =>
      simp only [if_true, pure_ok] at h
      cases h.1
    | false =>
      simp only [hm, Bool.false_eq_true, if_false] at h
      have fin : ∀ (s s1 : St), consumeUp s = (.ok false, s1) → Waiting s.env.now s1 := by
        intro s s1 h
        rw [consumeUp_eq] at h
        obtain ⟨h3, rfl⟩ := Prod.mk.inj h
        unfold U2fUp.consume at h3 ⊢
        cases he : Verif.Hid.Timer.isElapsed s.v.u2f.hasUp s.env.now with
        | false => rw [he] at h3; cases h3
        | true => exact ⟨Nat.le_refl _, he, s.env.now + 10000, rfl, Nat.le_refl _⟩
      have le : s.env.now ≤ e.now := he.now
      suffices Waiting e.now s2 from ⟨Nat.le_trans le this.1, this.2.1, by
        obtain ⟨d, h1, h2⟩ := this.2.2
        exact ⟨d, h1, by omega⟩⟩
      cases c with
      | register ch ap =>
        simp only [u2fDispatch, bind_ok] at h
        obtain ⟨up, s1, h1, h⟩ := h
        cases up with
        | false =>
          simp only [Bool.false_eq_true, if_false, pure_ok] at h
          obtain ⟨_, rfl⟩ := h
          exact fin _ _ h1
        | true => exact absurd rfl (register_error (by simpa using h))
      | authenticate ch ap hd f =>
        have hf : f = .enforce := by simpa [U2fCommand.needsTouch] using hc
        subst hf
        simp only [u2fDispatch, u2fCheckUp, if_true, bind_ok] at h
        obtain ⟨up, s1, h1, h⟩ := h
        cases up with
        | false =>
          simp only [Bool.false_eq_true, if_false, pure_ok] at h
          obtain ⟨_, rfl⟩ := h
          exact fin _ _ h1
        | true => exact absurd rfl (authenticate_error (by simpa using h))
      | version => cases hc
      | vendor p => cases hc
  · cases e2
    cases orSw_error h1

theorem touched_granted {t : Nat} (h : TouchedFor t s) : Granted t s := by
  obtain ⟨s0, s1, s2, msg, c, o1, o2, hm, hc, h1, h2, rfl, h3, h4⟩ := h
  have hw : Waiting s0.env.now s1 := asked_waiting (s := s0.withOracle o1) hm hc h1
  have hw2 := waiting_only h2 hw
  refine granted_only h4 ?_
  obtain ⟨_, _, d, hd, hl⟩ := hw2
  show Granted _ { s2.withOracle o2 with v := { s2.v with u2f := s2.v.u2f.grant s2.env.now }, log := .u2fTouch s2.env.now :: s2.log }
  refine ⟨Nat.le_refl _, ?_⟩
  show (s2.v.u2f.grant s2.env.now).hasUp = _
  unfold U2fUp.grant
  rw [hd, if_neg (by simp only [Verif.Hid.Timer.isElapsed, decide_eq_true_eq]; omega)]
  rfl

/-! ## Success -/

theorem bindSw_do {m : M (Except Sw α)} {f : α → M (Except Sw β)} {a : α} {s1 : St} (h : m s = (.ok (.ok a), s1)) :
    bindSw m f s = f a s1 := by
  simp only [bindSw, bind_def, M.bind, h]

theorem orSw_do {m : M α} {sw : Sw} {a : α} {s1 : St} (h : m s = (.ok a, s1)) : orSw m sw s = (.ok (.ok a), s1) := orSw_ok.2 h

theorem bind_do {m : M α} {f : α → M β} {a : α} {s1 : St} (h : m s = (.ok a, s1)) : (m >>= f) s = f a s1 := by
  simp only [bind_def, M.bind, h]

theorem granted_consume {t : Nat} (h : Granted t s) (ht : s.env.now < t + 30000) : ∃ s1, consumeUp s = (.ok true, s1) ∧ s1.env = s.env ∧ s1.p = s.p := by
  have : s.v.u2f.consume s.env.now = (true, { s.v.u2f with hasUp := none }) := by
    unfold U2fUp.consume
    rw [h.2, if_neg (by simp only [Verif.Hid.Timer.isElapsed, decide_eq_true_eq]; omega)]
  have h1 := consumeUp_eq s
  rw [this] at h1
  exact ⟨_, h1, rfl, rfl⟩

/-- A registration with a touch. -/
theorem register_do {c a : Bytes} (hs : Smooth s) (hk : s.env.o.DrawsKeys) (ha : a.length = 32)
    (hat : ∃ att, s.p.attestation = some att ∧ CanSign att.sk) :
    ∃ r s1 sk mk x y handle att sig, u2fRegister c a s = (.ok (.ok r), s1) ∧ (IsKey sk ∧ sk.length = 32) ∧ s1.p.master = some mk ∧
      unwrapWith mk handle a = .ok (some { sk := sk, rpIdHash := a, policy := none, credBlob := none }) ∧ handle.length = 241 ∧
      Dev.ecdsaPub sk = some (x, y) ∧ s.p.attestation = some att ∧
      Dev.ecdsaSign att.sk (0x00 :: a ++ c ++ handle ++ (0x04 :: x ++ y)) = some sig ∧
      r = 0x05 :: (0x04 :: x ++ y) ++ [UInt8.ofNat handle.length] ++ handle ++ att.certificate ++ sig := by
  obtain ⟨sk, s1, h1⟩ := (inferInstance : Go newSk).out s hs
  have hs1 := smooth_of h1 hs
  have hsk : IsKey sk := by
    obtain ⟨h, _⟩ := rng_ok h1
    rw [h]; exact hk s.env.k
  have hl : sk.length = 32 := rng_length h1
  obtain ⟨⟨x, y⟩, hxy⟩ := Option.isSome_iff_exists.1 hsk.1
  have hfit : CredSource.Fits { sk := sk, rpIdHash := a, policy := none, credBlob := none } := ⟨hl, ha, fun b hb => by cases hb⟩
  obtain ⟨handle, s2, h2⟩ := ok_wrap hs1 hfit
  have hs2 := smooth_of h2 hs1
  obtain ⟨mk, e, _, _, _, hs2e, h241, hun⟩ := wrap_ok h2 hfit
  obtain ⟨o, s3, h3⟩ := (inferInstance : Go attestationGet).out s2 hs2
  obtain ⟨att, ha1, ha2⟩ := hat
  have hat2 : s2.p.attestation = some att := by rw [keepAtt h2, keepAtt h1, ha1]
  obtain ⟨rfl, hp3⟩ : o = some att ∧ s3.p = s2.p := by
    simp only [attestationGet, mapErr_ok, bind_ok, pure_ok] at h3
    obtain ⟨_, _, e, rfl, rfl⟩ := h3
    obtain ⟨rfl, rfl⟩ := readP_ok e
    exact ⟨hat2, rfl⟩
  obtain ⟨sig, hsig⟩ := Option.isSome_iff_exists.1 (ha2 (registerData a c handle (toUncompressed x y)))
  refine ⟨_, s3, sk, mk, x, y, handle, att, sig, ?_, ⟨hsk, hl⟩, by rw [hp3, hs2e], hun, h241, hxy, ha1, hsig, rfl⟩
  have hatt : u2fAttestation s2 = (.ok (.ok att), s3) := by
    unfold u2fAttestation
    rw [bindSw_do (orSw_do h3)]
    rfl
  unfold u2fRegister
  rw [bind_do h1]
  simp only [hxy]
  rw [bindSw_do (orSw_do h2), if_neg (by omega), bindSw_do hatt]
  simp only [u2fRegisterResponse, hsig]
  rfl

/-- An authentication with a touch, or for which none is needed. -/
theorem authenticate_do {c a hd mk : Bytes} {f : U2fFlags} {w : CredSource} (hs : Smooth s) (hm : s.p.master = some mk)
    (hw : Opens mk hd a w) (hp : w.policy ≠ some .required) (hk : CanSign w.sk) :
    ∃ r s1, u2fAuthenticate c a hd f s = (.ok r, s1) ∧ (if f = .checkOnly then r = .error .condUseNotSatisfied else ∃ b, r = .ok b) := by
  obtain ⟨o, s1, h1⟩ := ok_unwrap (r := a) hs hm fun _ => ⟨w, a, hw⟩
  have hs1 := smooth_of h1 hs
  have : o = some w := by
    rcases unwrap_ok h1 with ⟨_, hl, _⟩ | ⟨mk', e, _, _, b3, _, b5⟩
    · have := hw.tagged.1; omega
    · have : mk' = mk := by
        rcases b3 with h2 | h2 <;> rw [hm] at h2 <;> cases h2
        rfl
      subst this
      rw [opens_iff.2 hw] at b5
      cases b5
      rfl
  subst this
  have hl : listedOk w.policy false = true := by simpa [listedOk] using hp
  unfold u2fAuthenticate
  rw [bindSw_do (orSw_do h1)]
  simp only [Option.filter_some, hl, if_true]
  by_cases hf : f = .checkOnly
  · rw [if_pos hf]
    exact ⟨_, s1, rfl, by rw [if_pos hf]⟩
  · rw [if_neg hf]
    unfold u2fSign
    obtain ⟨u, s2, h2⟩ := (inferInstance : Go incrementGlobalCounter).out s1 hs1
    have hs2 := smooth_of h2 hs1
    obtain ⟨ad, s3, h3⟩ := (inferInstance : Go (generateAuthData a 0x01)).out s2 hs2
    obtain ⟨sig, hsig⟩ := Option.isSome_iff_exists.1 (hk (ad ++ c))
    have h4 : liftE (signEncode w.sk (ad ++ c)) s3 = (.ok sig, s3) := liftE_ok.2 ⟨by simp only [signEncode, hsig], rfl⟩
    rw [bindSw_do (orSw_do h2), bindSw_do (orSw_do h3), bindSw_do (orSw_do h4)]
    exact ⟨_, s3, rfl, by rw [if_neg hf]; exact ⟨_, rfl⟩⟩

theorem hasAlwaysUv_do (hs : Smooth s) (hu : s.p.uvRequired = false) :
    ∃ s1, hasAlwaysUv s = (.ok false, s1) ∧ ∃ e, s.env.Le e ∧ s1 = { s with env := e } := by
  obtain ⟨b, s1, h⟩ := (inferInstance : Go hasAlwaysUv).out s hs
  obtain ⟨h1, h2⟩ := hasAlwaysUv_ok h
  rw [hu] at h1
  subst h1
  exact ⟨s1, h, h2⟩

/-- The rest of a request. -/
theorem u2f_do {msg : Bytes} {c : U2fCommand} {x : Except Sw Bytes} {s1 s2 : St} (hm : U2fCommand.parse msg = .ok c)
    (h1 : hasAlwaysUv s = (.ok false, s1)) (h2 : u2fDispatch c s1 = (.ok x, s2)) (hs2 : s2.env.o.Calm) :
    ∃ s3, stepM (.ctap1 msg) s = (.ok (.ctap1 x), s3) ∧ s3.p = s2.p ∧ processU2f msg s = (.ok x, s3) := by
  have h3 : u2fCommand msg s = (.ok x, s2) := by
    unfold u2fCommand
    rw [bindSw_do (orSw_do h1)]
    simp only [hm]
    exact h2
  have h4 : effect (fun _ => Res.ok ()) s2 = (.ok (), { s2 with env := s2.env.next }) := effect_ok.2 ⟨hs2.cut _, rfl, rfl⟩
  have h5 : ∃ s3, processU2f msg s = (.ok x, s3) ∧ s3.p = s2.p := by
    unfold processU2f
    rw [bind_do h3, bind_do h4]
    simp only [hm]
    cases c <;> cases x <;> exact ⟨_, rfl, rfl⟩
  obtain ⟨s3, h5, h6⟩ := h5
  refine ⟨s3, ?_, h6, h5⟩
  simp only [stepM, bind_ok, pure_ok]
  exact ⟨x, s3, h5, rfl, rfl⟩

end Verif.Ctap
