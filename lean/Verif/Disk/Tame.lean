import Verif.Ctap.Logic
import Verif.Ctap.Vendor

/-!
# Computations use the environment one interaction after the other

What a computation does depends only on what the environment does at the interactions that the computation has.
-/
namespace Verif.Disk
open Verif.Ctap
open Verif.Ctap (M fail)

/-- The state with another environment, at the same interaction. -/
def plug (s : Ctap.St) (o : Oracle) : Ctap.St := { s with env := { s.env with o := o } }

/-- Two environments do the same at the interactions from `a` to `b`. -/
def Agree (o o' : Oracle) (a b : Nat) : Prop :=
  ∀ k, a ≤ k → k < b → o.cut k = o'.cut k ∧ o.rfail k = o'.rfail k ∧ o.wfail k = o'.wfail k ∧ o.adv k = o'.adv k ∧
    o.rnd k = o'.rnd k ∧ o.wait k = o'.wait k ∧ o.keep k = o'.keep k ∧ o.shuffle k = o'.shuffle k

theorem Agree.sub {o o' : Oracle} {a b a' b' : Nat} (h : Agree o o' a b) (ha : a ≤ a') (hb : b' ≤ b) : Agree o o' a' b' :=
  fun k h1 h2 => h k (Nat.le_trans ha h1) (Nat.lt_of_lt_of_le h2 hb)

/-- The first environment up to an interaction, then the second one. -/
def splice (o1 o2 : Oracle) (n : Nat) : Oracle where
  cut k := if k < n then o1.cut k else o2.cut k
  rfail k := if k < n then o1.rfail k else o2.rfail k
  wfail k := if k < n then o1.wfail k else o2.wfail k
  adv k := if k < n then o1.adv k else o2.adv k
  rnd k := if k < n then o1.rnd k else o2.rnd k
  wait k := if k < n then o1.wait k else o2.wait k
  keep k := if k < n then o1.keep k else o2.keep k
  shuffle k := if k < n then o1.shuffle k else o2.shuffle k
  shuffle_perm k l := by
    split
    · exact o1.shuffle_perm k l
    · exact o2.shuffle_perm k l

theorem splice_left (o1 o2 : Oracle) (a n : Nat) : Agree o1 (splice o1 o2 n) a n := by
  intro k _ h
  simp [splice, h]

theorem splice_right (o1 o2 : Oracle) (n b : Nat) : Agree o2 (splice o1 o2 n) n b := by
  intro k h _
  have : ¬ k < n := by omega
  simp [splice, this]

/-- A computation that depends only on the interactions that it has, and stops if power is lost at its first one. -/
class Tame (f : M α) : Prop where
  mono : ∀ s, s.env.k ≤ (f s).2.env.k
  same : ∀ s, (f s).2.env.o = s.env.o
  loc : ∀ s o, Agree s.env.o o s.env.k (f s).2.env.k → f (plug s o) = ((f s).1, plug (f s).2 o)
  halt : ∀ s, s.env.o.cut s.env.k = true → (f s).2.p = s.p ∧ ((f s).1 = .crash ∨ (f s).2.env = s.env)

/-- A computation without interactions that does not look at the environment. -/
theorem Tame.still {f : M α} (h1 : ∀ s, (f s).2.env = s.env ∧ (f s).2.p = s.p) (h2 : ∀ s o, f (plug s o) = ((f s).1, plug (f s).2 o)) :
    Tame f where
  mono s := by rw [(h1 s).1]; exact Nat.le_refl _
  same s := by rw [(h1 s).1]
  loc s o _ := h2 s o
  halt s _ := ⟨(h1 s).2, .inr (h1 s).1⟩

instance Tame.pure (a : α) : Tame (M.pure a) := .still (fun _ => ⟨rfl, rfl⟩) fun _ _ => rfl
instance Tame.fail (e : Status) : Tame (fail e : M α) := .still (fun _ => ⟨rfl, rfl⟩) fun _ _ => rfl
instance Tame.panic : Tame (panicM : M α) := .still (fun _ => ⟨rfl, rfl⟩) fun _ _ => rfl

instance Tame.guard (c : Bool) (e : Status) : Tame (guardE c e) := by
  unfold guardE
  split <;> infer_instance

instance Tame.req (o : Option α) (e : Status) : Tame (req o e) := by
  unfold Ctap.req
  split <;> infer_instance

instance Tame.liftE (x : Except Status α) : Tame (liftE x) := by
  unfold Ctap.liftE
  split <;> infer_instance

instance Tame.ite {c : Prop} [Decidable c] {f g : M α} [Tame f] [Tame g] : Tame (if c then f else g) := by
  split <;> assumption

theorem plug_env (s : Ctap.St) : plug s s.env.o = s := rfl

instance Tame.bind {f : M α} {g : α → M β} [hf : Tame f] [hg : ∀ a, Tame (g a)] : Tame (f >>= g) where
  mono s := by
    have h1 := hf.mono s
    simp only [bind_def, M.bind]
    rcases h : f s with ⟨r, u⟩
    rw [h] at h1
    cases r with
    | ok a => exact Nat.le_trans h1 ((hg a).mono u)
    | _ => exact h1
  same s := by
    have h1 := hf.same s
    simp only [bind_def, M.bind]
    rcases h : f s with ⟨r, u⟩
    rw [h] at h1
    cases r with
    | ok a => exact ((hg a).same u).trans h1
    | _ => exact h1
  loc s o ha := by
    have hm := hf.mono s
    have hs := hf.same s
    have hl := hf.loc s o
    simp only [bind_def, M.bind] at ha ⊢
    rcases h : f s with ⟨r, u⟩
    rw [h] at ha hm hs hl
    cases r with
    | ok a =>
      simp only at ha hm hs hl ⊢
      rw [hl (ha.sub (Nat.le_refl _) ((hg a).mono u))]
      have h2 := (hg a).loc u o (by rw [hs]; exact ha.sub hm (Nat.le_refl _))
      simp only [h2]
    | _ =>
      simp only at ha hm hs hl ⊢
      rw [hl ha]
  halt s hc := by
    have h1 := hf.halt s hc
    simp only [bind_def, M.bind]
    rcases h : f s with ⟨r, u⟩
    rw [h] at h1
    obtain ⟨h2, h3⟩ := h1
    cases r with
    | ok a =>
      simp only [reduceCtorEq, false_or] at h2 h3 ⊢
      have h4 := (hg a).halt u (by rw [h3]; exact hc)
      exact ⟨h4.1.trans h2, h4.2.imp id fun h5 => h5.trans h3⟩
    | err e => exact ⟨h2, h3.imp (fun h => nomatch h) id⟩
    | panic => exact ⟨h2, h3.imp (fun h => nomatch h) id⟩
    | crash => exact ⟨h2, .inl rfl⟩

instance Tame.mapErr {f : M α} {g : Status → Status} [hf : Tame f] : Tame (mapErr g f) where
  mono s := by rw [mapErr_snd]; exact hf.mono s
  same s := by rw [mapErr_snd]; exact hf.same s
  loc s o ha := by
    rw [mapErr_snd] at ha
    have h1 := hf.loc s o ha
    simp only [Ctap.mapErr]
    rw [h1]
    rcases f s with ⟨r, u⟩
    cases r <;> rfl
  halt s hc := by
    have h1 := hf.halt s hc
    rw [mapErr_snd]
    refine ⟨h1.1, h1.2.imp (fun h => ?_) id⟩
    simp only [Ctap.mapErr]
    rcases h2 : f s with ⟨r, u⟩
    rw [h2] at h
    obtain rfl : r = .crash := h
    rfl

theorem Tame.effect {f : Ctap.St → Res α} (h : ∀ s o, Agree s.env.o o s.env.k (s.env.k + 1) → f (plug s o) = f s) : Tame (effect f) where
  mono s := by rw [effect_snd]; exact Nat.le_succ _
  same s := by rw [effect_snd]; rfl
  loc s o ha := by
    rw [effect_snd] at ha
    have h1 := ha s.env.k (Nat.le_refl _) (Nat.lt_succ_self _)
    have h2 := h s o ha
    have h3 : ({ plug s o with env := (plug s o).env.next } : Ctap.St) = plug { s with env := s.env.next } o := by
      simp only [plug, Env.next, h1.2.2.2.1]
    simp only [Ctap.effect, h2, h3]
    have h4 : (plug s o).env.o.cut (plug s o).env.k = s.env.o.cut s.env.k := h1.1.symm
    rw [h4]
    split <;> rfl
  halt s hc := by
    rw [effect_snd]
    refine ⟨rfl, .inl ?_⟩
    simp [Ctap.effect, hc]

instance Tame.readP : Tame readP := Tame.effect fun s o h => by
  have h1 := (h s.env.k (Nat.le_refl _) (Nat.lt_succ_self _)).2.1
  simp only [plug, h1]

instance Tame.rng (n : Nat) : Tame (rng n) := Tame.effect fun s o h => by
  have h1 := (h s.env.k (Nat.le_refl _) (Nat.lt_succ_self _)).2.2.2.2.1
  simp only [plug, h1]

theorem Tame.shuffle (l : List (Nat × Cred)) : Tame (Ctap.effect fun s => .ok (s.env.o.shuffle s.env.k l)) := Tame.effect fun s o h => by
  have h1 := (h s.env.k (Nat.le_refl _) (Nat.lt_succ_self _)).2.2.2.2.2.2.2
  simp only [plug, h1]

theorem writeP_env (f : Persist → Persist) (evs : List Ev) (s : Ctap.St) : (writeP f evs s).2.env = s.env.next := by
  rcases writeP_snd f evs s with h | h <;> rw [h]

instance Tame.writeP (f : Persist → Persist) (evs : List Ev) : Tame (writeP f evs) where
  mono s := by rw [writeP_env]; exact Nat.le_succ _
  same s := by rw [writeP_env]; rfl
  loc s o ha := by
    rw [writeP_env] at ha
    have h1 := ha s.env.k (Nat.le_refl _) (Nat.lt_succ_self _)
    have h2 : (plug s o).env.next = { s.env.next with o := o } := by simp only [plug, Env.next, h1.2.2.2.1]
    simp only [Ctap.writeP, h2]
    rw [show (plug s o).env.o.cut (plug s o).env.k = s.env.o.cut s.env.k from h1.1.symm,
      show (plug s o).env.o.wfail (plug s o).env.k = s.env.o.wfail s.env.k from h1.2.2.1.symm]
    split
    · rfl
    · split
      · rfl
      · rfl
      · rename_i a _
        cases a <;> rfl
  halt s hc := by
    simp [Ctap.writeP, hc]

/-- Computations that are built from tame ones. -/
macro "tame" : tactic => `(tactic| repeat' (first
  | infer_instance | refine @Tame.bind _ _ _ _ ?_ ?_ | refine @Tame.mapErr _ _ _ ?_ | refine @Tame.shuffle _ | intro _ | split))

variable [Dev]

instance : Tame getMasterKeys := by unfold getMasterKeys; tame
instance : Tame iterCredentials := by unfold iterCredentials; tame
instance (key : Nat) : Tame (getCredential key) := by unfold getCredential; tame
instance (id : Bytes) : Tame (findCredentialItem id) := by unfold findCredentialItem; tame
instance (rpId id : Bytes) : Tame (findCredential rpId id) := by unfold findCredential; tame
instance (c : Cred) : Tame (storeCredential c) := by unfold storeCredential; tame
instance (id : Bytes) : Tame (deleteCredential id) := by unfold deleteCredential; tame
instance (id : Bytes) (a b c : Option Bytes) : Tame (updateCredential id a b c) := by unfold updateCredential; tame
instance : Tame countCredentials := by unfold countCredentials; tame
instance : Tame remainingCredentials := by unfold remainingCredentials; tame
instance : Tame newCreationOrder := by unfold newCreationOrder; tame
instance : Tame signatureCounter := by unfold signatureCounter; tame
instance (n : Nat) : Tame (incrSignatureCounter n) := by unfold incrSignatureCounter; tame
instance : Tame pinHash := by unfold pinHash; tame
instance : Tame pinCodePointLength := by unfold pinCodePointLength; tame
instance (h : Bytes) (n : Nat) : Tame (setPin h n) := by unfold setPin; tame
instance : Tame pinRetries := by unfold pinRetries; tame
instance : Tame decrPinRetries := by unfold decrPinRetries; tame
instance : Tame resetPinRetries := by unfold resetPinRetries; tame
instance : Tame minPinLength := by unfold minPinLength; tame
instance (n : Nat) : Tame (setMinPinLength n) := by unfold setMinPinLength; tame
instance : Tame minPinLengthRpIds := by unfold minPinLengthRpIds; tame
instance (ids : List Bytes) : Tame (setMinPinLengthRpIds ids) := by unfold setMinPinLengthRpIds; tame
instance (a b : Nat) : Tame (getLargeBlobArray a b) := by unfold getLargeBlobArray; tame
instance (b : Bytes) : Tame (commitLargeBlobArray b) := by unfold commitLargeBlobArray; tame
instance : Tame resetStorage := by unfold resetStorage; tame
instance : Tame hasForcePinChange := by unfold hasForcePinChange; tame
instance : Tame forcePinChange := by unfold forcePinChange; tame
instance : Tame enterpriseAttestation := by unfold enterpriseAttestation; tame
instance : Tame attestationGet := by unfold attestationGet; tame
instance (a : Attestation) : Tame (attestationSet a) := by unfold attestationSet; tame
instance : Tame enableEnterpriseAttestation := by unfold enableEnterpriseAttestation; tame
instance : Tame hasAlwaysUv := by unfold hasAlwaysUv; tame
instance : Tame toggleAlwaysUv := by unfold toggleAlwaysUv; tame

end Verif.Disk
