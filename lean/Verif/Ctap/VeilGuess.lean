import Verif.Ctap.VeilSpec
import Verif.Ctap.PropsPolicy

/-!
# A comparison succeeds only for an input that carries the stored hash
-/
namespace Verif.Ctap
set_option linter.unusedSectionVars false
variable [Dev]

section
variable (l : List Ev)
abbrev NoGuess : St → Prop := Unmarked l Ev.isRightGuess

instance : SEnv (NoGuess l) := ⟨fun _ _ _ _ h => h⟩
stable_instances (NoGuess l) under SMaster SCreds SMinPin SRpIds SForce SEp SAlwaysUv SLargeBlob STok SMis SKeys SU2f
  SSp SLb SPin SRetries
instance : SPresence (NoGuess l) := ⟨fun _ _ h => h.cons rfl⟩
instance : SIssued (NoGuess l) := ⟨fun _ _ _ _ h => h.cons rfl⟩
instance : SConsumed (NoGuess l) := ⟨fun _ h => h.cons rfl⟩
instance : SU2fPrompt (NoGuess l) := ⟨fun _ _ h => h.cons rfl⟩
instance : SU2fConsume (NoGuess l) := ⟨fun _ _ h => h.cons rfl⟩
instance : SU2fTouch (NoGuess l) := ⟨fun _ _ h => h.cons rfl⟩
instance : SCounterEv (NoGuess l) := ⟨fun _ _ _ h => h.cons rfl⟩
instance : SCounter (NoGuess l) := ⟨fun s x w h => by
  cases w
  · exact Unmarked.cons (s := { s with p := _ }) h rfl
  · exact h⟩
instance : SBoot (NoGuess l) := ⟨fun s v h => Unmarked.cons (s := { s with v := v }) h rfl⟩
instance : SErase (NoGuess l) := ⟨fun s h => Unmarked.cons (s := { s with p := _ }) h rfl⟩
end

/-- Before the comparison: no right guess, and what the guess is about has not changed. -/
def Ready (s0 : St) (s : St) : Prop :=
  NoGuess s0.log s ∧ s.p.pin = s0.p.pin ∧ s.v.pin.p1 = s0.v.pin.p1 ∧ s.v.pin.p2 = s0.v.pin.p2

section
variable (s0 : St)
instance : SEnv (Ready s0) := ⟨fun _ _ _ _ h => h⟩
instance : STok (Ready s0) := ⟨fun _ _ h => h⟩
instance : SMis (Ready s0) := ⟨fun _ _ h => h⟩
instance : SU2f (Ready s0) := ⟨fun _ _ h => h⟩
instance : SSp (Ready s0) := ⟨fun _ _ h => h⟩
instance : SRetries (Ready s0) := ⟨fun _ _ h => h⟩
end

/-- From a state that is ready for the comparison, the computation makes no right guess. -/
def Holds (s0 : St) (m : M α) : Prop := ∀ s, Ready s0 s → NoGuess s0.log (m s).2

theorem Holds.after {s0 : St} {m : M α} {f : α → M β} (h1 : Pres (Ready s0) m) (h2 : ∀ a, Holds s0 (f a)) :
    Holds s0 (m >>= f) := by
  intro s hs
  have h3 := h1.out s hs
  simp only [bind_def, M.bind]
  rcases hm : m s with ⟨r, t⟩
  rw [hm] at h3
  cases r
  · exact h2 _ _ h3
  · exact h3.1
  · exact h3.1
  · exact h3.1

theorem Holds.then {s0 : St} {m : M α} {f : α → M β} (h1 : Holds s0 m) (h2 : ∀ a, Pres (NoGuess s0.log) (f a)) :
    Holds s0 (m >>= f) := by
  intro s hs
  have h3 := h1 s hs
  simp only [bind_def, M.bind]
  rcases hm : m s with ⟨r, t⟩
  rw [hm] at h3
  cases r
  · exact (h2 _).out _ h3
  · exact h3
  · exact h3
  · exact h3

theorem Holds.other {s0 : St} {m : M α} (h : Pres (NoGuess s0.log) m) : Holds s0 m := fun s hs => h.out s hs.1

/-- The parameters carry no guess of the hash of the PIN. -/
def Astray (s0 : St) (a : PinParams) : Prop := ∀ ka phe z hash n, s0.p.pin = some (hash, n) → a.keyAgreement = some ka →
  a.pinHashEnc = some phe → Dev.ecdh (s0.v.pin.proto a.proto).sk ka.x ka.y = some z → PinSpec.decrypt a.proto z phe ≠ some hash

theorem Holds.req {s0 : St} {o : Option α} {e : Status} {f : α → M β} (h : ∀ a, o = some a → Holds s0 (f a)) :
    Holds s0 (Ctap.req o e >>= f) := by
  intro s hs
  cases ho : o with
  | none => exact hs.1
  | some a => exact h a ho s hs

theorem Holds.verify {s0 : St} {a : PinParams} (ha : Astray s0 a) {ka : CoseKey} {phe : Bytes}
    (hk : a.keyAgreement = some ka) (hp : a.pinHashEnc = some phe) {f : SharedSecret → M β}
    (hf : ∀ ss, (∀ hash n, s0.p.pin = some (hash, n) → ss.decrypt phe ≠ .ok hash) → Holds s0 (f ss)) :
    Holds s0 (getSharedSecret a.proto ka >>= f) := by
  intro s hs
  have hsk : (s.v.pin.proto a.proto).sk = (s0.v.pin.proto a.proto).sk := by
    cases a.proto
    · show s.v.pin.p1.sk = s0.v.pin.p1.sk; rw [hs.2.2.1]
    · show s.v.pin.p2.sk = s0.v.pin.p2.sk; rw [hs.2.2.2]
  show NoGuess s0.log (M.bind (getSharedSecret a.proto ka) f s).2
  have hg : getSharedSecret a.proto ka s = liftE ((s.v.pin.proto a.proto).decapsulate a.proto ka) s := rfl
  simp only [M.bind, hg]
  cases hd : (s.v.pin.proto a.proto).decapsulate a.proto ka with
  | error e => exact hs.1
  | ok ss =>
    obtain ⟨z, hz, rfl⟩ := decapsulate_ok hd
    rw [hsk] at hz
    refine hf _ (fun hash n h1 h2 => ?_) s hs
    exact ha ka phe z hash n h1 hk hp hz (decrypt_spec h2)

theorem Holds.compare {s0 : St} {pr : Proto} {ss : SharedSecret} {phe : Bytes}
    (h : ∀ hash n, s0.p.pin = some (hash, n) → ss.decrypt phe ≠ .ok hash) : Holds s0 (verifyPinHashEnc pr ss phe) := by
  intro s hs
  unfold verifyPinHashEnc
  show NoGuess s0.log (M.bind pinHash _ s).2
  have h1 : Ready s0 (pinHash s).2 := (inferInstance : Pres (Ready s0) pinHash).out s hs
  simp only [M.bind]
  rcases hm : pinHash s with ⟨r, t⟩
  rw [hm] at h1
  cases r with
  | ok o =>
    cases o with
    | none => exact h1.1
    | some hash =>
      obtain ⟨h2, -⟩ := pinHash_ok hm
      obtain ⟨n, h3⟩ : ∃ n, s0.p.pin = some (hash, n) := by
        rw [← hs.2.1]
        cases hp : s.p.pin with
        | none => rw [hp] at h2; simp at h2
        | some x => rw [hp] at h2; exact ⟨x.2, by simp at h2; rw [h2]⟩
      dsimp only
      refine Holds.after inferInstance (fun v => ?_) _ h1
      refine Holds.after inferInstance (fun _ => ?_)
      refine Holds.after inferInstance (fun _ => ?_)
      cases hd : ss.decrypt phe with
      | error _ => exact Holds.other inferInstance
      | ok dec =>
        have hne : (hash == dec) = false := by
          rw [beq_eq_false_iff_ne]
          intro h4
          exact h hash n h3 (by rw [hd, h4])
        refine Holds.then (fun s hs => ?_) fun b => by pres
        have : comparePin hash dec s = (.ok (hash == dec), { s with log := .pinCompare (hash == dec) :: s.log }) := rfl
        rw [this, hne]
        exact hs.1.cons rfl
  | _ => exact h1.1

theorem Holds.token {s0 : St} {a : PinParams} (ha : Astray s0 a) : Holds s0 (processGetPinToken a) := by
  unfold processGetPinToken
  refine Holds.req fun ka hk => ?_
  refine Holds.req fun phe hp => ?_
  refine Holds.after inferInstance (fun _ => ?_)
  refine Holds.after inferInstance (fun _ => ?_)
  refine Holds.after inferInstance (fun _ => ?_)
  refine Holds.verify ha hk hp fun ss hss => ?_
  exact Holds.then (Holds.compare hss) fun _ => by pres

theorem Holds.clientPin {s0 : St} {a : PinParams} (ha : Astray s0 a) : Holds s0 (clientPinCommand a) := by
  unfold clientPinCommand
  refine Holds.after inferInstance (fun _ => ?_)
  cases a.sub with
  | getPinRetries => exact Holds.other (by pres)
  | getKeyAgreement => exact Holds.other (by pres)
  | setPin => exact Holds.other (by pres)
  | changePin =>
    refine Holds.then ?_ fun _ => inferInstance
    unfold processChangePin
    refine Holds.req fun ka hk => ?_
    refine Holds.after inferInstance (fun _ => ?_)
    refine Holds.after inferInstance (fun _ => ?_)
    refine Holds.req fun phe hp => ?_
    refine Holds.after inferInstance (fun _ => ?_)
    refine Holds.after inferInstance (fun _ => ?_)
    refine Holds.verify ha hk hp fun ss hss => ?_
    refine Holds.after inferInstance (fun _ => ?_)
    exact Holds.then (Holds.compare hss) fun _ => by pres
  | getPinToken => exact Holds.then (Holds.token ha) fun _ => by pres
  | getUvTokenUsingUv => exact Holds.other (by pres)
  | getUvRetries => exact Holds.other (by pres)
  | getPinTokenWithPermissions =>
    refine Holds.then ?_ fun _ => by pres
    unfold processGetPinTokenWithPermissions
    refine Holds.after inferInstance (fun _ => ?_)
    refine Holds.after inferInstance (fun _ => ?_)
    refine Holds.after inferInstance (fun _ => ?_)
    exact Holds.then (Holds.token (a := { a with permissions := none, permissionsRpId := none }) ha) fun _ => by pres

theorem Holds.fido {s0 : St} {cmd : Command} (ha : ∀ a, cmd = .clientPin a → Astray s0 a) (ch : Channel) :
    Holds s0 (fidoCommand ch cmd) := by
  cases cmd with
  | clientPin a => exact Holds.then (Holds.clientPin (ha a rfl)) fun _ => inferInstance
  | _ => refine Holds.other ?_; simp only [fidoCommand]; infer_instance

theorem Holds.parsed {s0 : St} {cmd : Command} (ha : ∀ a, cmd = .clientPin a → Astray s0 a) (ch : Channel) :
    Holds s0 (processParsed cmd ch) := by
  unfold processParsed
  refine Holds.after inferInstance (fun _ => ?_)
  refine Holds.after inferInstance (fun _ => ?_)
  refine Holds.after inferInstance (fun _ => ?_)
  refine Holds.after inferInstance (fun _ => ?_)
  unfold channelCommand
  cases ch with
  | main _ => exact Holds.fido ha _
  | vendor _ => exact Holds.other inferInstance

theorem noGuess_step {s : St} {i : Input} (h : ∀ hash n, s.p.pin = some (hash, n) → ¬ i.GuessOf hash s) :
    NoGuess s.log (stepM i s).2 := by
  have h0 : NoGuess s.log s := ⟨[], rfl, by simp⟩
  cases i with
  | ctap2 ch msg =>
    unfold stepM
    refine Holds.then (s0 := s) ?_ (fun _ => inferInstance) s ⟨h0, rfl, rfl, rfl⟩
    unfold processCommand
    cases hm : Command.deserialize msg with
    | error e => exact Holds.other inferInstance
    | ok cmd =>
      intro t ht
      have ha : ∀ a, cmd = .clientPin a → Astray s a := by
        intro a hc ka phe z hash n h1 h2 h3 h4 h5
        exact h hash n h1 ⟨a, ka, phe, z, by rw [hm, hc], h2, h3, h4, h5⟩
      have h1 : Holds s (processParsed cmd ch >>= fun r => respond r) :=
        Holds.then (Holds.parsed ha ch) fun _ => inferInstance
      have h2 := h1 t ht
      simp only [errorByte]
      rcases he : (processParsed cmd ch >>= fun r => respond r) t with ⟨r, u⟩
      rw [he] at h2
      cases r <;> exact h2
  | ctap1 m => unfold stepM; exact (inferInstance : Pres (NoGuess s.log) _).out s h0
  | touch => unfold stepM; exact (inferInstance : Pres (NoGuess s.log) _).out s h0
  | wait ms => exact h0

end Verif.Ctap
