import Verif.Ctap.RegLemmas
import Verif.Ctap.PropsLive

/-!
# C73: honest registrations are answered
-/
namespace Verif.Ctap
set_option linter.unusedSectionVars false
section
variable [Dev] {P : Oracle → Prop} {s s' : St}

theorem ok_makeCredential {a : McParams} {cid : Bytes} {o : Oracle} (hk : Keyed s) (h : a.Fair s o) :
    Ok (processParsed (.makeCredential a) (.main cid)) (s.withOracle o) := by
  suffices Ok (makeCredential a) (prelude (.makeCredential a) (.main cid) (s.withOracle o)) by
    obtain ⟨r, s1, e⟩ := this
    exact ⟨r, s1, by rw [processParsed_eq]; exact e⟩
  generalize hs0 : prelude (.makeCredential a) (.main cid) (s.withOracle o) = s0
  have hs : Smooth s0 := by subst hs0; exact ⟨h.calm, hk.2.2⟩
  have hp0 : s0.p = s.p := by subst hs0; rfl
  have ho0 : s0.env.o = o := by subst hs0; rfl
  have hst : ∀ {s' : St}, s'.p.creds = s.p.creds → s'.stored = s.stored := fun h => by unfold St.stored; rw [h]
  unfold makeCredential
  refine ok_bind (ok_precheck (entitled_precheck h.token)) fun _ s1 e1 => ?_
  obtain ⟨e1, _⟩ := authPrecheck_ok e1
  subst s1
  refine ok_bind (ok_guard ?_) fun _ s1 e1 => ?_
  · obtain ⟨p, h1, h2, h3⟩ := h.algorithm
    exact List.any_eq_true.2 ⟨p, h1, by simp [h2, h3]⟩
  rw [guardE_ok] at e1
  obtain ⟨_, e1⟩ := e1
  subst s1
  obtain ⟨g1, g2⟩ := ok_enterprise (a := a) hs (by rw [hp0]; exact h.enterprise)
  refine ok_bind g1 fun ep s1 e1 => ?_
  have hep := g2 _ _ e1
  have hs1 := smooth_of e1 hs
  obtain ⟨e, _, _, rfl⟩ := envOnly e1
  refine ok_bind (ok_mcAuth hs1 (by show _ → _ ∧ s0.p.uvRequired = false ∧ (_ → s0.p.pin = none); rw [hp0]; exact h.noToken) fun t ht => ?_) fun _ s2 e2 => ?_
  · have := entitles_oracle o h.token
    unfold St.Entitles at this
    rw [ht] at this
    obtain ⟨pr, k1, k2, hv⟩ := this
    have hpin := prelude_tok (cmd := .makeCredential a) (ch := .main cid) hv
    rw [hs0] at hpin
    refine ⟨pr, k1, ?_, ?_, ?_⟩
    · show t = PinSpec.tag pr (s0.v.pin.proto pr).token _
      rw [hpin]; exact k2
    · show s0.p.pin.isSome = true
      rw [hp0]; exact hv.pinSet
    · dsimp only
      rw [hpin]
      exact ⟨hv.inUse, hv.verified, hv.perm, hv.rpId⟩
  have hs2 := smooth_of e2 hs1
  have hp2 : s2.p = s.p := (keepP e2).trans hp0
  refine ok_bind (ok_exclude hs2 fun d hd => ?_) fun _ s3 e3 => ?_
  · have := h.exclude d hd
    exact ⟨by rw [hst (by rw [hp2])]; exact this.once, by rw [hst (by rw [hp2])]; exact this.stored, by rw [hp2]; exact this.sealed⟩
  have hs3 := smooth_of e3 hs2
  have ho3 : s3.env.o = o := by
    rw [(keepEnv e3).2, (keepEnv e2).2, ← ho0]
    exact (keepEnv e1).2
  refine ok_bind (ok_presence hs3 (by rw [ho3]; exact h.user)) fun _ s4 e4 => ?_
  have hs4 := smooth_of e4 hs3
  refine ok_bind (Go.out _ hs4) fun _ s5 e5 => ?_
  have hs5 := smooth_of e5 hs4
  have hc5 : s5.p.creds = s.p.creds := by rw [keepCreds e5, keepCreds e4, keepCreds e3, hp2]
  have ha5 : s5.p.attestation = s.p.attestation := by rw [keepAtt e5, keepAtt e4, keepAtt e3, hp2]
  have ho5 : s5.env.o = o := by rw [(keepEnv e5).2, (keepEnv e4).2, ho3]
  refine ok_mcFinish hs5 (by rw [hc5]; exact hk.1) (by rw [ho5]; exact h.keys) (fun hb => ?_) (by rw [hst hc5]; exact h.room)
  rw [ha5]
  refine h.attestation ?_
  cases ep with
  | true => exact .inl (hep rfl)
  | false => exact .inr (by simpa using hb)

/-- **C73.** An honest registration, in an environment where nothing fails, by a user who touches the device, is answered with
success: the answer carries a credential id, and a public key to which the device knows the private key. -/
theorem C73_registered {a : McParams} {cid msg : Bytes} {o : Oracle} (hr : Reach P true s)
    (hmsg : Command.deserialize msg = .ok (.makeCredential a)) (h : a.Fair s o) :
    ∃ m b s1 t, processParsed (.makeCredential a) (.main cid) (s.withOracle o) = (.ok (.makeCredential m), s1) ∧
      stepM (.ctap2 (.main cid) msg) (s.withOracle o) = (.ok (.ctap2 b), t) ∧ (Response.makeCredential m).SentAs b := by
  obtain ⟨r, s1, b, t, h1, h2, h3⟩ := answered (s := s.withOracle o) hmsg ⟨h.calm, (keyed_reach hr).2.2⟩ (ok_makeCredential (cid := cid) (keyed_reach hr) h)
  obtain ⟨m, rfl⟩ : ∃ m, r = .makeCredential m := by
    obtain ⟨_, h1⟩ := processParsed_ok h1 (by simp)
    obtain ⟨_, _, _, _, _, _, _, _, _, _, h5⟩ := makeCredential_ok h1
    simp only [mcFinish, bind_ok, pure_ok] at h5
    obtain ⟨_, _, _, _, _, _, _, _, _, _, _, _, _, _, _, _, _, _, e, _⟩ := h5
    exact ⟨_, e.symm⟩
  exact ⟨m, b, s1, t, h1, h3, h2⟩

theorem canSign_drawn {o : Oracle} {sk : Bytes} (ho : o.DrawsKeys) (h : Drawn o sk) : CanSign sk := by
  obtain ⟨k, rfl⟩ := h
  exact (ho k).2

/-- **C73.** From the registration to the login, for a credential the device does not store. The registration is answered, and
whatever happens afterwards, as long as the device is not reset, an honest login that lists the credential is answered and
signed with the private key that belongs to the public key of the registration. -/
theorem C73_sealed {ac : McParams} {cid msg : Bytes} {o : Oracle} (hr : Reach P true s) (ho : P o)
    (hmsg : Command.deserialize msg = .ok (.makeCredential ac)) (h : ac.Fair s o) (hrk : ac.options.rk = false) :
    ∃ m b t sk, stepM (.ctap2 (.main cid) msg) (s.withOracle o) = (.ok (.ctap2 b), t) ∧ (Response.makeCredential m).SentAs b ∧
      PublicKeyIn m.authData sk ∧
      ∀ s2, Run P t true s2 → ¬ HappenedSince t.log Ev.isErased s2.log →
      ∀ (a : GaParams) (cid' msg' : Bytes) (o' : Oracle), Command.deserialize msg' = .ok (.getAssertion a) → a.Fair s2 o' →
        a.rpId = ac.rp.id → a.allowList = some [{ id := credentialIdIn m.authData }] →
        VisibleById (mcPolicy ac.ext.credProtect) a.authParam.isSome →
        ∃ g b' t', stepM (.ctap2 (.main cid') msg') (s2.withOracle o') = (.ok (.ctap2 b'), t') ∧
          (Response.getAssertion g).SentAs b' ∧ g.credential.id = credentialIdIn m.authData ∧
          Dev.ecdsaSign sk (g.authData ++ a.clientDataHash) = some g.signature := by
  obtain ⟨m, b, s1, t, h1, h2, h3⟩ := C73_registered (cid := cid) hr hmsg h
  obtain ⟨sk, k1, k2, k3⟩ := C71_sealed hr ho hmsg h1 hrk
  rw [h2] at k3
  exact ⟨m, b, t, sk, h2, h3, k1, fun s2 hrun hn a cid' msg' o' => k3 s2 hrun hn a cid' msg' o' (canSign_drawn h.keys k2)⟩

/-- **C73.** The same for a discoverable credential: it is kept until a request is meant to remove it. The random ids of the stored
credentials must not coincide. -/
theorem C73_stored {ac : McParams} {cid msg : Bytes} {o : Oracle} (hr : Reach P true s) (ho : P o)
    (hmsg : Command.deserialize msg = .ok (.makeCredential ac)) (h : ac.Fair s o) (hrk : ac.options.rk = true) :
    ∃ m b t sk, stepM (.ctap2 (.main cid) msg) (s.withOracle o) = (.ok (.ctap2 b), t) ∧ (Response.makeCredential m).SentAs b ∧
      PublicKeyIn m.authData sk ∧
      ∀ s2, Without P (Unregisters ac m) t s2 →
      ∀ (a : GaParams) (cid' msg' : Bytes) (o' : Oracle), Command.deserialize msg' = .ok (.getAssertion a) → a.Fair s2 o' →
        a.rpId = ac.rp.id → a.allowList = some [{ id := credentialIdIn m.authData }] →
        (s2.stored.filter fun c => c.id == credentialIdIn m.authData).length ≤ 1 →
        VisibleById (mcPolicy ac.ext.credProtect) a.authParam.isSome →
        ∃ g b' t', stepM (.ctap2 (.main cid') msg') (s2.withOracle o') = (.ok (.ctap2 b'), t') ∧
          (Response.getAssertion g).SentAs b' ∧ g.credential.id = credentialIdIn m.authData ∧
          Dev.ecdsaSign sk (g.authData ++ a.clientDataHash) = some g.signature := by
  obtain ⟨m, b, s1, t, h1, h2, h3⟩ := C73_registered (cid := cid) hr hmsg h
  obtain ⟨sk, k1, k2, k3⟩ := C71_stored hr ho hmsg h1 hrk
  rw [h2] at k3
  exact ⟨m, b, t, sk, h2, h3, k1, fun s2 hw a cid' msg' o' => k3 s2 hw a cid' msg' o' (canSign_drawn h.keys k2)⟩

end
end Verif.Ctap

namespace Verif.Ctap.Toy
open Verif.Cbor (Value)
set_option maxRecDepth 100000

theorem good_drawsKeys : good.DrawsKeys := fun _ => ⟨rfl, canSign _⟩

/-- The registration request in a message. -/
def mcOf (i : Input) : Option McParams :=
  match Command.deserialize (body i) with
  | .ok (.makeCredential a) => some a
  | _ => none

theorem mcOf_parsed {i : Input} {a : McParams} (h : mcOf i = some a) : Command.deserialize (body i) = .ok (.makeCredential a) := by
  unfold mcOf at h
  split at h
  · next h' => cases h; exact h'
  · cases h

/-- What the examples need of a request without token. -/
theorem fair_register {a : McParams} {s : St} (h1 : a.authParam = none) (h2 : a.options.uv = false) (h3 : s.p.uvRequired = false)
    (h4 : ∃ p ∈ a.credParams, p.publicKey = true ∧ p.es256 = true) (h5 : a.enterprise = none) (h6 : s.p.pin = none)
    (h7 : ∀ d ∈ a.excludeList.getD [], s.Unknown a.rp.id d.id false) (h8 : s.stored.length < Dev.maxResidentKeys) : a.Fair s good where
  calm := good_calm
  user := good_confirms
  keys := good_drawsKeys
  algorithm := h4
  enterprise n h := by rw [h5] at h; cases h
  attestation h := by
    rw [h5] at h
    rcases h with h | h
    · cases h
    · cases h
  noToken _ := ⟨h2, h3, fun _ => h6⟩
  token := by rw [h1]; trivial
  exclude := by rw [h1]; exact h7
  room _ := .inl h8

/-- A registration with a list of credentials to exclude. -/
def registerExcluding (rp user : Bytes) (l : List Bytes) : Input :=
  send 0x01 (map [(.unsigned 1, .bytes cdh), (.unsigned 2, map [(.text (b! "id"), .text rp)]),
    (.unsigned 3, map [(.text (b! "id"), .bytes user)]), (.unsigned 4, .array [param]),
    (.unsigned 5, .array (l.map fun i => map [(.text (b! "id"), .bytes i), (.text (b! "type"), .text (b! "public-key"))]))])

/-- C73: a registration is answered although it excludes an unknown id and the id of a credential for another relying party, and a
login with the new credential is answered after a power cycle. -/
example : ∃ m b t, stepM (registerExcluding rpB [1] [[1, 2], sealedId]) (withSealed.withOracle good) = (.ok (.ctap2 b), t) ∧
    (Response.makeCredential m).SentAs b ∧
    ∀ s2, Run (fun _ => True) t true s2 → ¬ HappenedSince t.log Ev.isErased s2.log →
      ∀ a, gaOf (assert rpB (some [credentialIdIn m.authData]) none) = some a → a.Fair s2 good → a.rpId = rpB →
        a.allowList = some [{ id := credentialIdIn m.authData }] →
        ∃ g b' t', stepM (assert rpB (some [credentialIdIn m.authData]) none) (s2.withOracle good) = (.ok (.ctap2 b'), t') ∧
          (Response.getAssertion g).SentAs b' := by
  obtain ⟨a, ha⟩ : ∃ a, mcOf (registerExcluding rpB [1] [[1, 2], sealedId]) = some a := Option.isSome_iff_exists.1 (by decide +kernel)
  have e : (mcOf (registerExcluding rpB [1] [[1, 2], sealedId])).map (fun a => (a.authParam, a.options.uv, a.options.rk, a.rp.id)) =
    some (none, false, false, rpB) := by decide +kernel
  have e' : (mcOf (registerExcluding rpB [1] [[1, 2], sealedId])).map (fun a => (a.enterprise, a.excludeList)) =
    some (none, some [{ id := [1, 2] }, { id := sealedId }]) := by decide +kernel
  have e'' : (mcOf (registerExcluding rpB [1] [[1, 2], sealedId])).map
    (fun a => (a.credParams.any (fun p => p.publicKey && p.es256), mcPolicy a.ext.credProtect)) = some (true, none) := by decide +kernel
  rw [ha] at e e' e''
  simp only [Option.map_some, Option.some.injEq, Prod.mk.injEq] at e e' e''
  obtain ⟨e1, e2, e3, e4⟩ := e
  obtain ⟨e5, e6⟩ := e'
  obtain ⟨e7, e8⟩ := e''
  have hr : Reach (fun _ => True) true withSealed := reach_step good trivial _ (reach_booted trivial) (by decide +kernel)
  have hst : withSealed.stored = [] := by decide +kernel
  obtain ⟨w, hw⟩ : ∃ w, opened withSealed rpA sealedId = some w := Option.isSome_iff_exists.1 (by decide +kernel)
  obtain ⟨h1, h2⟩ := opened_has hw
  have hf : a.Fair withSealed good := by
    refine fair_register e1 e2 (by decide +kernel) ?_ e5 (by decide +kernel) ?_ (by decide +kernel)
    · obtain ⟨p, hp, hq⟩ := List.any_eq_true.1 e7
      exact ⟨p, hp, by simpa using hq⟩
    · rw [e6, e4]
      intro d hd
      refine ⟨by rw [hst]; simp, ?_, ?_⟩
      · rintro ⟨c, hc, _⟩
        have := hc.1; rw [hst] at this; cases this
      · intro mk hm ht
        obtain rfl | rfl : d = { id := [1, 2] } ∨ d = { id := sealedId } := by simpa using hd
        · exact absurd ht.1 (by decide)
        · rcases hm with hm | hm
          · exact absurd hm (by decide +kernel)
          · exact ⟨w, _, h2 mk hm, fun h => absurd h.1 (by decide +kernel)⟩
  obtain ⟨m, b, t, sk, k1, k2, _, k3⟩ := C73_sealed (cid := [1, 2, 3, 4]) hr trivial (mcOf_parsed ha) hf e3
  refine ⟨m, b, t, k1, k2, fun s2 hrun hn g hg hfg hrp hl => ?_⟩
  obtain ⟨x, b', t', q1, q2, _⟩ := k3 s2 hrun hn g [1, 2, 3, 4] _ good (gaOf_parsed hg) hfg (hrp.trans e4.symm) hl (by rw [e8]; simp [VisibleById])
  exact ⟨x, b', t', q1, q2⟩

/-- C73: a discoverable credential beside another one. -/
example : ∃ m b t, stepM (register rpB [2] true none) ((step good (register rpA [1] true none) booted).withOracle good) =
    (.ok (.ctap2 b), t) ∧ (Response.makeCredential m).SentAs b := by
  obtain ⟨a, ha⟩ : ∃ a, mcOf (register rpB [2] true none) = some a := Option.isSome_iff_exists.1 (by decide +kernel)
  have e : (mcOf (register rpB [2] true none)).map (fun a => (a.authParam, a.options.uv, a.options.rk)) =
    some (none, false, true) := by decide +kernel
  have e' : (mcOf (register rpB [2] true none)).map (fun a => (a.enterprise, a.excludeList)) = some (none, none) := by decide +kernel
  have e'' : (mcOf (register rpB [2] true none)).map (fun a => a.credParams.any (fun p => p.publicKey && p.es256)) = some true := by
    decide +kernel
  rw [ha] at e e' e''
  simp only [Option.map_some, Option.some.injEq, Prod.mk.injEq] at e e' e''
  obtain ⟨e1, e2, e3⟩ := e
  obtain ⟨e5, e6⟩ := e'
  obtain ⟨p, hp, hq⟩ := List.any_eq_true.1 e''
  have hr : Reach (fun _ => True) true (step good (register rpA [1] true none) booted) :=
    reach_step good trivial _ (reach_booted trivial) (by decide +kernel)
  obtain ⟨m, b, t, sk, k1, k2, _⟩ := C73_stored (cid := [1, 2, 3, 4]) hr trivial (mcOf_parsed ha)
    (fair_register e1 e2 (by decide +kernel) ⟨p, hp, by simpa using hq⟩ e5 (by decide +kernel) (by rw [e6]; simp) (by decide +kernel)) e3
  exact ⟨m, b, t, k1, k2⟩

end Verif.Ctap.Toy
