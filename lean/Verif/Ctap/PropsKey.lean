import Verif.Ctap.SelectLemmas
import Verif.Ctap.UntilLemmas
import Verif.Ctap.CredAll
import Verif.Ctap.PropsCred

/-!
# C22, C23, C34, C35: finding credentials by id
-/
namespace Verif.Ctap
set_option linter.unusedSectionVars false
set_option maxRecDepth 100000

section
variable [Dev] {P : Oracle → Prop} {b : Bool} {s s' : St}

theorem prelude_p (cmd : Command) (ch : Channel) (s : St) : (prelude cmd ch s).p = s.p := rfl
theorem prelude_stored (cmd : Command) (ch : Channel) (s : St) : (prelude cmd ch s).stored = s.stored := rfl

theorem keepMaster {m : M α} {s s' : St} {r : Res α} {mk : Bytes} (h : m s = (r, s')) (hm : s.p.master = some mk)
    [hp : Pres (MasterIs mk) m] : s'.p.master = some mk := by have := hp.out s hm; rwa [h] at this

theorem Yields.id_eq {stored : List Cred} {mk rp id : Bytes} {uv : Bool} {c : Cred}
    (h : Yields stored mk rp id uv c) : c.id = id := by
  rcases h with h | ⟨w, _, _, rfl⟩
  · exact h.1.2.1
  · rfl

theorem Yields.visible {stored : List Cred} {mk rp id : Bytes} {uv : Bool} {c : Cred}
    (h : Yields stored mk rp id uv c) : VisibleById c.policy uv := by
  rcases h with h | ⟨w, _, h, rfl⟩
  · exact h.2
  · exact h

/-- A successful assertion with an allow list. -/
theorem assertion_listed {a : GaParams} {ch : Channel} {r : Response} {l : List Descriptor}
    (h : processParsed (.getAssertion a) ch s = (.ok r, s')) (hl : a.allowList = some l) :
    ∃ mk c g pre d post, r = .getAssertion g ∧ s'.p.master = some mk ∧ (s.p.master = none ∨ s.p.master = some mk) ∧
      l = pre ++ d :: post ∧ Yields s.stored mk a.rpId d.id a.authParam.isSome c ∧
      (∀ d' ∈ pre, ¬ Offered s.stored mk a.rpId d'.id a.authParam.isSome) ∧ g.credential = { id := d.id } ∧
      g.user = gaUser c a.authParam.isSome ∧
      Dev.ecdsaSign c.sk (g.authData ++ a.clientDataHash) = some g.signature := by
  obtain ⟨⟨cid, rfl⟩, h⟩ := processParsed_ok h (by simp)
  obtain ⟨s1, s2, s3, s4, s5, s6, c, rest, ad, number, ga, h1, h2, h3, h4, h5, h6, h7, rfl, _⟩ := getAssertion_ok h
  have hp1 := keepP h1
  simp only [gaFindCredential, hl, bind_ok, pure_ok, Prod.mk.injEq] at h2
  obtain ⟨o, s2', h2, ⟨rfl, rfl⟩, rfl⟩ := h2
  have hst : s1.stored = s.stored := by unfold St.stored; rw [hp1]; rfl
  rcases allowList_ok h2 with ⟨_, h8, _⟩ | ⟨mk, hk, h8, _⟩
  · cases h8
  obtain ⟨pre, d, post, rfl, hy, hn⟩ := h8 c rfl
  rw [hst] at hy hn
  obtain ⟨g1, _, g3, g4, _, _⟩ := assertionResponse_ok h7
  have hm := keepMaster h7 (keepMaster h6 (keepMaster h5 (keepMaster h4 (keepMaster h3 hk.new))))
  refine ⟨mk, c, ga, pre, d, post, rfl, hm, ?_, rfl, hy, hn, ?_, g4, g3⟩
  · have := hk.master; rw [hp1] at this; exact this
  · rw [g1, hy.id_eq]

/-! ## C35 -/

/-- **C35**, key store: an id is accepted as a sealed credential only if it has 241 bytes, the last 32 are the HMAC of the
others under the key of this device, and the hash of the relying party inside is the requested one. -/
theorem C35_unwrap {id rpIdHash : Bytes} {w : CredSource} (h : unwrapCredential id rpIdHash s = (.ok (some w), s')) :
    ∃ mk, s'.p.master = some mk ∧ (s.p.master = none ∨ s.p.master = some mk) ∧ Tagged mk id ∧ w.rpIdHash = rpIdHash := by
  rcases unwrap_ok h with ⟨h1, _⟩ | ⟨mk, e, h1, h2, h3, h4, h5⟩
  · cases h1
  · have := opens_iff.1 h5
    exact ⟨mk, by rw [h4], h3, this.tagged, this.rp⟩

/-- **C35**, one relying party: if the same id is accepted twice by a device that was not reset in between, it is for the
same relying party, with the same content. -/
theorem C35_one_relying_party {s2 s2' : St} {id r1 r2 : Bytes} {w1 w2 : CredSource}
    (h1 : unwrapCredential id r1 s = (.ok (some w1), s')) (hr : Run P s' b s2)
    (hn : ¬ HappenedSince s'.log Ev.isErased s2.log)
    (h2 : unwrapCredential id r2 s2 = (.ok (some w2), s2')) : r1 = r2 ∧ w1 = w2 := by
  rcases unwrap_ok h1 with ⟨h, _⟩ | ⟨mk, e, _, _, _, a4, a5⟩
  · cases h
  have hm : s2.p.master = some mk := run_master hr (by rw [a4]) hn
  rcases unwrap_ok h2 with ⟨h, _⟩ | ⟨mk2, e2, _, _, b3, b4, b5⟩
  · cases h
  have : mk2 = mk := by
    rcases b3 with b3 | b3 <;> rw [hm] at b3 <;> cases b3
    rfl
  subst this
  have o1 := opens_iff.1 a5
  have o2 := opens_iff.1 b5
  have := o1.content
  rw [o2.content] at this
  cases this
  exact ⟨o1.rp.symm.trans o2.rp, rfl⟩

/-- **C35**, assertions: the id returned for a request with an allow list belongs to a stored credential of this relying
party, or it is tagged by this device for this relying party. -/
theorem C35_assertion {a : GaParams} {ch : Channel} {r : Response} {l : List Descriptor}
    (h : processParsed (.getAssertion a) ch s = (.ok r, s')) (hl : a.allowList = some l) :
    ∃ g, r = .getAssertion g ∧ g.credential ∈ l.map (fun d => { id := d.id }) ∧
      ((∃ c ∈ s.stored, c.id = g.credential.id ∧ c.rpId = a.rpId) ∨
       ∃ mk w, s'.p.master = some mk ∧ Tagged mk g.credential.id ∧ Opens mk g.credential.id (Dev.sha256 a.rpId) w) := by
  obtain ⟨mk, c, g, pre, d, post, h1, h2, h3, rfl, h5, h6, h7, h8⟩ := assertion_listed h hl
  refine ⟨g, h1, ?_, ?_⟩
  · rw [h7]; simp
  · rw [h7]
    rcases h5 with h5 | ⟨w, h5, _⟩
    · exact .inl ⟨c, h5.1.1, h5.1.2.1, h5.1.2.2⟩
    · exact .inr ⟨mk, w, h2, h5.tagged, h5⟩

theorem orSw_ok {m : M α} {sw : Sw} {x : α} : orSw m sw s = (.ok (.ok x), s') ↔ m s = (.ok x, s') := by
  simp only [orSw]
  rcases m s with ⟨r, s1⟩
  cases r <;> simp

theorem bindSw_ok {m : M (Except Sw α)} {f : α → M (Except Sw β)} {x : Except Sw β} :
    bindSw m f s = (.ok x, s') ↔ (∃ a s1, m s = (.ok (.ok a), s1) ∧ f a s1 = (.ok x, s')) ∨
      ∃ e, m s = (.ok (.error e), s') ∧ x = .error e := by
  simp only [bindSw, bind_ok]
  constructor
  · rintro ⟨r, s1, h1, h2⟩
    cases r with
    | ok a => exact .inl ⟨a, s1, h1, h2⟩
    | error e => rw [pure_ok] at h2; obtain ⟨rfl, rfl⟩ := h2; exact .inr ⟨e, h1, rfl⟩
  · rintro (⟨a, s1, h1, h2⟩ | ⟨e, h1, rfl⟩)
    · exact ⟨_, s1, h1, h2⟩
    · exact ⟨_, s', h1, by rw [pure_ok]; exact ⟨rfl, rfl⟩⟩

/-- What an answer to U2F authenticate other than WRONG_DATA means. -/
theorem u2fAuthenticate_ok {c a h : Bytes} {f : U2fFlags} {x : Except Sw Bytes}
    (hx : u2fAuthenticate c a h f s = (.ok x, s')) (hne : x = .error .condUseNotSatisfied ∨ ∃ r, x = .ok r) :
    ∃ mk w s1, MkStep s mk s1 ∧ Opens mk h a w ∧ w.policy ≠ some .required ∧
      (f = .checkOnly ∧ x = .error .condUseNotSatisfied ∧ s' = s1 ∨
       f ≠ .checkOnly ∧ u2fSign c a w.sk s1 = (.ok x, s')) := by
  simp only [u2fAuthenticate, bindSw_ok, orSw_ok] at hx
  rcases hx with ⟨w, s1, h1, h2⟩ | ⟨e, h1, rfl⟩
  · rcases unwrap_ok h1 with ⟨rfl, _⟩ | ⟨mk, e, a1, a2, a3, a4, a5⟩
    · simp only [Option.filter_none, pure_ok] at h2
      rcases hne with h | ⟨r, h⟩ <;> rw [h] at h2 <;> simp at h2
    · cases hw : w.filter fun c => listedOk c.policy false with
      | none =>
        simp only [hw, pure_ok] at h2
        rcases hne with h | ⟨r, h⟩ <;> rw [h] at h2 <;> simp at h2
      | some w' =>
        simp only [hw] at h2
        rw [Option.filter_eq_some_iff] at hw
        obtain ⟨rfl, hv⟩ := hw
        have hv : w'.policy ≠ some .required := by simpa [listedOk] using hv
        refine ⟨mk, w', s1, MkStep.of a1 a2 a3 a4, opens_iff.1 a5, hv, ?_⟩
        by_cases hf : f = .checkOnly
        · simp only [hf, if_true, pure_ok] at h2
          exact .inl ⟨hf, h2.1.symm, h2.2.symm⟩
        · simp only [hf, if_false] at h2
          exact .inr ⟨hf, h2⟩
  · simp only [orSw] at h1
    rcases hu : unwrapCredential h a s with ⟨r, s1⟩
    rw [hu] at h1
    cases r <;> simp at h1
    rcases hne with h | ⟨r, h⟩ <;> cases h
    exact absurd h1.1 (by decide)

theorem processU2f_cmd {msg : Bytes} {x : Except Sw Bytes} (h : processU2f msg s = (.ok x, s')) :
    ∃ s1, u2fCommand msg s = (.ok x, s1) ∧ s'.p = s1.p := by
  simp only [processU2f, bind_ok] at h
  obtain ⟨r, s1, h1, u, s2, h2, h3⟩ := h
  have hp : s2.p = s1.p := keepP h2
  have fin : M.pure r s2 = (.ok x, s') → ∃ s1, u2fCommand msg s = (.ok x, s1) ∧ s'.p = s1.p := by
    intro h3
    rw [pure_ok] at h3
    obtain ⟨rfl, rfl⟩ := h3
    exact ⟨s1, h1, hp⟩
  revert h3
  cases hm : U2fCommand.parse msg with
  | error e => exact fin
  | ok c =>
    cases c with
    | authenticate _ _ _ _ =>
      cases r with
      | error e => exact fin
      | ok b =>
        intro h3
        simp only [bind_ok, logE_ok, pure_ok] at h3
        obtain ⟨_, _, rfl, rfl, rfl⟩ := h3
        exact ⟨s1, h1, hp⟩
    | _ => exact fin

theorem u2fCommand_auth {msg c a hd : Bytes} {f : U2fFlags} {x : Except Sw Bytes}
    (hm : U2fCommand.parse msg = .ok (.authenticate c a hd f)) (h : u2fCommand msg s = (.ok x, s'))
    (hx : (∃ r, x = .ok r) ∨ (f = .checkOnly ∧ x = .error .condUseNotSatisfied)) :
    ∃ s1, s1.p = s.p ∧ s.p.uvRequired = false ∧ u2fAuthenticate c a hd f s1 = (.ok x, s') := by
  simp only [u2fCommand, bindSw_ok, orSw_ok] at h
  rcases h with ⟨al, s1, h1, h2⟩ | ⟨e, h1, rfl⟩
  · obtain ⟨h3, e, _, rfl⟩ := hasAlwaysUv_ok h1
    cases al with
    | true =>
      simp only [if_true, pure_ok] at h2
      obtain ⟨rfl, _⟩ := h2
      rcases hx with ⟨r, h⟩ | ⟨_, h⟩ <;> cases h
    | false =>
      simp only [hm, u2fDispatch, bind_ok, Bool.false_eq_true, if_false] at h2
      obtain ⟨up, s2, h4, h5⟩ := h2
      cases up with
      | false =>
        simp only [Bool.false_eq_true, if_false, pure_ok] at h5
        obtain ⟨rfl, rfl⟩ := h5
        rcases hx with ⟨r, h⟩ | ⟨hf, _⟩
        · cases h
        · subst hf
          simp [u2fCheckUp, M.pure] at h4
      | true =>
        simp only [if_true] at h5
        have hp : s2.p = s.p := keepP (s := { s with env := e }) h4
        exact ⟨s2, hp, h3.symm, h5⟩
  · simp only [orSw] at h1
    rcases hu : hasAlwaysUv s with ⟨r, s1⟩
    rw [hu] at h1
    cases r <;> simp at h1
    obtain ⟨rfl, rfl⟩ := h1
    rcases hx with ⟨r, h⟩ | ⟨_, h⟩ <;> cases h

/-- The answer to a U2F authenticate request. -/
theorem u2fSign_ok {c a sk r : Bytes} (h : u2fSign c a sk s = (.ok (.ok r), s')) :
    ∃ n sig, r = [0x01] ++ Verif.Cbor.beBytes 4 n ++ sig ∧
      Dev.ecdsaSign sk (a ++ [0x01] ++ Verif.Cbor.beBytes 4 n ++ c) = some sig := by
  simp only [u2fSign, bindSw_ok, orSw_ok] at h
  rcases h with ⟨_, s1, h1, h⟩ | ⟨e, _, h⟩
  · rcases h with ⟨ad, s2, h2, h⟩ | ⟨e, _, h⟩
    · rcases h with ⟨sig, s3, h3, h⟩ | ⟨e, _, h⟩
      · simp only [generateAuthData, bind_ok, pure_ok] at h2
        obtain ⟨n, s2', _, rfl, rfl⟩ := h2
        rw [liftE_ok] at h3
        rw [pure_ok] at h
        refine ⟨n, sig, ?_, ?_⟩
        · have hr := Except.ok.inj h.1
          rw [← hr, show a ++ [(0x01 : UInt8)] ++ Verif.Cbor.beBytes 4 n ++ c =
            a ++ ([0x01] ++ Verif.Cbor.beBytes 4 n ++ c) by simp, List.drop_left,
            List.take_left' (by simp [Verif.Cbor.beBytes])]
        · have h3 := h3.1
          unfold signEncode at h3
          cases hs : Dev.ecdsaSign sk (a ++ [0x01] ++ Verif.Cbor.beBytes 4 n ++ c) with
          | none => rw [hs] at h3; cases h3
          | some s => rw [hs] at h3; cases h3; rfl
      · cases h
    · cases h
  · cases h

/-- What the answers to U2F authenticate requests mean. -/
theorem u2f_authenticated {msg c a hd : Bytes} {f : U2fFlags} {x : Except Sw Bytes}
    (hm : U2fCommand.parse msg = .ok (.authenticate c a hd f)) (h : processU2f msg s = (.ok x, s'))
    (hx : (∃ r, x = .ok r) ∨ (f = .checkOnly ∧ x = .error .condUseNotSatisfied)) :
    ∃ mk w, s'.p.master = some mk ∧ (s.p.master = none ∨ s.p.master = some mk) ∧ Opens mk hd a w ∧
      w.policy ≠ some .required ∧ ∀ r, x = .ok r → ∃ n sig, r = [0x01] ++ Verif.Cbor.beBytes 4 n ++ sig ∧
        Dev.ecdsaSign w.sk (a ++ [0x01] ++ Verif.Cbor.beBytes 4 n ++ c) = some sig := by
  obtain ⟨s1, h1, hp⟩ := processU2f_cmd h
  obtain ⟨s2, hp2, _, h2⟩ := u2fCommand_auth hm h1 hx
  obtain ⟨mk, w, s3, hk, ho, hpol, h3⟩ := u2fAuthenticate_ok h2 (hx.elim .inr fun h => .inl h.2)
  have hmas := hk.master
  rw [hp2] at hmas
  rcases h3 with ⟨hf, rfl, rfl⟩ | ⟨hf, h3⟩
  · exact ⟨mk, w, by rw [hp, hk.new], hmas, ho, hpol, fun r hr => by cases hr⟩
  · have : s1.p.master = some mk := keepMaster h3 hk.new
    refine ⟨mk, w, by rw [hp, this], hmas, ho, hpol, ?_⟩
    rintro r rfl
    exact u2fSign_ok h3

/-- **C35**, U2F: a key handle is answered (with a signature, or with the status that says it is known) only if it is
tagged by this device for this application. -/
theorem C35_u2f {msg c a hd : Bytes} {f : U2fFlags} {x : Except Sw Bytes}
    (hm : U2fCommand.parse msg = .ok (.authenticate c a hd f)) (h : processU2f msg s = (.ok x, s'))
    (hx : (∃ r, x = .ok r) ∨ (f = .checkOnly ∧ x = .error .condUseNotSatisfied)) :
    ∃ mk w, s'.p.master = some mk ∧ (s.p.master = none ∨ s.p.master = some mk) ∧ Tagged mk hd ∧ w.rpIdHash = a ∧
      Opens mk hd a w := by
  obtain ⟨mk, w, h1, h2, h3, _⟩ := u2f_authenticated hm h hx
  exact ⟨mk, w, h1, h2, h3.tagged, h3.rp, h3⟩

/-! ## C22 -/

/-- **C22**, requests with an allow list: the credential of the response is visible (a credential that requires user
verification only answers with it), and all ids listed before name no visible credential. -/
theorem C22_listed {a : GaParams} {ch : Channel} {r : Response} {l : List Descriptor}
    (h : processParsed (.getAssertion a) ch s = (.ok r, s')) (hl : a.allowList = some l) :
    ∃ g mk, r = .getAssertion g ∧ s'.p.master = some mk ∧ ∃ pre d post, l = pre ++ d :: post ∧ g.credential = { id := d.id } ∧
      Offered s.stored mk a.rpId d.id a.authParam.isSome ∧
      ∀ d' ∈ pre, ¬ Offered s.stored mk a.rpId d'.id a.authParam.isSome := by
  obtain ⟨mk, c, g, pre, d, post, h1, h2, h3, h4, h5, h6, h7, h8⟩ := assertion_listed h hl
  exact ⟨g, mk, h1, h2, pre, d, post, h4, h7, h5.offered, h6⟩

/-- **C22**, requests with an allow list are refused for lack of credentials only if none of the ids names a visible
credential, in which case they cannot succeed: other credentials have no influence. -/
theorem C22_listed_refused {a : GaParams} {ch : Channel} {l : List Descriptor}
    (h : processParsed (.getAssertion a) ch s = (.err .noCredentials, s')) (hl : a.allowList = some l) :
    s'.stored = s.stored ∧ ∀ d ∈ l, ¬ s'.Names a.rpId d.id a.authParam.isSome := by
  rw [processParsed_eq] at h
  cases ch with
  | vendor c => simp [channelCommand, vendorChannelCommand, fail] at h
  | main c =>
    obtain ⟨s1, rest, h1, h2⟩ := getAssertion_noCred h
    have hp1 := keepP h1
    have hst : s1.stored = s.stored := by unfold St.stored; rw [hp1]; rfl
    simp only [gaFindCredential, hl, bind_ok, pure_ok, Prod.mk.injEq] at h2
    obtain ⟨o, s2, h2, ⟨rfl, rfl⟩, rfl⟩ := h2
    rcases allowList_ok h2 with ⟨rfl, _, rfl⟩ | ⟨mk, hk, _, h8⟩
    · exact ⟨hst, by simp⟩
    · refine ⟨hk.stored.trans hst, fun d hd hn => h8 rfl d hd ?_⟩
      rcases hn with h | ⟨mk', w, hm, ho, hv⟩
      · rw [hk.stored] at h; exact .inl h
      · rw [hk.new] at hm
        cases hm
        exact .inr ⟨w, ho, hv⟩

/-- **C22**, U2F: a credential that requires user verification is never used, and its key handle is treated as unknown. -/
theorem C22_u2f {msg c a hd : Bytes} {f : U2fFlags} {x : Except Sw Bytes}
    (hm : U2fCommand.parse msg = .ok (.authenticate c a hd f)) (h : processU2f msg s = (.ok x, s'))
    (hx : (∃ r, x = .ok r) ∨ (f = .checkOnly ∧ x = .error .condUseNotSatisfied)) {mk : Bytes} {w : CredSource}
    (hs : s'.p.master = some mk) (hw : Opens mk hd a w) : w.policy ≠ some .required := by
  obtain ⟨mk', w', h1, h2, h3, h4, _⟩ := u2f_authenticated hm h hx
  rw [hs] at h1
  cases h1
  have := hw.content
  rw [h3.content] at this
  cases this
  exact h4

theorem listedByRp_iff {p : Option Policy} {uv : Bool} {c : Cred} (hc : c.policy = p) :
    (uv || c.isDiscoverable) = true ↔ VisibleByRp p uv := by
  subst hc
  simp [VisibleByRp, Cred.isDiscoverable]

theorem lookup_mem {l : List (Nat × Cred)} {k : Nat} {c : Cred} (h : l.lookup k = some c) : (k, c) ∈ l := by
  induction l with
  | nil => simp at h
  | cons x l ih =>
    rw [List.lookup_cons] at h
    by_cases hk : k = x.1
    · subst hk
      simp only [BEq.rfl, Option.some.injEq] at h
      subst h
      exact List.mem_cons_self
    · rw [show (k == x.1) = false by simpa using hk] at h
      exact List.mem_cons_of_mem _ (ih h)

theorem getCredential_ok {k : Nat} {c : Cred} (h : getCredential k s = (.ok c, s')) :
    (k, c) ∈ s.p.creds ∧ ∃ mk, MkStep s mk s' := by
  simp only [getCredential, bind_ok, guardE_ok, req_ok, pure_ok] at h
  obtain ⟨_, _, ⟨_, rfl⟩, p, s1, h1, c', _, ⟨h2, rfl⟩, mk, s2, h3, rfl, rfl⟩ := h
  obtain ⟨rfl, rfl⟩ := readP_ok h1
  obtain ⟨a1, a2, a3, a4, a5, a6⟩ := getMasterKeys_ok h3
  refine ⟨lookup_mem h2, mk, a1, (Env.le_next _).trans a5, a6, ?_⟩
  obtain ⟨e, p, v, lg⟩ := s2
  simp only at a2 a3 a4 ⊢
  rw [a2, a3, a4]

/-- The candidates of a discoverable request. -/
def Candidate (stored : List Cred) (rp : Bytes) (uv : Bool) (c : Cred) : Prop :=
  c ∈ stored ∧ c.rpId = rp ∧ VisibleByRp c.policy uv

theorem insertByOrder_perm (e : Nat × Cred) : ∀ l, (insertByOrder e l).Perm (e :: l)
  | [] => .refl _
  | x :: l => by
    unfold insertByOrder
    split
    · exact .refl _
    · exact ((insertByOrder_perm e l).cons x).trans (.swap e x l)

theorem sortByOrder_perm : ∀ l, (sortByOrder l).Perm l
  | [] => .refl _
  | x :: l => (insertByOrder_perm x (sortByOrder l)).trans ((sortByOrder_perm l).cons x)

theorem insertByOrder_sorted (e : Nat × Cred) : ∀ l : List (Nat × Cred), l.Pairwise (fun a b => a.2.order ≤ b.2.order) →
    (insertByOrder e l).Pairwise fun a b => a.2.order ≤ b.2.order
  | [], _ => by simp [insertByOrder]
  | x :: l, h => by
    unfold insertByOrder
    split
    · rename_i hle
      refine List.pairwise_cons.2 ⟨fun y hy => ?_, h⟩
      rcases List.mem_cons.1 hy with rfl | hy
      · exact hle
      · exact Nat.le_trans hle ((List.pairwise_cons.1 h).1 y hy)
    · rename_i hle
      refine List.pairwise_cons.2 ⟨fun y hy => ?_, insertByOrder_sorted e l (List.pairwise_cons.1 h).2⟩
      rcases List.mem_cons.1 ((insertByOrder_perm e l).mem_iff.1 hy) with rfl | hy
      · omega
      · exact (List.pairwise_cons.1 h).1 y hy

theorem sortByOrder_sorted : ∀ l, (sortByOrder l).Pairwise fun a b => a.2.order ≤ b.2.order
  | [] => .nil
  | x :: l => insertByOrder_sorted x _ (sortByOrder_sorted l)

theorem mem_discoverable {rp : Bytes} {uv : Bool} {l : List (Nat × Cred)} {k : Nat} :
    k ∈ discoverableKeys rp uv l ↔ ∃ c, (k, c) ∈ l ∧ c.rpId = rp ∧ VisibleByRp c.policy uv := by
  simp only [discoverableKeys, List.mem_map, (sortByOrder_perm _).mem_iff, List.mem_filter, Bool.and_eq_true, beq_iff_eq]
  constructor
  · rintro ⟨⟨k', c⟩, ⟨h1, h2, h3⟩, rfl⟩
    exact ⟨c, h1, h2, (listedByRp_iff rfl).1 h3⟩
  · rintro ⟨c, h1, h2, h3⟩
    exact ⟨(k, c), ⟨h1, h2, (listedByRp_iff rfl).2 h3⟩, rfl⟩

/-- The last entry of a list that is sorted by order is a newest one. -/
theorem discoverable_last {rp : Bytes} {uv : Bool} {l : List (Nat × Cred)} {k : Nat}
    (h : (discoverableKeys rp uv l).getLast? = some k) : ∃ c, (k, c) ∈ l ∧ c.rpId = rp ∧ VisibleByRp c.policy uv ∧
      ∀ k' c', (k', c') ∈ l → c'.rpId = rp → VisibleByRp c'.policy uv → c'.order ≤ c.order := by
  unfold discoverableKeys at h
  rw [List.getLast?_map, Option.map_eq_some_iff] at h
  obtain ⟨⟨k', c⟩, h, rfl⟩ := h
  generalize hm : (l.filter fun e => e.2.rpId == rp && (uv || e.2.isDiscoverable)) = m at h
  have hsort := sortByOrder_sorted m
  obtain ⟨ys, hys⟩ := List.getLast?_eq_some_iff.1 h
  have hmem : ∀ x, x ∈ m ↔ x ∈ l ∧ x.2.rpId = rp ∧ VisibleByRp x.2.policy uv := by
    intro x
    rw [← hm]
    simp only [List.mem_filter, Bool.and_eq_true, beq_iff_eq, listedByRp_iff rfl]
  have hc : (k', c) ∈ m := by
    rw [← (sortByOrder_perm m).mem_iff, hys]; simp
  obtain ⟨h1, h2, h3⟩ := (hmem _).1 hc
  refine ⟨c, h1, h2, h3, fun k'' c' h4 h5 h6 => ?_⟩
  have h7 : (k'', c') ∈ m := (hmem _).2 ⟨h4, h5, h6⟩
  rw [← (sortByOrder_perm m).mem_iff, hys] at h7
  rw [hys, List.pairwise_append] at hsort
  simp only [List.mem_append, List.mem_singleton] at h7
  rcases h7 with h7 | h7
  · exact hsort.2.2 _ h7 (k', c) (by simp)
  · cases h7; exact Nat.le_refl _

/-- The choice of a credential without an allow list. -/
theorem gaFind_discoverable {a : GaParams} {o : Option Cred} {rest : List Nat} (hc : CredsOk s.p.creds)
    (hl : a.allowList = none) (h : gaFindCredential a s = (.ok (o, rest), s')) :
    ∃ mk l, MkStep s mk s' ∧ l.Perm s.p.creds ∧ rest = (discoverableKeys a.rpId a.authParam.isSome l).dropLast ∧
      (o = none → discoverableKeys a.rpId a.authParam.isSome l = []) ∧
      ∀ c, o = some c → ∃ k, (discoverableKeys a.rpId a.authParam.isSome l).getLast? = some k ∧ (k, c) ∈ s.p.creds ∧
        c.rpId = a.rpId ∧ VisibleByRp c.policy a.authParam.isSome ∧
        ∀ c', Candidate s.stored a.rpId a.authParam.isSome c' → c'.order ≤ c.order := by
  simp only [gaFindCredential, hl, bind_ok] at h
  obtain ⟨l, s1, h1, h2⟩ := h
  obtain ⟨hperm, mk, e, a1, a2, a3, hs1⟩ := iterCredentials_ok h1
  have hk1 := MkStep.of a1 a2 a3 hs1
  cases hk : (discoverableKeys a.rpId a.authParam.isSome l).getLast? with
  | none =>
    simp only [hk, pure_ok, Prod.mk.injEq] at h2
    obtain ⟨⟨rfl, rfl⟩, rfl⟩ := h2
    exact ⟨mk, l, hk1, hperm, rfl, fun _ => by simpa using hk, by simp⟩
  | some k =>
    simp only [hk, bind_ok, pure_ok, Prod.mk.injEq] at h2
    obtain ⟨c, s2, h2, ⟨rfl, rfl⟩, rfl⟩ := h2
    obtain ⟨h3, mk2, hk2⟩ := getCredential_ok h2
    obtain ⟨_, hk3⟩ := hk1.trans hk2
    refine ⟨mk, l, hk3, hperm, rfl, by simp, fun c' hc' => ?_⟩
    cases hc'
    obtain ⟨c', h4, h5, h6, h7⟩ := discoverable_last hk
    rw [hk1.creds] at h3
    have := hc.key h3 (hperm.mem_iff.1 h4) rfl
    cases this
    refine ⟨k, hk, h3, h5, h6, fun c' hc' => ?_⟩
    obtain ⟨h8, h9, h10⟩ := hc'
    obtain ⟨⟨k', c''⟩, h11, rfl⟩ := List.mem_map.1 h8
    exact h7 k' c'' (hperm.mem_iff.2 h11) h9 h10

/-- **C22**, discoverable requests (no allow list): the credential of the response is stored for this relying party and
visible (one that requires user verification, or an allow list, only answers with user verification); it is the newest of
them. -/
theorem C22_discoverable {a : GaParams} {ch : Channel} {r : Response} {o : Oracle} (hr : Reach P true s)
    (h : processParsed (.getAssertion a) ch (s.withOracle o) = (.ok r, s')) (hl : a.allowList = none) :
    ∃ g c, r = .getAssertion g ∧ Candidate s.stored a.rpId a.authParam.isSome c ∧
      (∀ c', Candidate s.stored a.rpId a.authParam.isSome c' → c'.order ≤ c.order) ∧
      g.credential = { id := c.id } ∧ g.user = gaUser c a.authParam.isSome ∧
      Dev.ecdsaSign c.sk (g.authData ++ a.clientDataHash) = some g.signature := by
  obtain ⟨⟨cid, rfl⟩, h⟩ := processParsed_ok h (by simp)
  obtain ⟨s1, s2, s3, s4, s5, s6, c, rest, ad, number, ga, h1, h2, h3, h4, h5, h6, h7, rfl, _⟩ := getAssertion_ok h
  have hp1 : s1.p = s.p := (keepP h1).trans (prelude_p ..)
  have hc := credsOk_reach hr
  rw [← hp1] at hc
  obtain ⟨mk, l, _, _, _, _, h8⟩ := gaFind_discoverable hc hl h2
  obtain ⟨k, _, h9, h10, h11, h12⟩ := h8 c rfl
  rw [hp1] at h9
  obtain ⟨g1, _, g3, g4, _, _⟩ := assertionResponse_ok h7
  refine ⟨ga, c, rfl, ⟨List.mem_map.2 ⟨_, h9, rfl⟩, h10, h11⟩, ?_, g1, g4, g3⟩
  unfold St.stored at h12 ⊢
  rw [hp1] at h12
  exact h12

/-- **C22**, discoverable requests are refused for lack of credentials only if none is visible. -/
theorem C22_discoverable_refused {a : GaParams} {ch : Channel} {o : Oracle} (hr : Reach P true s)
    (h : processParsed (.getAssertion a) ch (s.withOracle o) = (.err .noCredentials, s')) (hl : a.allowList = none) :
    s'.stored = s.stored ∧ ∀ c, ¬ Candidate s.stored a.rpId a.authParam.isSome c := by
  rw [processParsed_eq] at h
  cases ch with
  | vendor c => simp [channelCommand, vendorChannelCommand, fail] at h
  | main c =>
    obtain ⟨s1, rest, h1, h2⟩ := getAssertion_noCred h
    have hp1 : s1.p = s.p := (keepP h1).trans (prelude_p ..)
    have hc := credsOk_reach hr
    rw [← hp1] at hc
    obtain ⟨mk, l, hk, hperm, _, h3, _⟩ := gaFind_discoverable hc hl h2
    have hst : s1.stored = s.stored := by unfold St.stored; rw [hp1]
    refine ⟨hk.stored.trans hst, ?_⟩
    rintro c ⟨h4, h5, h6⟩
    obtain ⟨⟨k, c'⟩, h11, rfl⟩ := List.mem_map.1 h4
    have : k ∈ discoverableKeys a.rpId a.authParam.isSome l :=
      mem_discoverable.2 ⟨c', hperm.mem_iff.2 (by rw [hp1]; exact h11), h5, h6⟩
    rw [h3 rfl] at this
    cases this

/-! ## C23 -/

/-- Credentials and master keys. -/
def KeepCM (l : List (Nat × Cred)) (mk : Option Bytes) (s : St) : Prop := s.p.creds = l ∧ ∀ m, mk = some m → s.p.master = some m

section
variable (l : List (Nat × Cred)) (mk : Option Bytes)
instance : SEnv (KeepCM l mk) := ⟨fun _ _ _ _ h => h⟩
stable_instances (KeepCM l mk) under SMinPin SRpIds SForce SEp SAlwaysUv SLargeBlob SPin SRetries STok SMis SKeys
  SU2f SSp SLb SPresence SCompare SIssued SConsumed SU2fPrompt SU2fConsume SU2fTouch SCounterEv SBoot SCounter
instance : SMaster (KeepCM l mk) := ⟨fun s x h => ⟨h.1, fun m hm => by
  have := h.2 m hm
  rw [x.2.2] at this
  cases this⟩⟩
end

/-- **C23**: a registration whose exclude list names a visible credential of this device for this relying party fails and
creates nothing, whatever happens (refusal, other error, power cut). -/
theorem C23_excluded {a : McParams} {ch : Channel} {r : Res Response} {d : Descriptor}
    (h : processParsed (.makeCredential a) ch s = (r, s')) (hd : d ∈ a.excludeList.getD [])
    (hn : s.Names a.rp.id d.id a.authParam.isSome) : (∀ x, r ≠ .ok x) ∧ s'.stored = s.stored := by
  rw [processParsed_eq] at h
  cases ch with
  | vendor c =>
    simp only [channelCommand, vendorChannelCommand, fail, Prod.mk.injEq] at h
    rw [← h.1, ← h.2]
    exact ⟨by simp, rfl⟩
  | main c =>
    have key : Tri (KeepCM s.p.creds s.p.master) (makeCredential a) (fun _ _ => False)
        (KeepCM s.p.creds s.p.master) := by
      have keep : ∀ {β : Type} {m : M β} (_ : Pres (KeepCM s.p.creds s.p.master) m),
          Tri (KeepCM s.p.creds s.p.master) m (fun _ => KeepCM s.p.creds s.p.master) (KeepCM s.p.creds s.p.master) :=
        fun h => Tri.ofPres h
      unfold makeCredential
      refine Tri.bind (keep inferInstance) fun _ => ?_
      refine Tri.bind (keep inferInstance) fun _ => ?_
      refine Tri.bind (keep inferInstance) fun _ => ?_
      refine Tri.bind (keep inferInstance) fun _ => ?_
      refine Tri.bind (Q := fun _ _ => False) ?_ fun _ => fun s h => h.elim
      refine Tri.of_pres (Q := fun _ _ => False) inferInstance (fun _ h => h) fun s1 u s2 hs1 hm _ => ?_
      rcases excludeList_ok hm with ⟨h1, _⟩ | ⟨mk, hk, h1⟩
      · rw [h1] at hd; cases hd
      · refine h1 d hd ?_
        have hst : s1.stored = s.stored := by unfold St.stored; rw [hs1.1]
        rw [hst]
        rcases hn with hn | ⟨mk', w, hm', ho, hv⟩
        · exact .inl hn
        · have := hs1.2 _ hm'
          have hmm : mk' = mk := by
            rcases hk.master with h | h <;> rw [this] at h <;> cases h
            rfl
          subst hmm
          exact .inr ⟨w, ho, hv⟩
    have h2 := key (prelude (.makeCredential a) (.main c) s) ⟨rfl, fun _ h => h⟩
    rw [show makeCredential a (prelude (.makeCredential a) (.main c) s) = (r, s') from h] at h2
    cases r with
    | ok x => exact (h2.1 x s' rfl).elim
    | _ => exact ⟨by simp, by unfold St.stored; rw [(h2.2 (by simp)).1]⟩

/-- **C23**: a registration is refused because of the exclude list only if the list names a visible credential of this
device for this relying party. -/
theorem C23_not_excluded {a : McParams} {ch : Channel}
    (h : processParsed (.makeCredential a) ch s = (.err .credentialExcluded, s')) :
    s'.stored = s.stored ∧ ∃ d ∈ a.excludeList.getD [], s'.Names a.rp.id d.id a.authParam.isSome := by
  rw [processParsed_eq] at h
  cases ch with
  | vendor c => simp [channelCommand, vendorChannelCommand, fail] at h
  | main c =>
    obtain ⟨ep, s1, s2, h1, h2, h3⟩ := makeCredential_excluded h
    have hp : s2.p = s.p := (keepP h2).trans ((keepP h1).trans (prelude_p ..))
    obtain ⟨mk, _, hm, hp', d, hd, ho⟩ := excludeList_err h3
    have hst : s'.stored = s.stored := by unfold St.stored; rw [hp', hp]
    have hst2 : s2.stored = s.stored := by unfold St.stored; rw [hp]
    refine ⟨hst, d, hd, ?_⟩
    rw [hst2] at ho
    rcases ho with ⟨c, h4, h5⟩ | ⟨w, h4, h5⟩
    · exact .inl ⟨c, by rw [hst]; exact h4, h5⟩
    · exact .inr ⟨mk, w, by rw [hp'], h4, h5⟩

/-! ## C34 -/

/-- The public key in the authenticator data of a registration (WebAuthn, section 6.5.1), which follows the id, belongs to
this private key. -/
def PublicKeyIn (authData sk : Bytes) : Prop :=
  ∃ x y v cose, Dev.ecdsaPub sk = some (x, y) ∧
    CoseKey.toCbor { x := x, y := y, alg := -7, kty := 2, crv := 1 } = some v ∧ cborWrite v = .ok cose ∧
    cose <+: authData.drop (55 + (credentialIdIn authData).length)

/-- The bytes come from the random number generator. -/
def Drawn (o : Oracle) (sk : Bytes) : Prop := ∃ k, sk = (List.range 32).map (o.rnd k)

/-- A successful registration of a credential that is not discoverable. -/
theorem sealed_drawn {a : McParams} {ch : Channel} {m : McResponse}
    (h : processParsed (.makeCredential a) ch s = (.ok (.makeCredential m), s')) (hrk : a.options.rk = false) :
    ∃ mk w, s'.p.master = some mk ∧ Opens mk (credentialIdIn m.authData) (Dev.sha256 a.rp.id) w ∧
      w.policy = mcPolicy a.ext.credProtect ∧ w.credBlob = mcCredBlob a ∧ PublicKeyIn m.authData w.sk ∧
      s'.stored = s.stored ∧ Drawn s.env.o w.sk := by
  obtain ⟨_, h⟩ := processParsed_ok h (by simp)
  obtain ⟨ep, s1, s2, s3, s4, _, h1, h2, h3, h4, h5⟩ := makeCredential_ok h
  have hst : s4.stored = s.stored := by
    have : s4.p.creds = (prelude (.makeCredential a) ch s).p.creds := (keepCreds h4).trans ((keepCreds h3).trans ((keepCreds h2).trans (keepCreds h1)))
    unfold St.stored; rw [this]; rfl
  simp only [mcFinish, bind_ok, mcCreate, hrk, Bool.false_eq_true, if_false, mapErr_ok, pure_ok] at h5
  obtain ⟨mp, s5, a1, lbk, s6, a2, sk, s7, a3, id, s8, a4, ad, s9, a5, ⟨sig, x5c⟩, s10, a6, a7, rfl⟩ := h5
  cases a7
  have hsk : sk.length = 32 := rng_length a3
  have hdr : Drawn s.env.o sk := by
    have ho : s6.env.o = s.env.o := (keepEnv a2).2.trans ((keepEnv a1).2.trans
      (show s4.env.o = _ from (keepEnv h4).2.trans ((keepEnv h3).2.trans ((keepEnv h2).2.trans (keepEnv h1).2))))
    exact ⟨s6.env.k, by rw [← ho]; exact (rng_ok a3).1⟩
  obtain ⟨mk, e, b1, b2, b3, rfl, b5, b6⟩ := wrap_ok a4 ⟨hsk, Dev.sha256_len _, fun b hb => by
    have := (Option.filter_eq_some_iff.1 hb).2
    have h2 := Dev.maxCredBlobLength_le
    simp only [decide_eq_true_eq] at this
    omega⟩
  have hm : s10.p.master = some mk := keepMaster a6 (keepMaster a5 rfl)
  have hid := mcAuthData_ok a5
  have hst' : s10.stored = s4.stored := by
    have h1 : s7.p.creds = s4.p.creds := (keepCreds a3).trans ((keepCreds a2).trans ((keepCreds a1).trans rfl))
    have h2 : s10.p.creds = s7.p.creds := (keepCreds a6).trans ((keepCreds a5).trans rfl)
    unfold St.stored; rw [h2, h1]
  simp only [mcAuthData, generateAuthData, bind_ok, pure_ok, guardE_ok, liftE_ok] at a5
  obtain ⟨base, _, ⟨c, _, _, rfl, rfl⟩, _, _, ⟨_, rfl⟩, pk, _, ⟨hpk, rfl⟩, cose, s3', hcose, ext, _, _, rfl, _⟩ := a5
  simp only [pubKey] at hpk
  cases hpub : Dev.ecdsaPub sk with
  | none => rw [hpub] at hpk; cases hpk
  | some xy =>
    obtain ⟨x, y⟩ := xy
    rw [hpub] at hpk
    cases hpk
    obtain ⟨_, v, hv, hcose⟩ := cborWriteM_ok hcose
    refine ⟨mk, { sk := sk, rpIdHash := Dev.sha256 a.rp.id, policy := mcPolicy a.ext.credProtect,
                  credBlob := mcCredBlob a }, hm, ?_, rfl, rfl, ⟨x, y, v, cose, hpub, hv, hcose, ?_⟩, hst'.trans hst, hdr⟩
    · simp only [hid]; exact opens_iff.1 b6
    · simp only [hid]
      rw [List.append_assoc, List.drop_left']
      · exact List.prefix_append _ _
      · simp [Dev.sha256_len, Dev.aaguid_len, Verif.Cbor.beBytes, b5]

theorem sealed_registered {a : McParams} {ch : Channel} {m : McResponse}
    (h : processParsed (.makeCredential a) ch s = (.ok (.makeCredential m), s')) (hrk : a.options.rk = false) :
    ∃ mk w, s'.p.master = some mk ∧ Opens mk (credentialIdIn m.authData) (Dev.sha256 a.rp.id) w ∧
      w.policy = mcPolicy a.ext.credProtect ∧ w.credBlob = mcCredBlob a ∧ PublicKeyIn m.authData w.sk ∧
      s'.stored = s.stored := by
  obtain ⟨mk, w, h1, h2, h3, h4, h5, h6, _⟩ := sealed_drawn h hrk
  exact ⟨mk, w, h1, h2, h3, h4, h5, h6⟩

/-- Sending the answer changes no persistent data. -/
theorem step_parsed {cmd : Command} {ch : Channel} {msg : Bytes} {r : Res Response}
    (hm : Command.deserialize msg = .ok cmd) (h : processParsed cmd ch s = (r, s')) :
    (stepM (.ctap2 ch msg) s).2.p = s'.p ∧ Grown s'.log (stepM (.ctap2 ch msg) s).2 := by
  have key : ∀ I : St → Prop, I s' → (∀ x, Pres I (respond x)) → I (stepM (.ctap2 ch msg) s).2 := by
    intro I hI hp
    have : (stepM (.ctap2 ch msg) s).2 = ((processParsed cmd ch >>= respond) s).2 := by
      simp only [stepM, processCommand, hm]
      show (M.bind (errorByte (processParsed cmd ch >>= respond)) _ s).2 = _
      simp only [M.bind, errorByte]
      rcases (processParsed cmd ch >>= respond) s with ⟨r, t⟩
      cases r <;> simp [M.pure]
    rw [this]
    show I (M.bind (processParsed cmd ch) respond s).2
    simp only [M.bind, h]
    cases r with
    | ok x => exact (hp x).out _ hI
    | _ => exact hI
  exact ⟨key (KeepP s'.p) rfl fun _ => inferInstance, key (Grown s'.log) (List.suffix_refl _) fun _ => inferInstance⟩

/-- **C34**, registration: the id of a new credential that is not discoverable contains a private key whose public key is
in the answer, the relying party, the protection policy and the credential blob. -/
theorem C34_sealed {a : McParams} {ch : Channel} {m : McResponse}
    (h : processParsed (.makeCredential a) ch s = (.ok (.makeCredential m), s')) (hrk : a.options.rk = false) :
    ∃ mk w, s'.p.master = some mk ∧ Opens mk (credentialIdIn m.authData) (Dev.sha256 a.rp.id) w ∧
      w.policy = mcPolicy a.ext.credProtect ∧ w.credBlob = mcCredBlob a ∧ PublicKeyIn m.authData w.sk ∧
      s'.stored = s.stored := sealed_registered h hrk

/-- **C34**, use: as long as the device is not reset, whatever happens in between (any inputs, failures, power cuts), an
assertion request that lists this id for this relying party (with user verification, if the policy requires it) is not
refused for lack of credentials; if it succeeds, it is signed with the private key of the registration. -/
theorem C34_usable {a : McParams} {ch : Channel} {m : McResponse} {msg : Bytes} {o : Oracle} {s1 s2 : St}
    (hr : Reach P true s) (ho : P o) (hmsg : Command.deserialize msg = .ok (.makeCredential a))
    (h : processParsed (.makeCredential a) ch (s.withOracle o) = (.ok (.makeCredential m), s1))
    (hrk : a.options.rk = false) (hrun : Run P (stepM (.ctap2 ch msg) (s.withOracle o)).2 b s2)
    (hn : ¬ HappenedSince (stepM (.ctap2 ch msg) (s.withOracle o)).2.log Ev.isErased s2.log) :
    ∃ sk, PublicKeyIn m.authData sk ∧
      ∀ (g : GaParams) (ch' : Channel) (o' : Oracle) (r : Res Response) (s3 : St), g.rpId = a.rp.id →
        g.allowList = some [{ id := credentialIdIn m.authData }] →
        VisibleById (mcPolicy a.ext.credProtect) g.authParam.isSome →
        processParsed (.getAssertion g) ch' (s2.withOracle o') = (r, s3) →
        r ≠ .err .noCredentials ∧ ∀ x, r = .ok x → ∃ ga, x = .getAssertion ga ∧
          ga.credential = { id := credentialIdIn m.authData } ∧
          Dev.ecdsaSign sk (ga.authData ++ g.clientDataHash) = some ga.signature := by
  obtain ⟨mk, w, h1, h2, h3, _, h5, _⟩ := sealed_registered h hrk
  refine ⟨w.sk, h5, fun g ch' o' r s3 hrp hl hv hg => ?_⟩
  have hp := (step_parsed hmsg h).1
  have hm2 : s2.p.master = some mk := run_master hrun (by rw [hp, h1]) hn
  have hids : AllCreds (fun c => c.id.length = 32) s2 :=
    allCreds_run (Q := fun c => c.id.length = 32) hrun
      (allCreds_reach (Q := fun c => c.id.length = 32) (Reach.step o ho (.ctap2 ch msg) hr))
  have hlen : (credentialIdIn m.authData).length = 241 := h2.tagged.1
  have hno : ∀ c ∈ s2.stored, c.id ≠ credentialIdIn m.authData := by
    intro c hc he
    obtain ⟨e, hc', rfl⟩ := List.mem_map.1 hc
    have : e.2.id.length = 32 := hids e hc'
    rw [he, hlen] at this
    omega
  have hoff : Opens mk (credentialIdIn m.authData) (Dev.sha256 g.rpId) w := by rw [hrp]; exact h2
  rw [← h3] at hv
  constructor
  · rintro rfl
    obtain ⟨hst, hnn⟩ := C22_listed_refused hg hl
    have hm3 : s3.p.master = some mk := by
      rw [processParsed_eq] at hg
      cases ch' with
      | vendor c => simp [channelCommand, vendorChannelCommand, fail] at hg
      | main c => exact keepMaster (m := getAssertion g (.main c)) hg hm2
    exact hnn _ (List.mem_singleton.2 rfl) (.inr ⟨mk, w, hm3, hoff, hv⟩)
  · rintro x rfl
    obtain ⟨mk', c, ga, pre, d, post, g1, g2, g3, g4, g5, _, g7, _, g9⟩ := assertion_listed hg hl
    have : mk' = mk := by
      rcases g3 with g3 | g3 <;> rw [show (s2.withOracle o').p.master = _ from hm2] at g3 <;> cases g3
      rfl
    subst this
    have hd : d = { id := credentialIdIn m.authData } := by
      have : d ∈ [({ id := credentialIdIn m.authData } : Descriptor)] := by rw [g4]; simp
      simpa using this
    subst hd
    refine ⟨ga, g1, g7, ?_⟩
    rcases g5 with g5 | ⟨w', g5, _, rfl⟩
    · exact absurd g5.1.2.1 (hno c g5.1.1)
    · have := g5.content
      rw [hoff.content] at this
      cases this
      exact g9

/-- **C34**, U2F registration: the key handle in the answer contains the private key whose public key is in the answer
and the application, without restrictions; so C35, C22 apply to it, and `C34_u2f_usable`. -/
theorem C34_u2f {msg c a r : Bytes} (hm : U2fCommand.parse msg = .ok (.register c a)) (ha : a.length = 32)
    (h : processU2f msg s = (.ok (.ok r), s')) :
    ∃ mk w x y handle rest, s'.p.master = some mk ∧ Opens mk handle a w ∧ w.policy = none ∧
      Dev.ecdsaPub w.sk = some (x, y) ∧
      r = 0x05 :: (0x04 :: x ++ y) ++ [UInt8.ofNat handle.length] ++ handle ++ rest := by
  obtain ⟨s1, h1, hp⟩ := processU2f_cmd h
  simp only [u2fCommand, bindSw_ok, orSw_ok] at h1
  rcases h1 with ⟨al, s2, h1, h2⟩ | ⟨e, _, h1⟩
  · cases al with
    | true => simp only [if_true, pure_ok] at h2; cases h2.1
    | false =>
      simp only [hm, u2fDispatch, bind_ok, Bool.false_eq_true, if_false] at h2
      obtain ⟨up, s3, h3, h4⟩ := h2
      cases up with
      | false => simp only [Bool.false_eq_true, if_false, pure_ok] at h4; cases h4.1
      | true =>
        simp only [if_true, u2fRegister, bind_ok] at h4
        obtain ⟨sk, s4, h4, h5⟩ := h4
        have hsk : sk.length = 32 := rng_length h4
        cases hpub : Dev.ecdsaPub sk with
        | none => simp only [hpub, pure_ok] at h5; cases h5.1
        | some xy =>
          obtain ⟨x, y⟩ := xy
          simp only [hpub, bindSw_ok, orSw_ok] at h5
          rcases h5 with ⟨hd, s5, h5, h6⟩ | ⟨e, _, h5⟩
          · obtain ⟨mk, e, b1, b2, b3, rfl, b5, b6⟩ := wrap_ok h5 ⟨hsk, ha, fun b hb => by cases hb⟩
            by_cases hl : hd.length > 0xFF
            · simp only [hl, if_true, pure_ok] at h6; cases h6.1
            · simp only [hl, if_false, bindSw_ok] at h6
              rcases h6 with ⟨att, s6, h6, h7⟩ | ⟨e, _, h6⟩
              · have hm6 : s6.p.master = some mk := keepMaster h6 rfl
                have hm1 := keepMaster h7 hm6
                simp only [u2fRegisterResponse] at h7
                cases hs : Dev.ecdsaSign att.sk (registerData a c hd (toUncompressed x y)) with
                | none => simp [hs, panicM_ok] at h7
                | some sig =>
                  simp only [hs, pure_ok, Except.ok.injEq] at h7
                  refine ⟨mk, _, x, y, hd, att.certificate ++ sig, by rw [hp, hm1], opens_iff.1 b6, rfl, hpub, ?_⟩
                  rw [← h7.1]
                  simp [toUncompressed]
              · cases h6
          · cases h5
  · cases h1

/-- **C34**, U2F use: a key handle that this device sealed for this application, without the policy that requires user
verification, is signed for with the private key inside. -/
theorem C34_u2f_usable {msg c a hd mk : Bytes} {f : U2fFlags} {x : Except Sw Bytes} {w : CredSource}
    (hm : U2fCommand.parse msg = .ok (.authenticate c a hd f)) (hs : s.p.master = some mk) (hw : Opens mk hd a w)
    (h : processU2f msg s = (.ok x, s')) :
    ∀ r, x = .ok r → ∃ n sig, r = [0x01] ++ Verif.Cbor.beBytes 4 n ++ sig ∧
        Dev.ecdsaSign w.sk (a ++ [0x01] ++ Verif.Cbor.beBytes 4 n ++ c) = some sig := by
  intro r hr
  obtain ⟨mk', w', h1, h2, h3, _, h5⟩ := u2f_authenticated hm h (.inl ⟨r, hr⟩)
  have : mk' = mk := by
    rcases h2 with h2 | h2 <;> rw [hs] at h2 <;> cases h2
    rfl
  subst this
  have := hw.content
  rw [h3.content] at this
  cases this
  exact h5 r hr

/-- **C34**, U2F: such a key handle is reported as known to a client that asks for it, unless the storage fails. -/
theorem C34_u2f_known {c a hd mk : Bytes} {x : Except Sw Bytes} {w : CredSource}
    (hs : s.p.master = some mk) (hw : Opens mk hd a w) (hp : w.policy ≠ some .required)
    (h : u2fAuthenticate c a hd .checkOnly s = (.ok x, s')) :
    x = .error .condUseNotSatisfied ∨ ∃ e s1, unwrapCredential hd a s = (.err e, s1) := by
  simp only [u2fAuthenticate, bindSw_ok, orSw_ok] at h
  rcases h with ⟨w', s3, h1, h2⟩ | ⟨e, h1, _⟩
  · left
    have : w' = some w := by
      rcases unwrap_ok h1 with ⟨_, hl, _⟩ | ⟨mk', e, _, _, b3, _, b5⟩
      · have := hw.tagged.1; omega
      · have : mk' = mk := by
          rcases b3 with h2 | h2 <;> rw [hs] at h2 <;> cases h2
          rfl
        subst this
        rw [opens_iff.2 hw] at b5
        cases b5
        rfl
    subst this
    have hl : listedOk w.policy false = true := by simpa [listedOk] using hp
    simp only [Option.filter_some, hl, if_true, pure_ok] at h2
    exact h2.1.symm
  · right
    simp only [orSw] at h1
    rcases hu : unwrapCredential hd a s with ⟨r, s3⟩
    rw [hu] at h1
    cases r <;> simp at h1
    exact ⟨_, _, rfl⟩

end

namespace Toy

def booted : St := boot good factory

theorem reach_booted {P : Oracle → Prop} (h : P good) : Reach P true booted :=
  reach_boot good h (Reach.factory _ _) (by decide +kernel)

/-- The id in the answer to a registration. -/
def newId (i : Input) (s : St) : Bytes :=
  match (runCmd (parse i) s).1 with
  | .ok (.makeCredential m) => credentialIdIn m.authData
  | _ => []

/-- The id in the answer to an assertion. -/
def usedId (i : Input) (s : St) : Option Bytes :=
  match (runCmd (parse i) s).1 with
  | .ok (.getAssertion g) => some g.credential.id
  | _ => none

/-- A registration with a protection policy and an exclude list. -/
def registerWith (rp user : Bytes) (rk : Bool) (policy : Nat) (exclude : List Bytes) : Input :=
  send 0x01 (map [(.unsigned 1, .bytes cdh), (.unsigned 2, map [(.text (b! "id"), .text rp)]),
    (.unsigned 3, map [(.text (b! "id"), .bytes user)]), (.unsigned 4, .array [param]),
    (.unsigned 5, .array (exclude.map fun i =>
        map [(.text (b! "id"), .bytes i), (.text (b! "type"), .text (b! "public-key"))])),
    (.unsigned 6, map [(.text (b! "credProtect"), .unsigned policy)]),
    (.unsigned 7, map [(.text (b! "rk"), cborBool rk)])])

/-- The id of a credential that is not discoverable; the state after its registration. -/
def sealedId : Bytes := newId (register rpA [1] false none) booted
def withSealed : St := step good (register rpA [1] false none) booted

/-- C34, C35: the id has 241 bytes, is accepted for its relying party, also after power-up, and not for another one; it is
not accepted with another last byte, another first byte or without the last byte; after a reset it is not accepted. -/
example : sealedId.length = 241 ∧ withSealed.stored = [] ∧ usedId (assert rpA (some [sealedId]) none) withSealed = some sealedId ∧
    usedId (assert rpA (some [sealedId]) none) (boot good withSealed) = some sealedId ∧
    (runCmd (parse (assert rpB (some [sealedId]) none)) withSealed).1 = .err .noCredentials ∧
    (runCmd (parse (assert rpA (some [sealedId.dropLast ++ [0]]) none)) withSealed).1 = .err .noCredentials ∧
    (runCmd (parse (assert rpA (some [0x02 :: sealedId.drop 1]) none)) withSealed).1 = .err .noCredentials ∧
    (runCmd (parse (assert rpA (some [sealedId.dropLast]) none)) withSealed).1 = .err .noCredentials := by decide +kernel

/-- C22: a credential that requires user verification answers to no request without. -/
def withProtected (policy : Nat) : St := step good (registerWith rpA [1] true policy []) booted
def protectedId (policy : Nat) : Bytes := newId (registerWith rpA [1] true policy []) booted

example : (protectedId 3).length = 32 ∧ (withProtected 3).stored.map (·.policy) = [some .required] ∧
    (runCmd (parse (assert rpA none none)) (withProtected 3)).1 = .err .noCredentials ∧
    (runCmd (parse (assert rpA (some [protectedId 3]) none)) (withProtected 3)).1 = .err .noCredentials ∧
    (runCmd (parse (assert rpA none none)) (withProtected 2)).1 = .err .noCredentials ∧
    usedId (assert rpA (some [protectedId 2]) none) (withProtected 2) = some (protectedId 2) ∧
    usedId (assert rpA none none) (withProtected 1) = some (protectedId 1) := by decide +kernel

/-- C23: a registration is refused if a visible credential is excluded, stored or sealed. -/
example : (runCmd (parse (registerWith rpA [2] true 1 [protectedId 2])) (withProtected 2)).1 = .err .credentialExcluded ∧
    (runCmd (parse (registerWith rpA [2] true 1 [[7], sealedId])) withSealed).1 = .err .credentialExcluded ∧
    (match (runCmd (parse (registerWith rpA [2] true 1 [protectedId 3])) (withProtected 3)).1 with
      | .ok _ => true | _ => false) = true ∧
    (match (runCmd (parse (registerWith rpB [2] true 1 [sealedId])) withSealed).1 with | .ok _ => true | _ => false) = true := by
  decide +kernel

/-- U2F: the key handle of a CTAP2 credential is known for the hash of its relying party only. -/
def u2fCheck (application handle : Bytes) : Bytes :=
  [0, 2, 7, 0, 0] ++ Verif.Cbor.beBytes 2 (65 + handle.length) ++ cdh ++ application ++ [UInt8.ofNat handle.length] ++ handle

example : (match (processU2f (u2fCheck (Dev.sha256 rpA) sealedId) (withSealed.withOracle good)).1 with
      | .ok (.error e) => e == .condUseNotSatisfied | _ => false) = true ∧
    (match (processU2f (u2fCheck (Dev.sha256 rpB) sealedId) (withSealed.withOracle good)).1 with
      | .ok (.error e) => e == .wrongData | _ => false) = true := by decide +kernel

end Toy
end Verif.Ctap
