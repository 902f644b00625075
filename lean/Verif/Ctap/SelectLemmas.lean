import Verif.Ctap.AvoidLemmas
import Verif.Ctap.KeyLemmas
import Verif.Ctap.NameSpec
import Verif.Ctap.AuthLemmas

/-!
# Which credentials are found by id
-/
namespace Verif.Ctap
set_option linter.unusedSectionVars false
variable [Dev]

/-- Only the environment changed, and the master keys exist. -/
structure MkStep (s : St) (mk : Bytes) (s' : St) : Prop where
  len : mk.length = 128
  le : s.env.Le s'.env
  master : s.p.master = none ∨ s.p.master = some mk
  eq : s' = { s with env := s'.env, p := { s.p with master := some mk } }

theorem MkStep.of {s s' : St} {mk : Bytes} {e : Env} (h1 : mk.length = 128) (h2 : s.env.Le e)
    (h3 : s.p.master = none ∨ s.p.master = some mk) (h4 : s' = { s with env := e, p := { s.p with master := some mk } }) :
    MkStep s mk s' := by subst h4; exact ⟨h1, h2, h3, rfl⟩

theorem MkStep.new {s s' : St} {mk : Bytes} (h : MkStep s mk s') : s'.p.master = some mk := by rw [h.eq]
theorem MkStep.creds {s s' : St} {mk : Bytes} (h : MkStep s mk s') : s'.p.creds = s.p.creds := by rw [h.eq]
theorem MkStep.stored {s s' : St} {mk : Bytes} (h : MkStep s mk s') : s'.stored = s.stored := by
  unfold St.stored; rw [h.creds]
theorem MkStep.v {s s' : St} {mk : Bytes} (h : MkStep s mk s') : s'.v = s.v := by rw [h.eq]
theorem MkStep.log {s s' : St} {mk : Bytes} (h : MkStep s mk s') : s'.log = s.log := by rw [h.eq]

theorem MkStep.trans {s s1 s2 : St} {mk mk' : Bytes} (h : MkStep s mk s1) (h' : MkStep s1 mk' s2) :
    mk' = mk ∧ MkStep s mk s2 := by
  have hm : mk' = mk := by
    rcases h'.master with h1 | h1
    · rw [h.new] at h1; cases h1
    · rw [h.new] at h1; cases h1; rfl
  subst hm
  refine ⟨rfl, h.len, h.le.trans h'.le, h.master, ?_⟩
  rw [h'.eq, h.eq]

theorem findCredential_spec {rp id : Bytes} {o : Option Cred} {s s' : St}
    (h : findCredential rp id s = (.ok o, s')) :
    ∃ mk, MkStep s mk s' ∧ ∀ c, o = some c ↔ NamesStored s.stored rp id c := by
  obtain ⟨h1, mk, e, h2, h3, h4, h5⟩ := findCredential_ok h
  refine ⟨mk, MkStep.of h2 h3 h4 h5, fun c => ?_⟩
  have hm : ∀ c : Cred, c ∈ s.stored ∧ c.id = id ↔ c ∈ (s.p.creds.filter (fun e => e.2.id == id)).map (·.2) := by
    intro c
    simp only [St.stored, List.mem_map, List.mem_filter, beq_iff_eq]
    constructor
    · rintro ⟨⟨x, hx, rfl⟩, hi⟩; exact ⟨x, ⟨hx, hi⟩, rfl⟩
    · rintro ⟨x, ⟨hx, hi⟩, rfl⟩; exact ⟨⟨x, hx, rfl⟩, hi⟩
  unfold NamesStored
  rw [← and_assoc, hm]
  revert h1
  cases s.p.creds.filter (fun e => e.2.id == id) with
  | nil => intro h1; simp only at h1; simp [h1]
  | cons x l =>
    cases l with
    | nil =>
      intro h1
      simp only at h1
      rw [h1]
      simp only [List.map_cons, List.map_nil, List.mem_singleton]
      by_cases hr : x.2.rpId = rp
      · rw [if_pos hr]
        constructor
        · intro h; cases h; exact ⟨rfl, hr⟩
        · rintro ⟨rfl, _⟩; rfl
      · rw [if_neg hr]
        constructor
        · intro h; cases h
        · rintro ⟨rfl, h⟩; exact absurd h hr
    | cons y l => intro h1; exact h1.elim

theorem listedOk_iff {p : Option Policy} {uv : Bool} : listedOk p uv = true ↔ VisibleById p uv := by
  cases uv <;> simp [listedOk, VisibleById]

theorem opens_iff {mk b r : Bytes} {w : CredSource} : unwrapWith mk b r = .ok (some w) ↔ Opens mk b r w := by
  constructor
  · intro h
    obtain ⟨h1, h2, h3, h4, h5⟩ := unwrapWith_some h
    refine ⟨⟨h1, h2⟩, ?_, h5, h3⟩
    cases b with
    | nil => simp at h1
    | cons x l => simpa using h4
  · rintro ⟨⟨h1, h2⟩, h3, h4, h5⟩
    unfold unwrapWith
    rw [h1, show 241 - 32 = 209 from rfl]
    have h6 : Dev.hmac (authKey mk) (b.take 209) = b.drop 209 := h2.symm
    have h7 : b.headD 0 = 1 := by
      cases b with
      | nil => cases h3
      | cons x l => simpa using h3
    have h8 : decryptCredId (encKey mk) (encKey mk) ((b.take 209).drop 1) = .ok (some w) := h4
    rw [if_neg (by decide), if_neg (by simp [h6]), if_neg (fun h => h.elim (fun h => h h7) (fun h => h rfl)), h8]
    simp [h5]

theorem unwrap_spec {b r : Bytes} {w : Option CredSource} {s s' : St} {mk : Bytes}
    (h : unwrapCredential b r s = (.ok w, s')) (hm : s.p.master = some mk) (hl : mk.length = 128) :
    MkStep s mk s' ∧ unwrapWith mk b r = .ok w := by
  rcases unwrap_ok h with ⟨rfl, h1, rfl⟩ | ⟨mk', e, h1, h2, h3, h4, h5⟩
  · refine ⟨⟨hl, .refl _, .inr hm, ?_⟩, ?_⟩
    · rw [← hm]
    · unfold unwrapWith; rw [if_pos h1]
  · have : mk' = mk := by
      rcases h3 with h3 | h3
      · rw [hm] at h3; cases h3
      · rw [hm] at h3; cases h3; rfl
    subst this
    exact ⟨MkStep.of h1 h2 h3 h4, h5⟩

theorem isExcluded_spec {rp id : Bytes} {uv b : Bool} {s s' : St} (h : isExcluded rp id uv s = (.ok b, s')) :
    ∃ mk, MkStep s mk s' ∧ (b = true ↔ Offered s.stored mk rp id uv) := by
  simp only [isExcluded, bind_ok] at h
  obtain ⟨o, s1, h1, h2⟩ := h
  obtain ⟨mk, hs1, ho⟩ := findCredential_spec h1
  cases hf : o.filter fun c => listedOk c.policy uv with
  | some c =>
    simp only [hf, pure_ok] at h2
    obtain ⟨rfl, rfl⟩ := h2
    rw [Option.filter_eq_some_iff] at hf
    exact ⟨mk, hs1, by simp only [true_iff]; exact .inl ⟨c, (ho c).1 hf.1, listedOk_iff.1 hf.2⟩⟩
  | none =>
    simp only [hf, bind_ok, pure_ok] at h2
    obtain ⟨w, s2, h3, rfl, rfl⟩ := h2
    obtain ⟨h4, h5⟩ := unwrap_spec h3 hs1.new hs1.len
    refine ⟨mk, (hs1.trans h4).2, ?_⟩
    rw [Option.isSome_iff_exists]
    constructor
    · rintro ⟨c, hc⟩
      rw [Option.filter_eq_some_iff] at hc
      exact .inr ⟨c, opens_iff.1 (by rw [h5, hc.1]), listedOk_iff.1 hc.2⟩
    · rintro (⟨c, hc, hv⟩ | ⟨c, hc, hv⟩)
      · rw [← ho] at hc
        rw [hc, Option.filter_some, if_pos (listedOk_iff.2 hv)] at hf
        cases hf
      · rw [← opens_iff, h5] at hc
        cases hc
        exact ⟨c, by rw [Option.filter_some, if_pos (listedOk_iff.2 hv)]⟩

theorem excludeList_ok {rp : Bytes} {uv : Bool} : ∀ {l : List Descriptor} {s s' : St} {u : Unit},
    checkExcludeList rp uv l s = (.ok u, s') →
    (l = [] ∧ s' = s) ∨ ∃ mk, MkStep s mk s' ∧ ∀ d ∈ l, ¬ Offered s.stored mk rp d.id uv
  | [], s, s', u, h => by
    simp only [checkExcludeList, pure_ok] at h
    exact .inl ⟨rfl, h.2.symm⟩
  | d :: l, s, s', u, h => by
    simp only [checkExcludeList, bind_ok] at h
    obtain ⟨b, s1, h1, h2⟩ := h
    obtain ⟨mk, hs1, hb⟩ := isExcluded_spec h1
    cases b with
    | true =>
      simp only [if_true, bind_ok, fail_ok] at h2
      obtain ⟨_, _, _, h2⟩ := h2
      exact h2.elim
    | false =>
      right
      simp only [Bool.false_eq_true, if_false] at h2
      have hd : ¬ Offered s.stored mk rp d.id uv := fun h => by rw [← hb] at h; cases h
      rcases excludeList_ok h2 with ⟨rfl, rfl⟩ | ⟨mk', h3, h4⟩
      · exact ⟨mk, hs1, by simpa using hd⟩
      · obtain ⟨rfl, h5⟩ := hs1.trans h3
        rw [hs1.stored] at h4
        exact ⟨_, h5, by simpa using ⟨hd, h4⟩⟩

theorem excludeList_err {rp : Bytes} {uv : Bool} : ∀ {l : List Descriptor} {s s' : St},
    checkExcludeList rp uv l s = (.err .credentialExcluded, s') →
    ∃ mk, mk.length = 128 ∧ (s.p.master = none ∨ s.p.master = some mk) ∧ s'.p = { s.p with master := some mk } ∧
      ∃ d ∈ l, Offered s.stored mk rp d.id uv
  | [], s, s', h => by simp [checkExcludeList, M.pure] at h
  | d :: l, s, s', h => by
    simp only [checkExcludeList] at h
    rw [bind_err] at h
    rcases h with h | ⟨b, s1, h1, h2⟩
    · exact ((inferInstance : Av AnySt (.err .credentialExcluded) (isExcluded rp d.id uv)).elim trivial h).elim
    obtain ⟨mk, hs1, hb⟩ := isExcluded_spec h1
    cases b with
    | true =>
      simp only [if_true] at h2
      rw [bind_err] at h2
      refine ⟨mk, hs1.len, hs1.master, ?_, d, List.mem_cons_self, hb.1 rfl⟩
      rcases h2 with h2 | ⟨_, s2, h2, h3⟩
      · exact ((inferInstance : Av AnySt (.err .credentialExcluded) checkPresence).elim trivial h2).elim
      · simp only [fail, Prod.mk.injEq] at h3
        have h4 : s2.p = s1.p := keepP h2
        rw [← h3.2, h4, hs1.eq]
    | false =>
      simp only [Bool.false_eq_true, if_false] at h2
      obtain ⟨mk', h3, h4, h5, d', h6, h7⟩ := excludeList_err h2
      have : mk' = mk := by
        rcases h4 with h4 | h4 <;> rw [hs1.new] at h4 <;> cases h4; rfl
      subst this
      rw [hs1.stored] at h7
      refine ⟨mk', hs1.len, hs1.master, ?_, d', List.mem_cons_of_mem _ h6, h7⟩
      rw [h5, hs1.eq]

/-- The credential that a descriptor yields. -/
def Yields (stored : List Cred) (mk rp id : Bytes) (uv : Bool) (c : Cred) : Prop :=
  (NamesStored stored rp id c ∧ VisibleById c.policy uv) ∨
  ∃ w, Opens mk id (Dev.sha256 rp) w ∧ VisibleById w.policy uv ∧ c = toPublicSource id w

theorem Yields.offered {stored : List Cred} {mk rp id : Bytes} {uv : Bool} {c : Cred}
    (h : Yields stored mk rp id uv c) : Offered stored mk rp id uv := by
  rcases h with h | ⟨w, h1, h2, _⟩
  · exact .inl ⟨c, h⟩
  · exact .inr ⟨w, h1, h2⟩

theorem allowList_ok {rp : Bytes} {uv : Bool} : ∀ {l : List Descriptor} {s s' : St} {o : Option Cred},
    anyFromAllowList rp uv l s = (.ok o, s') →
    (l = [] ∧ o = none ∧ s' = s) ∨ ∃ mk, MkStep s mk s' ∧
      (∀ c, o = some c → ∃ pre d post, l = pre ++ d :: post ∧ Yields s.stored mk rp d.id uv c ∧
        ∀ d' ∈ pre, ¬ Offered s.stored mk rp d'.id uv) ∧
      (o = none → ∀ d ∈ l, ¬ Offered s.stored mk rp d.id uv)
  | [], s, s', o, h => by
    simp only [anyFromAllowList, pure_ok] at h
    exact .inl ⟨rfl, h.1.symm, h.2.symm⟩
  | d :: l, s, s', o, h => by
    right
    simp only [anyFromAllowList, bind_ok] at h
    obtain ⟨o1, s1, h1, h2⟩ := h
    obtain ⟨mk, hs1, ho⟩ := findCredential_spec h1
    cases hf : o1.filter fun c => listedOk c.policy uv with
    | some c =>
      simp only [hf, pure_ok] at h2
      obtain ⟨rfl, rfl⟩ := h2
      rw [Option.filter_eq_some_iff] at hf
      refine ⟨mk, hs1, fun c' hc => ?_, by simp⟩
      cases hc
      exact ⟨[], d, l, rfl, .inl ⟨(ho _).1 hf.1, listedOk_iff.1 hf.2⟩, by simp⟩
    | none =>
      simp only [hf, bind_ok] at h2
      obtain ⟨w, s2, h3, h2⟩ := h2
      obtain ⟨h4, h5⟩ := unwrap_spec h3 hs1.new hs1.len
      obtain ⟨_, h6⟩ := hs1.trans h4
      cases hw : w.filter fun c => listedOk c.policy uv with
      | some c =>
        simp only [hw, pure_ok] at h2
        obtain ⟨rfl, rfl⟩ := h2
        rw [Option.filter_eq_some_iff] at hw
        refine ⟨mk, h6, fun c' hc => ?_, by simp⟩
        cases hc
        exact ⟨[], d, l, rfl, .inr ⟨c, opens_iff.1 (by rw [h5, hw.1]), listedOk_iff.1 hw.2, rfl⟩, by simp⟩
      | none =>
        simp only [hw] at h2
        have hd : ¬ Offered s.stored mk rp d.id uv := by
          rintro (⟨c, hc, hv⟩ | ⟨c, hc, hv⟩)
          · rw [← ho] at hc
            rw [hc, Option.filter_some, if_pos (listedOk_iff.2 hv)] at hf
            cases hf
          · rw [← opens_iff, h5] at hc
            cases hc
            rw [Option.filter_some, if_pos (listedOk_iff.2 hv)] at hw
            cases hw
        rcases allowList_ok h2 with ⟨rfl, rfl, rfl⟩ | ⟨mk', h7, h8, h9⟩
        · exact ⟨mk, h6, by simp, fun _ => by simpa using hd⟩
        · obtain ⟨rfl, h10⟩ := h6.trans h7
          rw [h6.stored] at h8 h9
          refine ⟨_, h10, fun c hc => ?_, fun ho => by simpa using ⟨hd, h9 ho⟩⟩
          obtain ⟨pre, d', post, rfl, hy, hn⟩ := h8 c hc
          exact ⟨d :: pre, d', post, rfl, hy, by simpa using ⟨hd, hn⟩⟩

/-- The parts of a successful assertion response. -/
theorem assertionResponse_ok {c : Cred} {i : AssertionInput} {n : Option Nat} {r : GaResponse} {s s' : St}
    (h : assertionResponse c i n s = (.ok r, s')) :
    r.credential = { id := c.id } ∧ (∃ ext s1, gaExtOutput c i s = (.ok ext, s1) ∧ r.authData = i.authData ++ ext) ∧
      Dev.ecdsaSign c.sk (r.authData ++ i.clientDataHash) = some r.signature ∧ r.user = gaUser c i.hasUv ∧ r.number = n ∧
      r.largeBlobKey = if i.ext.largeBlobKey == some true then c.largeBlobKey else none := by
  simp only [assertionResponse, bind_ok, liftE_ok, pure_ok] at h
  obtain ⟨ext, s1, h1, sig, _, ⟨h2, rfl⟩, rfl, rfl⟩ := h
  refine ⟨rfl, ⟨ext, _, h1, rfl⟩, ?_, rfl, rfl, rfl⟩
  unfold signEncode at h2
  cases hs : Dev.ecdsaSign c.sk (i.authData ++ ext ++ i.clientDataHash) with
  | none => rw [hs] at h2; cases h2
  | some sig => rw [hs] at h2; cases h2; rfl

/-- How an assertion fails for lack of credentials. -/
theorem getAssertion_noCred {a : GaParams} {ch : Channel} {s s' : St}
    (h : getAssertion a ch s = (.err .noCredentials, s')) :
    ∃ s1 rest, gaAuth a s = (.ok (), s1) ∧ gaFindCredential a s1 = (.ok (none, rest), s') := by
  simp only [getAssertion, bind_err] at h
  rcases h with h | ⟨_, s0, h1, h | ⟨_, s0', h0, h | ⟨_, s1, h2, h | ⟨⟨o, rest⟩, s2, h3, h | ⟨c, s3, h4, h⟩⟩⟩⟩⟩
  · exact (Av.elim (H := AnySt) inferInstance trivial h).elim
  · exact ((Av.guardE (H := AnySt) (by decide)).elim trivial h).elim
  · exact (Av.elim (H := AnySt) inferInstance trivial h).elim
  · exact (Av.elim (H := AnySt) inferInstance trivial h).elim
  · obtain ⟨rfl, _⟩ := authPrecheck_ok h1
    rw [guardE_ok] at h0
    obtain ⟨_, rfl⟩ := h0
    cases o with
    | none =>
      simp only [req, fail, Prod.mk.injEq] at h
      obtain ⟨_, rfl⟩ := h
      exact ⟨s1, rest, h2, h3⟩
    | some c => simp [req, M.pure] at h
  · rcases h with h | ⟨_, s4, h5, h | ⟨_, s5, h6, h | ⟨ad, s6, h7, h | ⟨n, s7, h8, h | ⟨r, s8, h9, h⟩⟩⟩⟩⟩
    · exact (Av.elim (H := AnySt) inferInstance trivial h).elim
    · exact (Av.elim (H := AnySt) inferInstance trivial h).elim
    · exact (Av.elim (H := AnySt) inferInstance trivial h).elim
    · exact (Av.elim (H := AnySt) inferInstance trivial h).elim
    · exact (Av.elim (H := AnySt) inferInstance trivial h).elim
    · simp [M.pure] at h

/-- How a registration is refused because of the exclude list. -/
theorem makeCredential_excluded {a : McParams} {s s' : St}
    (h : makeCredential a s = (.err .credentialExcluded, s')) :
    ∃ ep s1 s2, mcEnterprise a s = (.ok ep, s1) ∧ mcAuth a s1 = (.ok (), s2) ∧
      checkExcludeList a.rp.id a.authParam.isSome (a.excludeList.getD []) s2 = (.err .credentialExcluded, s') := by
  simp only [makeCredential, bind_err] at h
  rcases h with h | ⟨_, s0, h1, h | ⟨_, s0', h0, h | ⟨ep, s1, h2, h | ⟨_, s2, h3, h | ⟨_, s3, h4, h⟩⟩⟩⟩⟩
  · exact (Av.elim (H := AnySt) inferInstance trivial h).elim
  · exact ((Av.guardE (H := AnySt) (by decide)).elim trivial h).elim
  · exact (Av.elim (H := AnySt) inferInstance trivial h).elim
  · exact (Av.elim (H := AnySt) inferInstance trivial h).elim
  · obtain ⟨rfl, _⟩ := authPrecheck_ok h1
    rw [guardE_ok] at h0
    obtain ⟨_, rfl⟩ := h0
    exact ⟨ep, s1, s2, h2, h3, h⟩
  · rcases h with h | ⟨_, s4, h5, h | ⟨_, s5, h6, h⟩⟩
    · exact (Av.elim (H := AnySt) inferInstance trivial h).elim
    · exact (Av.elim (H := AnySt) inferInstance trivial h).elim
    · exact (Av.elim (H := AnySt) inferInstance trivial h).elim

end Verif.Ctap
