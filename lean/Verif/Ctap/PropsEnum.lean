import Verif.Ctap.EnumLemmas

/-!
# C25: enumeration of assertions
-/
namespace Verif.Ctap
set_option linter.unusedSectionVars false
variable [Dev] {P : Oracle → Prop} {s s' : St} {ch : Channel}

theorem creds_nodup {l : List (Nat × Cred)} (h : CredsOk l) : (l.map (·.2)).Nodup :=
  List.pairwise_map.2 (h.account.imp fun {a b} hab e => hab ⟨by rw [e], by rw [e]⟩)

/-- The entries in the order of the keys. -/
theorem entries_spec {creds l es : List (Nat × Cred)} {rp : Bytes} {uv : Bool} (hc : CredsOk creds) (hp : l.Perm creds)
    (he : es = sortByOrder (l.filter fun e => e.2.rpId == rp && (uv || e.2.isDiscoverable))) :
    (es.reverse.map (·.2)).Nodup ∧ (∀ c, c ∈ es.reverse.map (·.2) ↔ Candidate (creds.map (·.2)) rp uv c) ∧
      (es.reverse.map (·.2)).Pairwise (fun c d => d.order ≤ c.order) ∧ ∀ e ∈ es, e ∈ creds := by
  have hm : ∀ e, e ∈ es ↔ e ∈ creds ∧ e.2.rpId = rp ∧ VisibleByRp e.2.policy uv := by
    intro e
    rw [he, (sortByOrder_perm _).mem_iff]
    simp only [List.mem_filter, Bool.and_eq_true, beq_iff_eq, listedByRp_iff rfl, hp.mem_iff]
  refine ⟨?_, fun c => ?_, ?_, fun e h => ((hm e).1 h).1⟩
  · refine List.Perm.nodup_iff ((List.reverse_perm es).map _) |>.2 ?_
    refine creds_nodup (((hc.perm hp).filter fun e => e.2.rpId == rp && (uv || e.2.isDiscoverable)).perm (l' := es) ?_)
    rw [he]
    exact sortByOrder_perm _
  · simp only [List.mem_map, List.mem_reverse, Candidate]
    constructor
    · rintro ⟨e, h, rfl⟩
      obtain ⟨h1, h2, h3⟩ := (hm e).1 h
      exact ⟨⟨e, h1, rfl⟩, h2, h3⟩
    · rintro ⟨⟨e, h1, rfl⟩, h2, h3⟩
      exact ⟨e, (hm e).2 ⟨h1, h2, h3⟩, rfl⟩
  · rw [List.pairwise_map, List.pairwise_reverse, he]
    exact sortByOrder_sorted _

/-- The state after a successful first request. -/
theorem asserting_begin {a : GaParams} {o : Oracle} {r : Response} (hr : Reach P true s)
    (h : processParsed (.getAssertion a) ch (s.withOracle o) = (.ok r, s')) (hl : a.allowList = none) :
    ∃ (g : GaResponse) (l es : List (Nat × Cred)) (last : Nat × Cred) (t : Nat) (inp : AssertionInput), r = .getAssertion g ∧ l.Perm s.p.creds ∧
      es ++ [last] = sortByOrder (l.filter fun e => e.2.rpId == a.rpId && (a.authParam.isSome || e.2.isDiscoverable)) ∧
      AssertedBy a last.2 g ∧ g.number = (if es = [] then none else some (es.length + 1)) ∧
      s.env.now ≤ t ∧ t ≤ s'.env.now ∧ Asserting t ch inp (es.map (·.1)) s'.v.sp ∧
      inp.clientDataHash = a.clientDataHash ∧ inp.hasUv = a.authParam.isSome ∧ s'.p.creds = s.p.creds ∧ ∃ cid, ch = .main cid := by
  obtain ⟨⟨cid, rfl⟩, h⟩ := processParsed_ok h (by simp)
  obtain ⟨s1, s2, s3, s4, s5, s6, c, rest, ad, number, ga, h1, h2, h3, h4, h5, h6, h7, rfl, _⟩ := getAssertion_ok h
  have hp1 : s1.p = s.p := (keepP h1).trans (prelude_p ..)
  have hc := credsOk_reach hr
  rw [← hp1] at hc
  obtain ⟨mk, l, hk, hperm, rfl, _, h8⟩ := gaFind_discoverable hc hl h2
  obtain ⟨k, hlast, h9, h10, h11, h12⟩ := h8 c rfl
  rw [hp1] at hperm h9 hc
  generalize hE : sortByOrder (l.filter fun e => e.2.rpId == a.rpId && (a.authParam.isSome || e.2.isDiscoverable)) = E
    at *
  have hD : discoverableKeys a.rpId a.authParam.isSome l = E.map (·.1) := by rw [discoverableKeys, hE]
  rw [hD] at hlast h6
  rw [List.getLast?_map, Option.map_eq_some_iff] at hlast
  obtain ⟨last, hlast, rfl⟩ := hlast
  obtain ⟨es, rfl⟩ := List.getLast?_eq_some_iff.1 hlast
  have hmem : last ∈ s.p.creds := (entries_spec hc hperm hE.symm).2.2.2 last (by simp)
  have : last = (last.1, c) := hc.key hmem h9 rfl
  have hlc : last.2 = c := by rw [this]
  obtain ⟨g1, _, g3, g4, g5, _⟩ := assertionResponse_ok h7
  obtain ⟨e7, c7⟩ := keepSp h7
  obtain ⟨e5, c5⟩ := keepSp h5
  obtain ⟨e4, c4⟩ := keepSp h4
  obtain ⟨e3, c3⟩ := keepSp h3
  obtain ⟨e2, c2⟩ := keepSp h2
  obtain ⟨e1, c1⟩ := keepSp h1
  have hsp : s5.v.sp = .cleared := by rw [e5, e4, e3, e2, e1]; simp [prelude, keepsStateful]
  have hcr : s5.p.creds = s.p.creds := by rw [c5, c4, c3, c2, c1]; rfl
  have ht1 : s.env.now ≤ s5.env.now := 
    Nat.le_trans (late (s := prelude (.getAssertion a) (.main cid) (s.withOracle o)) h1)
      (Nat.le_trans (late h2) (Nat.le_trans (late h3) (Nat.le_trans (late h4) (late h5))))
  have ht2 : s5.env.now ≤ s'.env.now := Nat.le_trans (late h6) (late h7)
  have hrem : number = (if es = [] then none else some (es.length + 1)) ∧ s6.p.creds = s5.p.creds ∧
      Asserting s5.env.now (.main cid) { clientDataHash := a.clientDataHash, authData := ad, ext := a.ext
                                         hasUv := a.authParam.isSome } (es.map (·.1)) s6.v.sp := by
    rw [List.map_append, List.map_cons, List.map_nil, List.dropLast_concat] at h6
    cases es with
    | nil =>
      simp only [List.map_nil, gaRemember, pure_ok] at h6
      obtain ⟨rfl, rfl⟩ := h6
      exact ⟨rfl, rfl, .inl ⟨rfl, hsp⟩⟩
    | cons e es =>
      simp only [List.map_cons, gaRemember, setCommand, bind_ok, clock_ok, modSp, modV_ok, pure_ok] at h6
      obtain ⟨_, _, ⟨_, _, ⟨rfl, rfl⟩, rfl⟩, rfl, rfl⟩ := h6
      exact ⟨by simp, rfl, .inr rfl⟩
  obtain ⟨r1, r2, r3⟩ := hrem
  refine ⟨ga, l, es, last, s5.env.now, _, rfl, hperm, hE.symm, ⟨?_, ?_, ?_⟩, g5.trans r1, ht1, ht2, e7 ▸ r3, rfl, rfl, ?_, _, rfl⟩
  · rw [hlc]; exact g1
  · rw [hlc]; exact g4
  · rw [hlc]; exact g3
  · rw [c7, r2, hcr]

/-- The next request. -/
theorem asserting_next {a : GaParams} {o : Oracle} {r : Response} {t : Nat} {inp : AssertionInput} {es : List (Nat × Cred)}
    (hc : CredsOk s.p.creds) (hes : ∀ e ∈ es, e ∈ s.p.creds)
    (hA : Asserting t ch inp (es.map (·.1)) s.v.sp) (h1 : inp.clientDataHash = a.clientDataHash)
    (h2 : inp.hasUv = a.authParam.isSome) (h : processParsed .getNextAssertion ch (s.withOracle o) = (.ok r, s')) :
    ∃ g es' e, r = .getNextAssertion g ∧ es = es' ++ [e] ∧ AssertedBy a e.2 g ∧ g.number = none ∧
      Asserting t ch inp (es'.map (·.1)) s'.v.sp ∧ s'.p.creds = s.p.creds := by
  obtain ⟨⟨cid, rfl⟩, h⟩ := processParsed_ok h (by simp)
  obtain ⟨inp', keys, k, c, g, t', a1, a2, ⟨mk, a3⟩, a4, rfl⟩ := nextAssertion_ok h
  obtain ⟨e1, e2, _, e4, e5⟩ := prelude_sp (s := s.withOracle o) a1
  have e2 : s.v.sp.cmd = _ := e2
  rcases hA with ⟨_, hA⟩ | hA
  · rw [hA] at e2; cases e2
  · rw [hA] at e2
    obtain ⟨rfl, e6⟩ := Stateful.getAssertion.inj (Option.some.inj e2)
    have hne : es ≠ [] := by rintro rfl; simp at e6
    obtain ⟨es', e, hes'⟩ := List.eq_nil_or_concat es |>.resolve_left hne
    rw [List.concat_eq_append] at hes'
    subst hes'
    rw [List.map_append, List.map_cons, List.map_nil] at e6
    obtain ⟨rfl, e3⟩ := List.append_inj' e6 rfl
    simp only [List.cons.injEq, and_true] at e3
    subst e3
    have a2 : (e.1, c) ∈ s.p.creds := a2
    have : e = (e.1, c) := hc.key (hes e (by simp)) a2 rfl
    have hlc : c = e.2 := by rw [this]
    subst hlc
    obtain ⟨g1, _, g3, g4, g5, _⟩ := assertionResponse_ok a4
    obtain ⟨e7, c7⟩ := keepSp a4
    rw [a3.v] at e7
    rw [a3.creds] at c7
    refine ⟨g, es', e, rfl, rfl, ⟨g1, h2 ▸ g4, h1 ▸ g3⟩, g5, .inr ?_, c7⟩
    rw [e7]
    have e1 : (prelude .getNextAssertion (.main cid) (s.withOracle o)).v.sp.clearTimer s.env.now = s.v.sp := e1
    show ({ (prelude .getNextAssertion (.main cid) (s.withOracle o)).v.sp.clearTimer s.env.now with cmd := _ } :
      StatefulPerm) = _
    rw [e1, hA]

/-- The last possible request fails. -/
theorem asserting_end {t : Nat} {inp : AssertionInput} {keys : List Nat} (hA : Asserting t ch inp keys s.v.sp) (o : Oracle)
    {ch' : Channel} (h : keys = [] ∨ ch' ≠ ch ∨ t + 30000 ≤ s.env.now) :
    ∃ e, (processParsed .getNextAssertion ch' (s.withOracle o)).1 = .err e ∧ (∀ cid, ch' = .main cid → e = .notAllowed) := by
  rw [processParsed_eq]
  cases ch' with
  | vendor c => exact ⟨_, rfl, fun _ h => by cases h⟩
  | main cid =>
    refine ⟨.notAllowed, ?_, fun _ _ => rfl⟩
    refine next_refused fun inp' keys' hk => ?_
    obtain ⟨e1, e2, _, e4, e5⟩ := prelude_sp (s := s.withOracle o) hk
    have e2 : s.v.sp.cmd = _ := e2
    rcases hA with ⟨_, hA⟩ | hA
    · rw [hA] at e2; cases e2
    · rcases h with h | h | h
      · rw [hA] at e2
        cases e2
        exact h
      · exact absurd (e4 ch (by show s.v.sp.channel = _; rw [hA])).symm h
      · have e5 : Verif.Hid.Timer.isElapsed s.v.sp.timer s.env.now = false := e5
        rw [hA] at e5
        simp [makeTimer, Verif.Hid.Timer.isElapsed] at e5
        omega

theorem nextCred_run {inp : AssertionInput} {keys : List Nat} {k : Nat}
    (h : (s.v.sp.clearTimer s.env.now).cmd = some (.getAssertion inp (keys ++ [k]))) :
    (nextAssertionCredential s).1 = .ok (inp, k) := by
  simp only [nextAssertionCredential, bind_def, M.bind, getCommand_run, h]
  simp [req, M.pure, modSp, modV]

/-- While credentials are left, the next request is not refused. -/
theorem asserting_go {t : Nat} {inp : AssertionInput} {keys : List Nat} {cid : Bytes}
    (hA : Asserting t (.main cid) inp keys s.v.sp) (o : Oracle) (h : keys ≠ []) (ht : s.env.now < t + 30000) :
    (processParsed .getNextAssertion (.main cid) (s.withOracle o)).1 ≠ .err .notAllowed := by
  rcases hA with ⟨hA, _⟩ | hA
  · exact absurd hA h
  rw [processParsed_eq]
  show (getNextAssertion _).1 ≠ _
  have hel : Verif.Hid.Timer.isElapsed (makeTimer t 30000) s.env.now = false := by
    simp [makeTimer, Verif.Hid.Timer.isElapsed]; omega
  have hsp : (prelude .getNextAssertion (.main cid) (s.withOracle o)).v.sp.clearTimer s.env.now = s.v.sp := by
    simp only [prelude, St.withOracle, hA, StatefulPerm.clearOldChannels, StatefulPerm.clearTimer, hel, keepsStateful]
    simp [hel]
  intro hr
  obtain ⟨keys', k, hk⟩ := List.eq_nil_or_concat keys |>.resolve_left h
  rw [List.concat_eq_append] at hk
  subst hk
  unfold getNextAssertion at hr
  rcases bind_err.1 (Prod.ext hr rfl) with hr | ⟨x, s1, h1, hr⟩
  · have := nextCred_run (s := prelude .getNextAssertion (.main cid) (s.withOracle o)) (inp := inp) (keys := keys') (k := k)
      ((congrArg StatefulPerm.cmd hsp).trans (by rw [hA]))
    rw [hr] at this
    cases this
  · exact (Av.elim (H := AnySt) (by av) trivial hr).elim

/-- **C25.** After a successful request for an assertion without allow list at the channel `ch`, followed by requests for the
next assertion, all successful, and inputs other than CTAP2 requests: the responses come from different credentials, those
stored for this relying party and visible to this request; the newest comes first; the first response announces their number
(unless it is 1). Exactly if all of them were used, or 30 s after the first request, the next request is refused. Requests
on another channel are always refused. -/
theorem C25_enumeration {a : GaParams} {r : Response} {rs : List Response} {s1 : St} (hr : Reach P true s)
    (hl : a.allowList = none) (h : Served P ch (.getAssertion a) s r s1)
    (hn : Continued P ch (· = .getNextAssertion) s1 rs s') :
    ∃ (used left : List Cred) (g : GaResponse) (gs : List GaResponse) (t : Nat),
      r = .getAssertion g ∧ rs = gs.map .getNextAssertion ∧ EachOf (AssertedBy a) used (g :: gs) ∧
      (used ++ left).Nodup ∧ (∀ c, c ∈ used ++ left ↔ Candidate s.stored a.rpId a.authParam.isSome c) ∧
      (used ++ left).Pairwise (fun c d => d.order ≤ c.order) ∧
      g.number = (if (used ++ left).length = 1 then none else some (used ++ left).length) ∧
      s.env.now ≤ t ∧ t ≤ s1.env.now ∧
      (∀ o, left ≠ [] → s'.env.now < t + 30000 → (processParsed .getNextAssertion ch (s'.withOracle o)).1 ≠ .err .notAllowed) ∧
      (∀ o, left = [] ∨ t + 30000 ≤ s'.env.now → (processParsed .getNextAssertion ch (s'.withOracle o)).1 = .err .notAllowed) ∧
      ∀ o ch', ch' ≠ ch → ∃ e, (processParsed .getNextAssertion ch' (s'.withOracle o)).1 = .err e := by
  have hc := credsOk_reach hr
  obtain ⟨o, s2, _, h1, hv, hp, ht⟩ := h.elim
  obtain ⟨g, l, es, last, t, inp, rfl, hperm, hE, hg, hnum, t1, t2, hA, i1, i2, hcr, cid, rfl⟩ := asserting_begin hr h1 hl
  obtain ⟨d1, d2, d3, d4⟩ := entries_spec hc hperm hE
  have key := hn.induct (J := fun rs s' => ∃ (left done : List (Nat × Cred)) (gs : List GaResponse),
      es = left ++ done ∧ rs = gs.map .getNextAssertion ∧ EachOf (AssertedBy a) (done.reverse.map (·.2)) gs ∧
      Asserting t (.main cid) inp (left.map (·.1)) s'.v.sp ∧ s'.p.creds = s.p.creds)
    ⟨es, [], [], by simp, rfl, trivial, by rw [hv]; exact hA, by rw [hp]; exact hcr⟩
    (by
      rintro rs s3 o cmd r s4 s5 ⟨left, done, gs, rfl, rfl, e1, e2, e3⟩ rfl hpp hv' hp' _
      obtain ⟨g', left', e, rfl, rfl, b1, _, b3, b4⟩ := asserting_next (a := a) (by rw [e3]; exact hc)
        (fun x hx => by rw [e3]; exact d4 x (by simp [hx])) e2 i1 i2 hpp
      refine ⟨left', e :: done, gs ++ [g'], by simp, by simp, ?_, by rw [hv']; exact b3, by rw [hp', b4, e3]⟩
      rw [List.reverse_cons, List.map_append]
      exact e1.append ⟨b1, trivial⟩)
    (by
      rintro rs s3 s4 ⟨left, done, gs, b1, b2, b3, b4, b5⟩ c1 c2 _
      exact ⟨left, done, gs, b1, b2, b3, by rw [c1]; exact b4, by rw [c2]; exact b5⟩)
  obtain ⟨left, done, gs, rfl, rfl, e1, e2, e3⟩ := key
  have hfull : (left ++ done ++ [last]).reverse.map (·.2) = (last.2 :: done.reverse.map (·.2)) ++ left.reverse.map (·.2) := by
    simp
  rw [hfull] at d1 d2 d3
  refine ⟨last.2 :: done.reverse.map (·.2), left.reverse.map (·.2), g, gs, t, rfl, rfl, ⟨hg, e1⟩, d1, d2, d3, ?_, t1,
    Nat.le_trans t2 ht, ?_, ?_, ?_⟩
  · rw [hnum]
    by_cases hz : left ++ done = []
    · obtain ⟨rfl, rfl⟩ := List.append_eq_nil_iff.1 hz
      simp
    · have : 0 < left.length + done.length := by
        rcases Nat.eq_zero_or_pos (left.length + done.length) with h | h
        · exact absurd (List.length_eq_zero_iff.1 (by simpa using h)) hz
        · exact h
      have h2 : (last.2 :: done.reverse.map (·.2) ++ left.reverse.map (·.2)).length = (left ++ done).length + 1 := by
        simp; omega
      rw [if_neg hz, h2, if_neg (by simp only [List.length_append]; omega)]
  · intro o hne hlt
    exact asserting_go e2 o (by simpa using hne) hlt
  · intro o hz
    obtain ⟨e, h1, h2⟩ := asserting_end e2 o (ch' := .main cid) (hz.elim (fun h => .inl (by simpa using h)) fun h => .inr (.inr h))
    rw [h1, h2 _ rfl]
  · intro o ch' hne
    obtain ⟨e, h1, _⟩ := asserting_end e2 o (ch' := ch') (.inr (.inl hne))
    exact ⟨e, h1⟩

/-- **C25**, interruptions: after any CTAP2 request other than those for the first or next assertion, on any channel and
with any result, requests for the next assertion are refused until a new request for a first assertion comes in. -/
theorem C25_interrupted {msg : Bytes} {cmd : Command} (hd : Command.deserialize msg = .ok cmd)
    (h1 : ∀ a, cmd ≠ .getAssertion a) (h2 : cmd ≠ .getNextAssertion)
    (h : Without P (fun c => ∃ a, c = .getAssertion a) (stepM (.ctap2 ch msg) s).2 s') (o : Oracle) (cid : Bytes) :
    (processParsed .getNextAssertion (.main cid) (s'.withOracle o)).1 = .err .notAllowed := by
  have hs : NoAssertion s' := by
    induction h with
    | start =>
      refine stepM_msg hd ?_
      rw [processParsed_eq]
      exact noAssertion_command h1 (noAssertion_prelude h2)
    | boot h ho ih =>
      rename_i s1 o1
      obtain ⟨e, _, _, ⟨_, h3⟩ | ⟨p1, p2, h3⟩⟩ := bootM_cases (s1.withOracle o1) <;> rw [h3]
      · exact ih
      · intro _ _ h; simp at h
    | step h ho hi ih =>
      exact noAssertion_step (fun ch msg cmd h1 h2 a h3 => hi ch msg cmd h1 h2 ⟨a, h3⟩) ih
  rw [processParsed_eq]
  refine next_refused fun inp keys hk => ?_
  obtain ⟨_, e2, _⟩ := prelude_sp (s := s'.withOracle o) hk
  exact absurd e2 (hs inp keys)

end Verif.Ctap

namespace Verif.Ctap.Toy

/-- C25: two credentials answer, the newer one first; then, or after 30 s, or after another request, no more. -/
example :
    let first := parse (assert rpA none none)
    let idOf (c : Command) (s : St) : Option (Bytes × Option Nat) := match (runCmd c s).1 with
      | .ok (.getAssertion g) => some (g.credential.id, g.number)
      | .ok (.getNextAssertion g) => some (g.credential.id, g.number)
      | _ => none
    let next : Input := .ctap2 ch [8]
    twoCreds.stored.map (·.order) = [2, 1] ∧
    idOf first twoCreds = some ((twoCreds.stored.map (·.id)).headD [], some 2) ∧
    idOf (parse next) asserting = some (((twoCreds.stored.map (·.id)).drop 1).headD [], none) ∧
    accepted good next (step good (.ctap1 [0, 3, 0, 0, 0, 0, 0]) asserting) = true ∧
    accepted good next (step good next asserting) = false ∧
    accepted good next (step good (.wait 29990) asserting) = true ∧
    accepted good next (step good (.wait 30000) asserting) = false ∧
    accepted good next (step good (.ctap2 ch [4]) asserting) = false := by decide +kernel

end Verif.Ctap.Toy
