import Verif.Ctap.PropsEnum

/-!
# C30, C31: credential management
-/
namespace Verif.Ctap
set_option linter.unusedSectionVars false
variable [Dev] {P : Oracle → Prop} {s s' : St} {ch : Channel}

/-! ## Sets of relying parties -/

omit [Dev] in
theorem ltBytes_iff : ∀ {a b : Bytes}, ltBytes a b = true ↔ a < b
  | [], [] => by simp [ltBytes]
  | [], _ :: _ => by simp [ltBytes]
  | _ :: _, [] => by simp [ltBytes]
  | a :: as, b :: bs => by simp [ltBytes, List.cons_lt_cons_iff, ltBytes_iff (a := as) (b := bs)]

omit [Dev] in
theorem mem_setInsert {x y : Bytes} : ∀ {l : List Bytes}, y ∈ setInsert x l ↔ y = x ∨ y ∈ l
  | [] => by simp [setInsert]
  | z :: l => by
    unfold setInsert
    repeat' split
    · subst_vars; simp
    · simp
    · simp only [List.mem_cons, mem_setInsert (l := l)]
      constructor
      · rintro (h | h | h) <;> simp [h]
      · rintro (h | h | h) <;> simp [h]

omit [Dev] in
theorem setInsert_sorted {x : Bytes} : ∀ {l : List Bytes}, l.Pairwise (· < ·) → (setInsert x l).Pairwise (· < ·)
  | [], _ => by simp [setInsert]
  | z :: l, h => by
    obtain ⟨h1, h2⟩ := List.pairwise_cons.1 h
    unfold setInsert
    repeat' split
    · exact h
    · rename_i hlt
      rw [ltBytes_iff] at hlt
      refine List.pairwise_cons.2 ⟨fun y hy => ?_, h⟩
      rcases List.mem_cons.1 hy with rfl | hy
      · exact hlt
      · exact List.lt_trans hlt (h1 y hy)
    · rename_i hne hlt
      rw [ltBytes_iff] at hlt
      refine List.pairwise_cons.2 ⟨fun y hy => ?_, setInsert_sorted h2⟩
      rcases mem_setInsert.1 hy with rfl | hy
      · rcases Std.lt_trichotomy y z with h | h | h
        · exact absurd h hlt
        · exact absurd h hne
        · exact h
      · exact h1 y hy

/-- Two strictly sorted lists with the same elements are equal. -/
theorem sorted_ext {l l' : List Bytes} (h : l.Pairwise (· < ·)) (h' : l'.Pairwise (· < ·)) (hm : ∀ x, x ∈ l ↔ x ∈ l') :
    l = l' := by
  induction l generalizing l' with
  | nil =>
    cases l' with
    | nil => rfl
    | cons a l' => exact absurd ((hm a).2 (by simp)) (by simp)
  | cons a l ih =>
    cases l' with
    | nil => exact absurd ((hm a).1 (by simp)) (by simp)
    | cons b l' =>
      obtain ⟨h1, h2⟩ := List.pairwise_cons.1 h
      obtain ⟨h1', h2'⟩ := List.pairwise_cons.1 h'
      have hab : a = b := by
        rcases List.mem_cons.1 ((hm a).1 (by simp)) with h | ha
        · exact h
        · rcases List.mem_cons.1 ((hm b).2 (by simp)) with h | hb
          · exact h.symm
          · exact absurd (List.lt_trans (h1 b hb) (h1' a ha)) (List.lt_irrefl _)
      subst hab
      congr 1
      refine ih h2 h2' fun x => ⟨fun hx => ?_, fun hx => ?_⟩
      · rcases List.mem_cons.1 ((hm x).1 (List.mem_cons_of_mem _ hx)) with rfl | hx'
        · exact absurd (h1 x hx) (List.lt_irrefl _)
        · exact hx'
      · rcases List.mem_cons.1 ((hm x).2 (List.mem_cons_of_mem _ hx)) with rfl | hx'
        · exact absurd (h1' x hx) (List.lt_irrefl _)
        · exact hx'

/-- The set of relying parties of a list of entries. -/
def rpsOf (l : List (Nat × Cred)) : List Bytes := (l.map fun e => e.2.rpId).foldl (fun s x => setInsert x s) []

omit [Dev] in
theorem rpsOf_aux (xs : List Bytes) : ∀ acc : List Bytes, acc.Pairwise (· < ·) →
    (xs.foldl (fun s x => setInsert x s) acc).Pairwise (· < ·) ∧
    ∀ y, y ∈ xs.foldl (fun s x => setInsert x s) acc ↔ y ∈ xs ∨ y ∈ acc := by
  induction xs with
  | nil => intro acc h; exact ⟨h, by simp⟩
  | cons x xs ih =>
    intro acc h
    obtain ⟨h1, h2⟩ := ih (setInsert x acc) (setInsert_sorted h)
    refine ⟨h1, fun y => ?_⟩
    rw [List.foldl_cons, h2, mem_setInsert, List.mem_cons]
    constructor
    · rintro (h | h | h) <;> simp [h]
    · rintro ((h | h) | h) <;> simp [h]

omit [Dev] in
theorem rpsOf_sorted (l : List (Nat × Cred)) : (rpsOf l).Pairwise (· < ·) := (rpsOf_aux _ [] .nil).1

omit [Dev] in
theorem mem_rpsOf {l : List (Nat × Cred)} {x : Bytes} : x ∈ rpsOf l ↔ ∃ e ∈ l, e.2.rpId = x := by
  unfold rpsOf
  rw [(rpsOf_aux _ [] .nil).2]
  simp

theorem rpsOf_perm {l l' : List (Nat × Cred)} (h : l.Perm l') : rpsOf l = rpsOf l' :=
  sorted_ext (rpsOf_sorted l) (rpsOf_sorted l') fun x => by simp only [mem_rpsOf, h.mem_iff]

omit [Dev] in
theorem rpsOf_nodup (l : List (Nat × Cred)) : (rpsOf l).Nodup :=
  (rpsOf_sorted l).imp fun h e => by subst e; exact List.lt_irrefl _ h

theorem storedRpIds_ok {l : List Bytes} (h : storedRpIds s = (.ok l, s')) :
    l = rpsOf s.p.creds ∧ s'.v = s.v ∧ s'.p.creds = s.p.creds ∧ s.env.now ≤ s'.env.now := by
  have hp := keepSp h
  have ht := late h
  have hv := keepV h
  simp only [storedRpIds, bind_ok, pure_ok] at h
  obtain ⟨l', s1, h1, rfl, rfl⟩ := h
  exact ⟨rpsOf_perm (iterCredentials_ok h1).1, hv, hp.2, ht⟩

/-! ## The running enumeration -/

/-- The stateful command of a channel. -/
def Running (t : Nat) (ch : Channel) (c : Stateful) (sp : StatefulPerm) : Prop :=
  sp = { timer := makeTimer t 30000, cmd := some c, channel := some ch }

/-- What is left of the stateful command at the start of credential management. -/
theorem cmStart_sp {a : CmParams} {c : Stateful}
    (h : ((cmStart a (prelude (.credMgmt a) ch s)).v.sp.clearTimer s.env.now).cmd = some c) :
    (cmStart a (prelude (.credMgmt a) ch s)).v.sp.clearTimer s.env.now = s.v.sp ∧ s.v.sp.cmd = some c ∧
      cmKeeps a.sub (some c) = true ∧ (∀ c', s.v.sp.channel = some c' → c' = ch) ∧
      Verif.Hid.Timer.isElapsed s.v.sp.timer s.env.now = false := by
  have hcc : ∀ (sp : StatefulPerm) n, (sp.clearTimer n).clearTimer n = sp.clearTimer n := by
    intro sp n
    unfold StatefulPerm.clearTimer
    by_cases h : Verif.Hid.Timer.isElapsed sp.timer n = true
    · simp only [h, if_true]; split <;> rfl
    · simp only [if_neg h]
  have hcl : ∀ n, StatefulPerm.clearTimer .cleared n = .cleared := fun n => rfl
  have he : (cmStart a (prelude (.credMgmt a) ch s)).v.sp =
      if cmKeeps a.sub ((prelude (.credMgmt a) ch s).v.sp.clearTimer s.env.now).cmd
      then (prelude (.credMgmt a) ch s).v.sp.clearTimer s.env.now else .cleared := rfl
  rw [he] at h ⊢
  by_cases hk : cmKeeps a.sub ((prelude (.credMgmt a) ch s).v.sp.clearTimer s.env.now).cmd = true
  · rw [if_pos hk, hcc] at h ⊢
    obtain ⟨h1, h2, _, h4, h5⟩ := prelude_sp h
    exact ⟨h1, h2, by rw [h] at hk; exact hk, h4, h5⟩
  · rw [if_neg hk, hcl] at h
    cases h

theorem running_start {a : CmParams} {c : Stateful} {t : Nat} (h : Running t ch c s.v.sp)
    (hk : cmKeeps a.sub (some c) = true) (hk' : keepsStateful (.credMgmt a) (some c) = true) (ht : s.env.now < t + 30000) :
    (cmStart a (prelude (.credMgmt a) ch s)).v.sp.clearTimer s.env.now = s.v.sp := by
  have hel : Verif.Hid.Timer.isElapsed (makeTimer t 30000) s.env.now = false := by
    simp [makeTimer, Verif.Hid.Timer.isElapsed]; omega
  unfold Running at h
  simp only [cmStart, prelude, h, StatefulPerm.clearOldChannels, StatefulPerm.clearTimer, hel, ne_eq, not_true_eq_false,
    if_false, if_true, hk, hk', Bool.false_eq_true]

/-! ## Relying parties -/

theorem cmRpsNext_ok {q : CmResponse} (h : cmRpsNext s = (.ok q, s')) :
    ∃ i rp, (s.v.sp.clearTimer s.env.now).cmd = some (.enumerateRps i) ∧ (rpsOf s.p.creds)[i]? = some rp ∧
      DescribesRp none rp q ∧ s'.v.sp = { s.v.sp.clearTimer s.env.now with cmd := some (.enumerateRps (i + 1)) } ∧
      s'.p.creds = s.p.creds := by
  simp only [cmRpsNext, bind_ok, req_ok, pure_ok] at h
  obtain ⟨i, s1, h1, rps, s2, h2, rp, _, ⟨h3, rfl⟩, rfl, rfl⟩ := h
  obtain ⟨rfl, hv, hc, _⟩ := storedRpIds_ok h2
  simp only [nextEnumerateRp, bind_ok] at h1
  obtain ⟨x, s4, h4, h5⟩ := h1
  obtain ⟨rfl, rfl⟩ := getCommand_ok h4
  cases hcmd : (s.v.sp.clearTimer s.env.now).cmd with
  | none => simp [hcmd, fail] at h5
  | some c' =>
    cases c' with
    | enumerateRps j =>
      simp only [hcmd, bind_ok, modSp, modV_ok, pure_ok] at h5
      obtain ⟨_, _, rfl, rfl, rfl⟩ := h5
      exact ⟨j, rp, rfl, h3, rfl, by rw [hv], hc⟩
    | _ => simp [hcmd, fail] at h5

theorem cmRest_next {a : CmParams} {r : Response} (ha : a.sub = .rpsNext) (h : cmRest a ch s = (.ok r, s')) :
    ∃ q, r = .credMgmt (some q) ∧ cmRpsNext s = (.ok q, s') := by
  simp only [cmRest, ha, cmDispatch, CmSub.needsToken, bind_ok, pure_ok, whenM_ok] at h
  obtain ⟨_, _, ⟨h, _⟩ | ⟨_, rfl⟩, _, _, ⟨q, _, h1, rfl, rfl⟩, rfl, rfl⟩ := h
  · cases h
  · exact ⟨q, rfl, h1⟩

/-- The state after a successful begin. -/
theorem rps_begin {a : CmParams} {o : Oracle} {r : Response} (ha : a.sub = .rpsBegin)
    (h : processParsed (.credMgmt a) ch (s.withOracle o) = (.ok r, s')) :
    ∃ q rp rest t, r = .credMgmt (some q) ∧ rpsOf s.p.creds = rp :: rest ∧ DescribesRp (some (rpsOf s.p.creds).length) rp q ∧
      s.env.now ≤ t ∧ t ≤ s'.env.now ∧
      ((rest = [] ∧ s'.v.sp = .cleared) ∨ Running t ch (.enumerateRps 1) s'.v.sp) ∧ s'.p.creds = s.p.creds ∧
      ∃ cid, ch = .main cid := by
  obtain ⟨⟨cid, rfl⟩, h⟩ := processParsed_ok h (by simp)
  have h : credentialManagement a (.main cid) _ = (.ok r, s') := h
  rw [credMgmt_eq] at h
  simp only [cmRest, ha, cmDispatch, CmSub.needsToken, bind_ok, pure_ok, whenM_ok] at h
  obtain ⟨_, s1, ⟨_, h1⟩ | ⟨h0, _⟩, _, _, ⟨_, s2, h2, q, _, h3, rfl, rfl⟩, rfl, rfl⟩ := h
  · obtain ⟨rfl, _⟩ := cmAuth_ok h1
    obtain ⟨rfl, _⟩ := noRpId_ok h2
    simp only [cmRpsBegin, bind_ok, req_ok, pure_ok] at h3
    obtain ⟨rps, s3, h4, _, s4, h5, rp, _, ⟨h6, rfl⟩, rfl, rfl⟩ := h3
    obtain ⟨hr, hv, hc, ht⟩ := storedRpIds_ok h4
    have hc0 : (cmStart a (prelude (.credMgmt a) (.main cid) (s.withOracle o))).p.creds = s.p.creds := rfl
    have hsp0 : (cmStart a (prelude (.credMgmt a) (.main cid) (s.withOracle o))).v.sp = .cleared := by
      simp [cmStart, ha, cmKeeps]
    rw [hc0] at hr hc
    obtain ⟨rest, hrest⟩ : ∃ rest, rps = rp :: rest := by
      cases rps with
      | nil => cases h6
      | cons x l => cases h6; exact ⟨l, rfl⟩
    refine ⟨_, rp, rest, s3.env.now, rfl, hr ▸ hrest, by rw [← hr]; rfl, ht, late h5, ?_, ?_, _, rfl⟩
    · rw [whenM_ok] at h5
      rcases h5 with ⟨_, h5⟩ | ⟨h5, rfl⟩
      · simp only [setCommand, bind_ok, clock_ok, modSp, modV_ok] at h5
        obtain ⟨_, _, ⟨rfl, rfl⟩, rfl⟩ := h5
        exact .inr rfl
      · refine .inl ⟨?_, by rw [hv, hsp0]⟩
        rw [hrest] at h5
        simpa using h5
    · exact (keepCreds h5).trans hc
  · cases h0

theorem rps_next {a : CmParams} {o : Oracle} {r : Response} {i t : Nat} (ha : a.sub = .rpsNext)
    (hA : s.v.sp = .cleared ∨ Running t ch (.enumerateRps i) s.v.sp)
    (h : processParsed (.credMgmt a) ch (s.withOracle o) = (.ok r, s')) :
    ∃ q rp, r = .credMgmt (some q) ∧ (rpsOf s.p.creds)[i]? = some rp ∧ DescribesRp none rp q ∧
      Running t ch (.enumerateRps (i + 1)) s'.v.sp ∧ s'.p.creds = s.p.creds := by
  obtain ⟨⟨cid, rfl⟩, h⟩ := processParsed_ok h (by simp)
  have h : credentialManagement a (.main cid) _ = (.ok r, s') := h
  rw [credMgmt_eq] at h
  obtain ⟨q, rfl, h'⟩ := cmRest_next ha h
  obtain ⟨j, rp, h1, h2, h3, h4, h5⟩ := cmRpsNext_ok h'
  obtain ⟨e1, e2, _, _, _⟩ := cmStart_sp (s := s.withOracle o) h1
  have e2 : s.v.sp.cmd = _ := e2
  rcases hA with hA | hA
  · rw [hA] at e2; cases e2
  · rw [hA] at e2
    cases e2
    have e1 : (cmStart a (prelude (.credMgmt a) (.main cid) (s.withOracle o))).v.sp.clearTimer s.env.now = s.v.sp := e1
    refine ⟨q, rp, rfl, h2, h3, ?_, h5⟩
    rw [h4]
    show ({ (cmStart a (prelude (.credMgmt a) (.main cid) (s.withOracle o))).v.sp.clearTimer s.env.now with cmd := _ } :
      StatefulPerm) = _
    rw [e1, hA]

theorem rpsNext_run {i : Nat} (h : (s.v.sp.clearTimer s.env.now).cmd = some (.enumerateRps i)) :
    nextEnumerateRp s = (.ok i, { s with v := { s.v with sp := { s.v.sp.clearTimer s.env.now with
      cmd := some (.enumerateRps (i + 1)) } } }) := by
  simp only [nextEnumerateRp, bind_def, M.bind, getCommand_run, h]
  simp [M.pure, modSp, modV]

theorem cmRest_rpsNext {a : CmParams} (ha : a.sub = .rpsNext) (s : St) :
    (cmRest a ch s).1 = (match (cmRpsNext s).1 with
      | .ok q => .ok (.credMgmt (some q)) | .err e => .err e | .panic => .panic | .crash => .crash) := by
  simp only [cmRest, ha, cmDispatch, CmSub.needsToken, bind_def, M.bind, M.pure, whenM, Bool.false_eq_true, if_false]
  rcases cmRpsNext s with ⟨r, t⟩
  cases r <;> rfl

/-- While relying parties are left, the next request is not refused. -/
theorem rps_go {a : CmParams} {i t : Nat} {cid : Bytes} (ha : a.sub = .rpsNext)
    (hA : Running t (.main cid) (.enumerateRps i) s.v.sp) (o : Oracle) (hi : i < (rpsOf s.p.creds).length)
    (ht : s.env.now < t + 30000) : (processParsed (.credMgmt a) (.main cid) (s.withOracle o)).1 ≠ .err .notAllowed := by
  rw [processParsed_eq]
  show (credentialManagement a _ _).1 ≠ _
  rw [credMgmt_eq]
  have hsp := running_start (a := a) (s := s.withOracle o) hA (by rw [ha]; rfl) rfl ht
  rw [cmRest_rpsNext ha]
  generalize hst : cmStart a (prelude (.credMgmt a) (.main cid) (s.withOracle o)) = st
  rw [hst] at hsp
  have hn : st.env.now = s.env.now := by rw [← hst]; rfl
  have hc : st.p.creds = s.p.creds := by rw [← hst]; rfl
  have hcmd : (st.v.sp.clearTimer st.env.now).cmd = some (.enumerateRps i) := by
    rw [hn]; exact (congrArg StatefulPerm.cmd hsp).trans (congrArg StatefulPerm.cmd hA)
  have key : (cmRpsNext st).1 ≠ .err .notAllowed := by
    intro hr
    unfold cmRpsNext at hr
    rcases bind_err.1 (Prod.ext hr rfl) with hr | ⟨j, s1, h1, hr⟩
    · rw [rpsNext_run hcmd] at hr; cases hr
    · rw [rpsNext_run hcmd] at h1
      cases h1
      rcases bind_err.1 hr with hr | ⟨rps, s2, h2, hr⟩
      · exact (Av.elim (H := AnySt) (by unfold storedRpIds; av) trivial hr).elim
      · obtain ⟨rfl, _⟩ := storedRpIds_ok h2
        have hi' : i < (rpsOf st.p.creds).length := by rw [hc]; exact hi
        have : (rpsOf ({ st with v := { st.v with sp := { st.v.sp.clearTimer st.env.now with
            cmd := some (.enumerateRps (i + 1)) } } } : St).p.creds)[i]? = some (rpsOf st.p.creds)[i] :=
          List.getElem?_eq_getElem hi'
        rw [this] at hr
        simp [req, bind_def, M.bind, M.pure] at hr
  cases hx : (cmRpsNext st).1 <;> simp
  exact fun h => key (by rw [hx, h])

/-- **C31**, relying parties. After a successful request to enumerate the relying parties on the channel `ch`, followed by
requests for the next one, all successful, and inputs other than CTAP2 requests: the responses name different relying
parties, those of the stored credentials, with the hash of their names; the first response announces their number. If all of
them were named, or after 30 s, or on another channel, the next request fails; before, it is not refused. -/
theorem C31_relying_parties {a : CmParams} {r : Response} {rs : List Response} {s1 : St} (ha : a.sub = .rpsBegin)
    (h : Served P ch (.credMgmt a) s r s1) (hn : Continued P ch isNextRp s1 rs s') :
    ∃ (first : Bytes) (used left : List Bytes) (q : CmResponse) (qs : List CmResponse) (t : Nat),
      r = .credMgmt (some q) ∧ rs = qs.map (fun q => .credMgmt (some q)) ∧
      DescribesRp (some (first :: used ++ left).length) first q ∧ EachOf (DescribesRp none) used qs ∧
      (first :: used ++ left).Nodup ∧ (∀ x, x ∈ first :: used ++ left ↔ ∃ c ∈ s.stored, c.rpId = x) ∧
      s.env.now ≤ t ∧ t ≤ s1.env.now ∧
      ∀ (a' : CmParams) o, a'.sub = .rpsNext →
        (left ≠ [] → s'.env.now < t + 30000 → (processParsed (.credMgmt a') ch (s'.withOracle o)).1 ≠ .err .notAllowed) ∧
        ∀ ch' r', left = [] ∨ t + 30000 ≤ s'.env.now ∨ ch' ≠ ch →
          (processParsed (.credMgmt a') ch' (s'.withOracle o)).1 ≠ .ok r' := by
  obtain ⟨o, s2, _, h1, hv, hp, ht⟩ := h.elim
  obtain ⟨q, rp, rest, t, rfl, hE, hq, t1, t2, hA, hcr, cid, rfl⟩ := rps_begin ha h1
  have key := hn.induct (J := fun rs s' => ∃ (used left : List Bytes) (qs : List CmResponse),
      rest = used ++ left ∧ rs = qs.map (fun q => .credMgmt (some q)) ∧ EachOf (DescribesRp none) used qs ∧
      ((left = [] ∧ s'.v.sp = .cleared) ∨ Running t (.main cid) (.enumerateRps (used.length + 1)) s'.v.sp) ∧
      s'.p.creds = s.p.creds)
    ⟨[], rest, [], rfl, rfl, trivial, by rw [hv]; exact hA, by rw [hp]; exact hcr⟩
    (by
      rintro rs s3 o cmd r s4 s5 ⟨used, left, qs, rfl, rfl, e1, e2, e3⟩ hc hpp hv' hp' _
      cases cmd with
      | credMgmt a' =>
        obtain ⟨q', rp', rfl, b1, b2, b3, b4⟩ := rps_next hc (e2.imp (·.2) id) hpp
        rw [e3, hE] at b1
        cases left with
        | nil => simp at b1
        | cons x left =>
          simp at b1
          subst b1
          refine ⟨used ++ [x], left, qs ++ [q'], by simp, by simp, e1.append ⟨b2, trivial⟩, .inr ?_, by rw [hp', b4, e3]⟩
          rw [hv', List.length_append]
          exact b3
      | _ => exact hc.elim)
    (by
      rintro rs s3 s4 ⟨used, left, qs, b1, b2, b3, b4, b5⟩ c1 c2 _
      exact ⟨used, left, qs, b1, b2, b3, by rw [c1]; exact b4, by rw [c2]; exact b5⟩)
  obtain ⟨used, left, qs, rfl, rfl, e1, e2, e3⟩ := key
  rw [hE] at hq
  refine ⟨rp, used, left, q, qs, t, rfl, rfl, hq, e1, (by have := rpsOf_nodup s.p.creds; rw [hE] at this; exact this), fun x => ?_, t1, Nat.le_trans t2 ht,
    fun a' o' ha' => ⟨fun hne hlt => ?_, fun ch' r' hor hok => ?_⟩⟩
  · have := mem_rpsOf (l := s.p.creds) (x := x)
    rw [hE] at this
    rw [List.cons_append, this]
    constructor
    · rintro ⟨e, h1, h2⟩
      exact ⟨e.2, List.mem_map.2 ⟨e, h1, rfl⟩, h2⟩
    · rintro ⟨c, h1, h2⟩
      obtain ⟨e, h3, rfl⟩ := List.mem_map.1 h1
      exact ⟨e, h3, h2⟩
  · rcases e2 with ⟨e2, _⟩ | e2
    · exact absurd e2 hne
    · refine rps_go ha' e2 o' ?_ hlt
      rw [e3, hE]
      have : 0 < left.length := List.length_pos_iff.2 hne
      simp
      omega
  · obtain ⟨s4, hok⟩ : ∃ s4, processParsed (.credMgmt a') ch' (s'.withOracle o') = (.ok r', s4) := ⟨_, Prod.ext hok rfl⟩
    obtain ⟨⟨cid', rfl⟩, hok⟩ := processParsed_ok hok (by simp)
    have hok' : credentialManagement a' (.main cid') _ = (.ok r', s4) := hok
    rw [credMgmt_eq] at hok'
    obtain ⟨q', rfl, h'⟩ := cmRest_next ha' hok'
    obtain ⟨j, rp', g1, g2, _⟩ := cmRpsNext_ok h'
    obtain ⟨_, g4, _, g5, g6⟩ := cmStart_sp (s := s'.withOracle o') g1
    have g4 : s'.v.sp.cmd = _ := g4
    have g2 : (rpsOf s'.p.creds)[j]? = _ := g2
    have g6 : Verif.Hid.Timer.isElapsed s'.v.sp.timer s'.env.now = false := g6
    rcases e2 with ⟨_, e2⟩ | e2
    · rw [e2] at g4; cases g4
    · rcases hor with rfl | hor | hor
      · rw [e2] at g4
        cases g4
        rw [e3, hE] at g2
        simp at g2
      · rw [e2] at g6
        simp [makeTimer, Verif.Hid.Timer.isElapsed] at g6
        omega
      · exact hor (g5 _ (congrArg StatefulPerm.channel e2)).symm

/-! ## Credentials -/

theorem describes_of {c : Cred} {total : Option Nat} {q : CmResponse} (h : credResponse c total = .ok q) :
    DescribesCred total c q := by
  unfold credResponse at h
  cases hk : pubKey c.sk with
  | error e => rw [hk] at h; cases h
  | ok k => rw [hk] at h; cases h; exact ⟨k, hk, rfl⟩

theorem cmCredsNext_ok {q : CmResponse} (h : cmCredsNext s = (.ok q, s')) :
    ∃ keys k c, (s.v.sp.clearTimer s.env.now).cmd = some (.enumerateCredentials (keys ++ [k])) ∧ (k, c) ∈ s.p.creds ∧
      DescribesCred none c q ∧ s'.v.sp = { s.v.sp.clearTimer s.env.now with cmd := some (.enumerateCredentials keys) } ∧
      s'.p.creds = s.p.creds := by
  simp only [cmCredsNext, bind_ok, liftE_ok] at h
  obtain ⟨k, s1, h1, c, s2, h2, h3, rfl⟩ := h
  obtain ⟨h8, mk, h9⟩ := getCredential_ok h2
  simp only [nextEnumerateCredential, bind_ok] at h1
  obtain ⟨x, s4, h4, h5⟩ := h1
  obtain ⟨rfl, rfl⟩ := getCommand_ok h4
  cases hcmd : (s.v.sp.clearTimer s.env.now).cmd with
  | none => simp [hcmd, fail] at h5
  | some c' =>
    cases c' with
    | enumerateCredentials keys =>
      simp only [hcmd, bind_ok, req_ok, modSp, modV_ok, pure_ok] at h5
      obtain ⟨k', _, ⟨h6, rfl⟩, _, _, rfl, rfl, rfl⟩ := h5
      obtain ⟨ys, hys⟩ := List.getLast?_eq_some_iff.1 h6
      subst hys
      refine ⟨ys, k', c, rfl, h8, describes_of h3, ?_, by rw [h9.creds]⟩
      rw [h9.v]
      simp
    | _ => simp [hcmd, fail] at h5

theorem cmRest_nextCred {a : CmParams} {r : Response} (ha : a.sub = .credsNext) (h : cmRest a ch s = (.ok r, s')) :
    ∃ q, r = .credMgmt (some q) ∧ cmCredsNext s = (.ok q, s') := by
  simp only [cmRest, ha, cmDispatch, CmSub.needsToken, bind_ok, pure_ok, whenM_ok] at h
  obtain ⟨_, _, ⟨h, _⟩ | ⟨_, rfl⟩, _, _, ⟨q, _, h1, rfl, rfl⟩, rfl, rfl⟩ := h
  · cases h
  · exact ⟨q, rfl, h1⟩

/-- The state after a successful begin. -/
theorem creds_begin {a : CmParams} {o : Oracle} {r : Response} (hr : Reach P true s) (ha : a.sub = .credsBegin)
    (h : processParsed (.credMgmt a) ch (s.withOracle o) = (.ok r, s')) :
    ∃ (q : CmResponse) (p : CmSubParams) (hash : Bytes) (l es : List (Nat × Cred)) (last : Nat × Cred) (t : Nat),
      a.params = some p ∧ p.rpIdHash = some hash ∧ r = .credMgmt (some q) ∧ l.Perm s.p.creds ∧
      es ++ [last] = l.filter (fun e => Dev.sha256 e.2.rpId == hash) ∧
      DescribesCred (some (es.length + 1)) last.2 q ∧ s.env.now ≤ t ∧ t ≤ s'.env.now ∧
      ((es = [] ∧ s'.v.sp = .cleared) ∨ Running t ch (.enumerateCredentials (es.map (·.1))) s'.v.sp) ∧
      s'.p.creds = s.p.creds ∧ ∃ cid, ch = .main cid := by
  obtain ⟨⟨cid, rfl⟩, h⟩ := processParsed_ok h (by simp)
  have h : credentialManagement a (.main cid) _ = (.ok r, s') := h
  rw [credMgmt_eq] at h
  simp only [cmRest, ha, cmDispatch, CmSub.needsToken, bind_ok, pure_ok, whenM_ok, req_ok] at h
  obtain ⟨_, s1, ⟨_, h1⟩ | ⟨h0, _⟩, _, _, ⟨p, _, ⟨hp, rfl⟩, q, _, h3, rfl, rfl⟩, rfl, rfl⟩ := h
  · obtain ⟨rfl, _⟩ := cmAuth_ok h1
    simp only [cmCredsBegin, bind_ok, req_ok, liftE_ok] at h3
    obtain ⟨hash, _, ⟨hh, rfl⟩, _, s2, h2, l, s3, h4, k, _, ⟨hk, rfl⟩, c, s4, h5, _, s5, h6, h7, rfl⟩ := h3
    obtain ⟨rfl, _⟩ := noOrHash_ok h2
    obtain ⟨hperm, _⟩ := iterCredentials_ok h4
    have hc0 : (cmStart a (prelude (.credMgmt a) (.main cid) (s.withOracle o))).p.creds = s.p.creds := rfl
    have hsp0 : (cmStart a (prelude (.credMgmt a) (.main cid) (s.withOracle o))).v.sp = .cleared := by
      simp [cmStart, ha, cmKeeps]
    rw [hc0] at hperm
    obtain ⟨e4, c4⟩ := keepSp h4
    obtain ⟨e5, c5⟩ := keepSp h5
    obtain ⟨hmem, mk, _⟩ := getCredential_ok h5
    rw [c4, hc0] at hmem
    have hcr := credsOk_reach hr
    generalize hE : l.filter (fun e => Dev.sha256 e.2.rpId == hash) = E at *
    have hK : keysOfRpHash hash l = E.map (·.1) := by rw [keysOfRpHash, hE]
    rw [hK] at hk h6 h7
    rw [List.getLast?_map, Option.map_eq_some_iff] at hk
    obtain ⟨last, hlast, rfl⟩ := hk
    obtain ⟨es, rfl⟩ := List.getLast?_eq_some_iff.1 hlast
    have hin : last ∈ s.p.creds := by
      rw [← hperm.mem_iff]
      exact (List.mem_filter.1 (hE ▸ (by simp : last ∈ es ++ [last]))).1
    have : last = (last.1, c) := hcr.key hin hmem rfl
    have hlc : c = last.2 := by rw [this]
    subst hlc
    refine ⟨q, p, hash, l, es, last, s4.env.now, hp, hh, rfl, hperm, hE.symm, ?_,
      Nat.le_trans (late (s := cmStart a (prelude (.credMgmt a) (.main cid) (s.withOracle o))) h4) (late h5), late h6, ?_, ?_, _, rfl⟩
    · simpa using describes_of h7
    · rw [whenM_ok] at h6
      rcases h6 with ⟨_, h6⟩ | ⟨h6, rfl⟩
      · simp only [setCommand, bind_ok, clock_ok, modSp, modV_ok] at h6
        obtain ⟨_, _, ⟨rfl, rfl⟩, rfl⟩ := h6
        refine .inr ?_
        simp [Running]
      · refine .inl ⟨?_, by rw [e5, e4, hsp0]⟩
        simpa using h6
    · rw [keepCreds h6, c5, c4, hc0]
  · cases h0

theorem creds_next {a : CmParams} {o : Oracle} {r : Response} {t : Nat} {es : List (Nat × Cred)}
    (hc : CredsOk s.p.creds) (hes : ∀ e ∈ es, e ∈ s.p.creds) (ha : a.sub = .credsNext)
    (hA : s.v.sp = .cleared ∨ Running t ch (.enumerateCredentials (es.map (·.1))) s.v.sp)
    (h : processParsed (.credMgmt a) ch (s.withOracle o) = (.ok r, s')) :
    ∃ q es' e, r = .credMgmt (some q) ∧ es = es' ++ [e] ∧ DescribesCred none e.2 q ∧
      Running t ch (.enumerateCredentials (es'.map (·.1))) s'.v.sp ∧ s'.p.creds = s.p.creds := by
  obtain ⟨⟨cid, rfl⟩, h⟩ := processParsed_ok h (by simp)
  have h : credentialManagement a (.main cid) _ = (.ok r, s') := h
  rw [credMgmt_eq] at h
  obtain ⟨q, rfl, h'⟩ := cmRest_nextCred ha h
  obtain ⟨keys, k, c, h1, h2, h3, h4, h5⟩ := cmCredsNext_ok h'
  obtain ⟨e1, e2, _, _, _⟩ := cmStart_sp (s := s.withOracle o) h1
  have e2 : s.v.sp.cmd = _ := e2
  rcases hA with hA | hA
  · rw [hA] at e2; cases e2
  · rw [hA] at e2
    have e6 := Stateful.enumerateCredentials.inj (Option.some.inj e2)
    have hne : es ≠ [] := by rintro rfl; simp at e6
    obtain ⟨es', e, hes'⟩ := List.eq_nil_or_concat es |>.resolve_left hne
    rw [List.concat_eq_append] at hes'
    subst hes'
    rw [List.map_append, List.map_cons, List.map_nil] at e6
    obtain ⟨rfl, e3⟩ := List.append_inj' e6 rfl
    simp only [List.cons.injEq, and_true] at e3
    subst e3
    have h2 : (e.1, c) ∈ s.p.creds := h2
    have : e = (e.1, c) := hc.key (hes e (by simp)) h2 rfl
    have hlc : c = e.2 := by rw [this]
    subst hlc
    have e1 : (cmStart a (prelude (.credMgmt a) (.main cid) (s.withOracle o))).v.sp.clearTimer s.env.now = s.v.sp := e1
    refine ⟨q, es', e, rfl, rfl, h3, ?_, h5⟩
    rw [h4]
    show ({ (cmStart a (prelude (.credMgmt a) (.main cid) (s.withOracle o))).v.sp.clearTimer s.env.now with cmd := _ } :
      StatefulPerm) = _
    rw [e1, hA]

theorem credsNext_run {keys : List Nat} {k : Nat}
    (h : (s.v.sp.clearTimer s.env.now).cmd = some (.enumerateCredentials (keys ++ [k]))) :
    (nextEnumerateCredential s).1 = .ok k := by
  simp only [nextEnumerateCredential, bind_def, M.bind, getCommand_run, h]
  simp [req, M.pure, modSp, modV]

theorem cmRest_credsNext {a : CmParams} (ha : a.sub = .credsNext) (s : St) :
    (cmRest a ch s).1 = (match (cmCredsNext s).1 with
      | .ok q => .ok (.credMgmt (some q)) | .err e => .err e | .panic => .panic | .crash => .crash) := by
  simp only [cmRest, ha, cmDispatch, CmSub.needsToken, bind_def, M.bind, M.pure, whenM, Bool.false_eq_true, if_false]
  rcases cmCredsNext s with ⟨r, t⟩
  cases r <;> rfl

theorem credResponse_ne {c : Cred} {n : Option Nat} : credResponse c n ≠ .error .notAllowed := by
  unfold credResponse pubKey
  cases Dev.ecdsaPub c.sk <;> simp

/-- While credentials are left, the next request is not refused. -/
theorem creds_go {a : CmParams} {t : Nat} {keys : List Nat} {cid : Bytes} (ha : a.sub = .credsNext)
    (hA : Running t (.main cid) (.enumerateCredentials keys) s.v.sp) (o : Oracle) (hi : keys ≠ [])
    (ht : s.env.now < t + 30000) : (processParsed (.credMgmt a) (.main cid) (s.withOracle o)).1 ≠ .err .notAllowed := by
  rw [processParsed_eq]
  show (credentialManagement a _ _).1 ≠ _
  rw [credMgmt_eq]
  have hsp := running_start (a := a) (s := s.withOracle o) hA (by rw [ha]; rfl) rfl ht
  rw [cmRest_credsNext ha]
  generalize hst : cmStart a (prelude (.credMgmt a) (.main cid) (s.withOracle o)) = st
  rw [hst] at hsp
  have hn : st.env.now = s.env.now := by rw [← hst]; rfl
  obtain ⟨keys', k, hk⟩ := List.eq_nil_or_concat keys |>.resolve_left hi
  rw [List.concat_eq_append] at hk
  subst hk
  have hcmd : (st.v.sp.clearTimer st.env.now).cmd = some (.enumerateCredentials (keys' ++ [k])) := by
    rw [hn]; exact (congrArg StatefulPerm.cmd hsp).trans (congrArg StatefulPerm.cmd hA)
  have key : (cmCredsNext st).1 ≠ .err .notAllowed := by
    intro hr
    unfold cmCredsNext at hr
    rcases bind_err.1 (Prod.ext hr rfl) with hr | ⟨j, s1, h1, hr⟩
    · have := credsNext_run hcmd
      rw [hr] at this; cases this
    · rcases bind_err.1 hr with hr | ⟨c, s2, h2, hr⟩
      · exact (Av.elim (H := AnySt) (by av) trivial hr).elim
      · cases hc : credResponse c none with
        | ok q => rw [hc] at hr; cases hr
        | error e => rw [hc] at hr; cases hr; exact credResponse_ne hc
  cases hx : (cmCredsNext st).1 <;> simp
  exact fun h => key (by rw [hx, h])

/-- **C31**, credentials. After a successful request to enumerate the credentials of a relying party on the channel `ch`,
followed by requests for the next one, all successful, and inputs other than CTAP2 requests: the responses describe different
credentials, those stored for a relying party with the requested hash; the first response announces their number. If all of
them were described, or after 30 s, or on another channel, the next request fails; before, it is not refused. -/
theorem C31_credentials {a : CmParams} {r : Response} {rs : List Response} {s1 : St} (hr : Reach P true s)
    (ha : a.sub = .credsBegin) (h : Served P ch (.credMgmt a) s r s1) (hn : Continued P ch isNextCred s1 rs s') :
    ∃ (hash : Bytes) (first : Cred) (used left : List Cred) (q : CmResponse) (qs : List CmResponse) (t : Nat),
      (∃ p, a.params = some p ∧ p.rpIdHash = some hash) ∧
      r = .credMgmt (some q) ∧ rs = qs.map (fun q => .credMgmt (some q)) ∧
      DescribesCred (some (first :: used ++ left).length) first q ∧ EachOf (DescribesCred none) used qs ∧
      (first :: used ++ left).Nodup ∧ (∀ c, c ∈ first :: used ++ left ↔ c ∈ s.stored ∧ Dev.sha256 c.rpId = hash) ∧
      s.env.now ≤ t ∧ t ≤ s1.env.now ∧
      ∀ (a' : CmParams) o, a'.sub = .credsNext →
        (left ≠ [] → s'.env.now < t + 30000 → (processParsed (.credMgmt a') ch (s'.withOracle o)).1 ≠ .err .notAllowed) ∧
        ∀ ch' r', left = [] ∨ t + 30000 ≤ s'.env.now ∨ ch' ≠ ch →
          (processParsed (.credMgmt a') ch' (s'.withOracle o)).1 ≠ .ok r' := by
  have hc := credsOk_reach hr
  obtain ⟨o, s2, _, h1, hv, hp, ht⟩ := h.elim
  obtain ⟨q, p, hash, l, es, last, t, hpa, hph, rfl, hperm, hE, hq, t1, t2, hA, hcr, cid, rfl⟩ := creds_begin hr ha h1
  have hsub : ∀ e, e ∈ es ++ [last] ↔ e ∈ s.p.creds ∧ Dev.sha256 e.2.rpId = hash := by
    intro e
    rw [hE, List.mem_filter, hperm.mem_iff, beq_iff_eq]
  have key := hn.induct (J := fun rs s' => ∃ (left done : List (Nat × Cred)) (qs : List CmResponse),
      es = left ++ done ∧ rs = qs.map (fun q => .credMgmt (some q)) ∧
      EachOf (DescribesCred none) (done.reverse.map (·.2)) qs ∧
      ((left = [] ∧ s'.v.sp = .cleared) ∨ Running t (.main cid) (.enumerateCredentials (left.map (·.1))) s'.v.sp) ∧
      s'.p.creds = s.p.creds)
    ⟨es, [], [], by simp, rfl, trivial, by rw [hv]; exact hA, by rw [hp]; exact hcr⟩
    (by
      rintro rs s3 o cmd r s4 s5 ⟨left, done, qs, rfl, rfl, e1, e2, e3⟩ hcm hpp hv' hp' _
      cases cmd with
      | credMgmt a' =>
        obtain ⟨q', left', e, rfl, rfl, b2, b3, b4⟩ := creds_next (es := left) (by rw [e3]; exact hc)
          (fun x hx => by rw [e3]; exact ((hsub x).1 (by simp [hx])).1) hcm (e2.imp (·.2) id) hpp
        refine ⟨left', e :: done, qs ++ [q'], by simp, by simp, ?_, .inr (by rw [hv']; exact b3), by rw [hp', b4, e3]⟩
        rw [List.reverse_cons, List.map_append]
        exact e1.append ⟨b2, trivial⟩
      | _ => exact hcm.elim)
    (by
      rintro rs s3 s4 ⟨used, left, qs, b1, b2, b3, b4, b5⟩ c1 c2 _
      exact ⟨used, left, qs, b1, b2, b3, by rw [c1]; exact b4, by rw [c2]; exact b5⟩)
  obtain ⟨left, done, qs, rfl, rfl, e1, e2, e3⟩ := key
  have hfull : (left ++ done ++ [last]).reverse.map (·.2) = last.2 :: done.reverse.map (·.2) ++ left.reverse.map (·.2) := by
    simp
  have hnd : ((left ++ done ++ [last]).reverse.map (·.2)).Nodup := by
    refine List.Perm.nodup_iff ((List.reverse_perm _).map _) |>.2 ?_
    rw [hE]
    exact creds_nodup ((hc.perm hperm).filter _)
  have hlen : (last.2 :: done.reverse.map (·.2) ++ left.reverse.map (·.2)).length = (left ++ done).length + 1 := by
    simp; omega
  refine ⟨hash, last.2, done.reverse.map (·.2), left.reverse.map (·.2), q, qs, t, ⟨p, hpa, hph⟩, rfl, rfl, by rw [hlen]; exact hq,
    e1, hfull ▸ hnd, fun c => ?_, t1, Nat.le_trans t2 ht, fun a' o' ha' => ⟨fun hne hlt => ?_, fun ch' r' hor hok => ?_⟩⟩
  · rw [← hfull]
    simp only [List.mem_map, List.mem_reverse, St.stored]
    constructor
    · rintro ⟨e, h1, rfl⟩
      obtain ⟨h2, h3⟩ := (hsub e).1 h1
      exact ⟨⟨e, h2, rfl⟩, h3⟩
    · rintro ⟨⟨e, h1, rfl⟩, h3⟩
      exact ⟨e, (hsub e).2 ⟨h1, h3⟩, rfl⟩
  · rcases e2 with ⟨rfl, _⟩ | e2
    · exact absurd rfl hne
    · exact creds_go ha' e2 o' (by simpa using hne) hlt
  · obtain ⟨s4, hok⟩ : ∃ s4, processParsed (.credMgmt a') ch' (s'.withOracle o') = (.ok r', s4) := ⟨_, Prod.ext hok rfl⟩
    obtain ⟨⟨cid', rfl⟩, hok⟩ := processParsed_ok hok (by simp)
    have hok' : credentialManagement a' (.main cid') _ = (.ok r', s4) := hok
    rw [credMgmt_eq] at hok'
    obtain ⟨q', rfl, h'⟩ := cmRest_nextCred ha' hok'
    obtain ⟨keys, k, c', g1, _⟩ := cmCredsNext_ok h'
    obtain ⟨_, g4, _, g5, g6⟩ := cmStart_sp (s := s'.withOracle o') g1
    have g4 : s'.v.sp.cmd = _ := g4
    have g6 : Verif.Hid.Timer.isElapsed s'.v.sp.timer s'.env.now = false := g6
    rcases e2 with ⟨_, e2⟩ | e2
    · rw [e2] at g4; cases g4
    · rcases hor with h0 | hor | hor
      · rw [e2] at g4
        have := Stateful.enumerateCredentials.inj (Option.some.inj g4)
        have h0 : left = [] := by simpa using h0
        subst h0
        simp at this
      · rw [e2] at g6
        simp [makeTimer, Verif.Hid.Timer.isElapsed] at g6
        omega
      · exact hor (g5 _ (congrArg StatefulPerm.channel e2)).symm

/-! ## Authorisation -/

theorem mgmtVerified {a : CmParams} {o : Oracle} (hr : Reach P true s)
    (h : ∃ param pr msg, a.authParam = some param ∧ a.authProto = some pr ∧ cmMessage a = some msg ∧
      Authorised 0x04 pr msg param (prelude (.credMgmt a) ch (s.withOracle o)).v.pin) : MgmtVerified a s := by
  obtain ⟨param, pr, msg, h1, h2, h3, h4⟩ := h
  obtain ⟨_, _, new, t, perms, r, a3, a4, a5, a6, _⟩ := tok_issued (tokGood_reach hr) (by simp) h4
  refine ⟨⟨pr, param, msg, h2, h1, h3, ?_⟩, new, t, perms, r, a3, a4, a5, fun hc => ?_⟩
  · have := h4.mac
    revert this
    cases pr <;> exact id
  · have := a6 hc
    revert this; decide

/-- **C30**, begin and change: a request for credential management, other than one to continue an enumeration, is
authenticated, or it gets no data and changes neither the storage nor the history. -/
theorem C30_authorised {a : CmParams} {o : Oracle} {res : Res Response} (hr : Reach P true s)
    (h : processParsed (.credMgmt a) ch (s.withOracle o) = (res, s')) (h1 : a.sub ≠ .rpsNext) (h2 : a.sub ≠ .credsNext) :
    MgmtVerified a s ∨ ((∀ r, res ≠ .ok r) ∧ s'.p = s.p ∧ s'.log = s.log) := by
  have hnt : a.sub.needsToken = true := by cases hs : a.sub <;> first | rfl | exact absurd hs h1 | exact absurd hs h2
  rw [processParsed_eq] at h
  cases ch with
  | vendor c =>
    simp only [channelCommand, vendorChannelCommand, fail, Prod.mk.injEq] at h
    obtain ⟨rfl, rfl⟩ := h
    exact .inr ⟨by simp, rfl, rfl⟩
  | main cid =>
    have h : credentialManagement a (.main cid) _ = _ := h
    rw [credMgmt_eq] at h
    generalize hst : cmStart a (prelude (.credMgmt a) (.main cid) (s.withOracle o)) = st at h
    simp only [cmRest, whenM, hnt, if_true] at h
    rcases hm : cmAuth a st with ⟨x, st'⟩
    cases x with
    | ok u =>
      obtain ⟨_, h3⟩ := cmAuth_ok hm
      rw [← hst] at h3
      exact .inl (mgmtVerified (ch := .main cid) (o := o) hr h3)
    | _ =>
      have hp := keepP hm
      have hl := keepLog hm
      rw [← hst] at hp hl
      simp only [bind_def, M.bind, hm, Prod.mk.injEq] at h
      obtain ⟨rfl, rfl⟩ := h
      exact .inr ⟨by simp, hp, hl⟩

/-- The credentials of other relying parties. -/
def Elsewhere (rp : Bytes) (l : List Cred) (s : St) : Prop := s.storedElsewhere rp = l

section
variable (rp : Bytes) (l : List Cred)
instance : SEnv (Elsewhere rp l) := ⟨fun _ _ _ _ h => h⟩
stable_instances (Elsewhere rp l) under SMaster SMinPin SRpIds SForce SEp SAlwaysUv SLargeBlob SPin SRetries STok SMis SKeys SU2f SLb SSp
  SPresence SCompare SIssued SConsumed SU2fPrompt SU2fConsume SU2fTouch SCounterEv SCounter
end

theorem elsewhere_del {rp : Bytes} {creds : List (Nat × Cred)} {e : Nat × Cred} (hc : CredsOk creds) (he : e ∈ creds)
    (hrp : e.2.rpId = rp) :
    ((creds.filter fun x => x.1 != e.1).map (·.2)).filter (fun c => c.rpId != rp) =
      (creds.map (·.2)).filter fun c => c.rpId != rp := by
  rw [List.filter_map, List.filter_map, List.filter_filter]
  congr 1
  refine List.filter_congr fun x hx => ?_
  by_cases hk : x = e
  · subst hk; simp [hrp]
  · have : x.1 ≠ e.1 := fun h => hk (hc.key hx he h)
    simp [this]

/-- The check of the relying party. -/
theorem checkRp_ok {id rp : Bytes} (h : checkRpIdPermissions id s = (.ok u, s')) (hb : s.v.pin.tok.rpId = some rp) :
    ∃ y, s.p.creds.filter (fun e => e.2.id == id) = [y] ∧ y.2.rpId = rp ∧ s'.p.creds = s.p.creds ∧ s'.v = s.v := by
  have hv := keepV h
  have hcr := keepCreds h
  simp only [checkRpIdPermissions, bind_ok, getV_ok] at h
  obtain ⟨v, _, ⟨rfl, rfl⟩, hd⟩ := h
  rw [hb] at hd
  simp only [Option.isNone_some, Bool.false_eq_true, if_false, bind_ok, hasNoOrRpIdPermission, getV_ok, guardE_ok] at hd
  obtain ⟨y, s4, hy, v, _, ⟨rfl, rfl⟩, hd, rfl⟩ := hd
  obtain ⟨hf, mk, e', _, _, _, rfl⟩ := findItem_ok hy
  dsimp only at hd
  rw [hb] at hd
  have hrp : rp = y.2.rpId := by simpa using hd
  exact ⟨y, hf, hrp.symm, hcr, hv⟩

theorem bind_keep {I : St → Prop} {m : M α} {f : α → M β} [h1 : Pres I m] (h : I s)
    (h2 : ∀ a s1, m s = (.ok a, s1) → I s1 → I (f a s1).2) : I ((m >>= f) s).2 :=
  bind_snd (h1.out s h) fun a s1 hm => h2 a s1 hm (by have := h1.out s h; rwa [hm] at this)

theorem cmDelete_elsewhere {p : CmSubParams} {rp : Bytes} (hc : CredsOk s.p.creds) (hb : s.v.pin.tok.rpId = some rp) :
    Elsewhere rp (s.storedElsewhere rp) (cmDelete p s).2 := by
  unfold cmDelete
  refine bind_keep rfl fun d s1 h1 _ => ?_
  rw [req_ok] at h1
  obtain ⟨_, rfl⟩ := h1
  refine bind_keep rfl fun _ s1 h1 hI => ?_
  obtain ⟨y, h2, h3, h4, h5⟩ := checkRp_ok h1 hb
  unfold deleteCredential
  refine bind_keep hI fun z s2 h6 hI => ?_
  obtain ⟨h7, mk, e, _, _, _, rfl⟩ := findItem_ok h6
  rw [h4, h2] at h7
  cases h7
  have hy := (findItem_mem h2).1
  rcases writeP_snd (fun p => p.delCred y.1) [] _ with h | h <;> rw [h]
  · exact hI
  · unfold Elsewhere St.storedElsewhere St.stored
    show ((s1.p.creds.filter fun x => x.1 != y.1).map (·.2)).filter _ = _
    rw [h4]
    exact elsewhere_del hc hy h3

theorem cmUpdate_elsewhere {p : CmSubParams} {rp : Bytes} (hc : CredsOk s.p.creds) (hb : s.v.pin.tok.rpId = some rp) :
    Elsewhere rp (s.storedElsewhere rp) (cmUpdate p s).2 := by
  unfold cmUpdate
  refine bind_keep rfl fun d s1 h1 _ => ?_
  rw [req_ok] at h1
  obtain ⟨_, rfl⟩ := h1
  refine bind_keep rfl fun u s1 h1 _ => ?_
  rw [req_ok] at h1
  obtain ⟨_, rfl⟩ := h1
  refine bind_keep rfl fun _ s1 h1 hI => ?_
  obtain ⟨y, h2, h3, h4, h5⟩ := checkRp_ok h1 hb
  unfold updateCredential
  refine bind_keep hI fun z s2 h6 hI => ?_
  obtain ⟨h7, mk, e, _, _, _, rfl⟩ := findItem_ok h6
  rw [h4, h2] at h7
  cases h7
  have hy := (findItem_mem h2).1
  refine bind_keep hI fun z s2 h6 hI => ?_
  have k1 := keepCreds h6
  refine bind_keep hI fun z s3 h6 hI => ?_
  have k2 := keepCreds h6
  rcases writeP_snd (fun p => p.putCred y.1 { y.2 with userName := u.name, userDisplayName := u.displayName, userIcon := u.icon }) [] s3 with h | h <;> rw [h]
  · exact hI
  · unfold Elsewhere St.storedElsewhere St.stored
    show (((_, _) :: (s3.p.creds.filter fun x => x.1 != y.1)).map (·.2)).filter _ = _
    rw [k2, k1]
    show (((_, _) :: (s1.p.creds.filter fun x => x.1 != y.1)).map (·.2)).filter _ = _
    rw [h4, List.map_cons, List.filter_cons_of_neg (by simp [h3])]
    exact elsewhere_del hc hy h3

/-- **C30**, relying party: whatever the outcome (even power loss) of a request for credential management while the token was
issued for the relying party `rp`, the credentials of other relying parties stay; what is returned is limited by
`Command.respects`. -/
theorem C30_relying_party {a : CmParams} {o : Oracle} {res : Res Response} (hr : Reach P true s) {new : List Ev} {t : Nat}
    {perms : UInt8} {rp : Bytes} (hi : LastIssued s.log new t perms (some rp))
    (h : processParsed (.credMgmt a) ch (s.withOracle o) = (res, s')) :
    s'.storedElsewhere rp = s.storedElsewhere rp ∧ ∀ r, res = .ok r → (Command.credMgmt a).respects rp s s' := by
  refine ⟨?_, fun r hres => C14_issued_for hr hi (hres ▸ h)⟩
  have hc := credsOk_reach hr
  have hb := bound_of_issued hr hi
  rw [processParsed_eq] at h
  cases ch with
  | vendor c =>
    simp only [channelCommand, vendorChannelCommand, fail, Prod.mk.injEq] at h
    obtain ⟨rfl, rfl⟩ := h
    rfl
  | main cid =>
    have h : credentialManagement a (.main cid) _ = _ := h
    rw [credMgmt_eq] at h
    suffices hs : Elsewhere rp (s.storedElsewhere rp)
        (cmRest a (.main cid) (cmStart a (prelude (.credMgmt a) (.main cid) (s.withOracle o)))).2 by rw [h] at hs; exact hs
    have h0 : Elsewhere rp (s.storedElsewhere rp) (cmStart a (prelude (.credMgmt a) (.main cid) (s.withOracle o))) := rfl
    have hc0 : CredsOk (cmStart a (prelude (.credMgmt a) (.main cid) (s.withOracle o))).p.creds := hc
    have he0 : (cmStart a (prelude (.credMgmt a) (.main cid) (s.withOracle o))).storedElsewhere rp = s.storedElsewhere rp := rfl
    unfold cmRest
    by_cases hsub : a.sub = .delete ∨ a.sub = .update
    · have hnt : a.sub.needsToken = true := by rcases hsub with h | h <;> rw [h] <;> rfl
      simp only [hnt, whenM, if_true]
      refine bind_keep h0 fun _ s1 h1 h2 => ?_
      obtain ⟨rfl, param, pr, msg, _, _, _, h4⟩ := cmAuth_ok h1
      obtain ⟨htok, hu, _⟩ := tok_issued (cmd := .credMgmt a) (ch := .main cid) (o := o) (tokGood_reach hr) (by simp) h4
      have hb' : (cmStart a (prelude (.credMgmt a) (.main cid) (s.withOracle o))).v.pin.tok.rpId = some rp := by
        show (prelude (.credMgmt a) (.main cid) (s.withOracle o)).v.pin.tok.rpId = some rp
        rw [htok]; exact hb hu
      rcases hsub with hsub | hsub
      · simp only [cmDispatch, hsub]
        have : Elsewhere rp (s.storedElsewhere rp) ((do
            let sp ← req a.params .missingParameter
            cmDelete sp
            M.pure (none : Option CmResponse)) (cmStart a (prelude (.credMgmt a) (.main cid) (s.withOracle o)))).2 := by
          refine bind_keep h0 fun sp s1 h1 _ => ?_
          rw [req_ok] at h1
          obtain ⟨_, rfl⟩ := h1
          have := cmDelete_elsewhere (p := sp) hc0 hb'
          rw [he0] at this
          exact bind_snd this fun _ s1 h => by rw [h] at this; exact this
        exact bind_snd this fun _ s1 h => by rw [h] at this; exact this
      · simp only [cmDispatch, hsub]
        have : Elsewhere rp (s.storedElsewhere rp) ((do
            let sp ← req a.params .missingParameter
            cmUpdate sp
            M.pure (none : Option CmResponse)) (cmStart a (prelude (.credMgmt a) (.main cid) (s.withOracle o)))).2 := by
          refine bind_keep h0 fun sp s1 h1 _ => ?_
          rw [req_ok] at h1
          obtain ⟨_, rfl⟩ := h1
          have := cmUpdate_elsewhere (p := sp) hc0 hb'
          rw [he0] at this
          exact bind_snd this fun _ s1 h => by rw [h] at this; exact this
        exact bind_snd this fun _ s1 h => by rw [h] at this; exact this
    · have : Pres (Elsewhere rp (s.storedElsewhere rp)) (cmDispatch a (.main cid)) := by
        unfold cmDispatch
        cases hs : a.sub with
        | delete => exact absurd (.inl hs) hsub
        | update => exact absurd (.inr hs) hsub
        | _ => dsimp only; pres
      exact Pres.out (I := Elsewhere rp (s.storedElsewhere rp)) (self := by pres) _ h0

/-- **C30**, continuation: a request to continue an enumeration succeeds only if an authenticated request began it on the same
channel at most 30 s ago and no credential was stored, changed or deleted since; a token for one relying party does not
enumerate relying parties or credentials of others. -/
theorem C30_continued {a : CmParams} {o : Oracle} {r : Response} (hr : Reach P true s)
    (h : processParsed (.credMgmt a) ch (s.withOracle o) = (.ok r, s')) (h1 : a.sub = .rpsNext ∨ a.sub = .credsNext) :
    ∃ s0 o0 a0, Processed P s s0 o0 (.credMgmt a0) ch ∧ MgmtVerified a0 s0 ∧ s0.stored = s.stored ∧
      (a.sub = .rpsNext → a0.sub = .rpsBegin ∧ s0.v.pin.tok.rpId = none) ∧
      (a.sub = .credsNext → a0.sub = .credsBegin ∧ ∃ p hash, a0.params = some p ∧ p.rpIdHash = some hash ∧
        ∀ rp, s0.v.pin.tok.rpId = some rp → hash = Dev.sha256 rp) := by
  obtain ⟨⟨cid, rfl⟩, h⟩ := processParsed_ok h (by simp)
  have h : credentialManagement a (.main cid) _ = (.ok r, s') := h
  rw [credMgmt_eq] at h
  have hg := spGood_reach hr rfl
  have htok : ∀ {a0 : CmParams} {s0 : St} {o0 : Oracle}, Reach P true s0 →
      (∃ param pr msg, a0.authParam = some param ∧ a0.authProto = some pr ∧ cmMessage a0 = some msg ∧
        Authorised 0x04 pr msg param (prelude (.credMgmt a0) (.main cid) (s0.withOracle o0)).v.pin) →
      (prelude (.credMgmt a0) (.main cid) (s0.withOracle o0)).v.pin.tok = s0.v.pin.tok := by
    intro a0 s0 o0 hr0 ⟨_, _, _, _, _, _, h4⟩
    exact (tok_issued (tokGood_reach hr0) (by simp) h4).1
  rcases h1 with ha | ha
  · obtain ⟨q, rfl, h'⟩ := cmRest_next ha h
    obtain ⟨j, rp, g1, _⟩ := cmRpsNext_ok h'
    obtain ⟨_, e2, _, e4, _⟩ := cmStart_sp (s := s.withOracle o) g1
    cases hg with
    | none hg => exact absurd (hg.symm.trans e2) (by simp)
    | reset hg => exact absurd (hg.symm.trans e2) (by simp)
    | assertion hg => exact absurd (congrArg StatefulPerm.cmd hg.symm |>.trans e2) (by simp)
    | creds hg => exact absurd (congrArg StatefulPerm.cmd hg.symm |>.trans e2) (by simp)
    | rps hsp b ti sub au un pos =>
      have e7 := e4 _ (congrArg StatefulPerm.channel hsp)
      subst e7
      refine ⟨_, _, _, b.past, mgmtVerified b.past.1 au, by unfold St.stored; rw [b.creds], fun _ => ⟨sub, ?_⟩, fun h => ?_⟩
      · rw [← htok b.past.1 au]; exact un
      · rw [ha] at h; cases h
  · obtain ⟨q, rfl, h'⟩ := cmRest_nextCred ha h
    obtain ⟨keys, k, c, g1, _⟩ := cmCredsNext_ok h'
    obtain ⟨_, e2, _, e4, _⟩ := cmStart_sp (s := s.withOracle o) g1
    cases hg with
    | none hg => exact absurd (hg.symm.trans e2) (by simp)
    | reset hg => exact absurd (hg.symm.trans e2) (by simp)
    | assertion hg => exact absurd (congrArg StatefulPerm.cmd hg.symm |>.trans e2) (by simp)
    | rps hg => exact absurd (congrArg StatefulPerm.cmd hg.symm |>.trans e2) (by simp)
    | creds hsp b ti sub au bd pa ha' =>
      have e7 := e4 _ (congrArg StatefulPerm.channel hsp)
      subst e7
      refine ⟨_, _, _, b.past, mgmtVerified b.past.1 au, by unfold St.stored; rw [b.creds], fun h => ?_,
        fun _ => ⟨sub, _, _, pa, ha', ?_⟩⟩
      · rw [ha] at h; cases h
      · rw [← htok b.past.1 au]; exact bd

end Verif.Ctap

namespace Verif.Ctap.Toy
open Verif.Cbor (Value)
set_option maxRecDepth 100000

/-- A request for credential management, authenticated by the token or not. -/
def mgmt (s : St) (sub : UInt8) (params : Option Value) (auth : Bool) : Input :=
  let p := match params with | some v => (match v.write (some 4) with | .ok b => b | .error _ => []) | none => []
  send 0x0A (map ([(.unsigned 1, .unsigned sub.toNat)] ++
    (match params with | some v => [(.unsigned 2, v)] | none => []) ++
    (if auth then [(.unsigned 3, .unsigned 1), (.unsigned 4, .bytes (tokenMac s (sub :: p)))] else [])))

/-- As `good`, with other random numbers. -/
def seed (n : Nat) : Oracle := { good with rnd := fun k i => UInt8.ofNat (k * 7 + i + n) }

/-- Three credentials at two relying parties, and a token for credential management that is not bound. -/
def managed : St :=
  step good (getTokenPerm pin 4 none) (step good (setPin pin) (step (seed 60) (register rpB [3] true none)
    (step (seed 30) (register rpA [2] true none) (step good (register rpA [1] true none) booted))))

theorem reach_managed {P : Oracle → Prop} (h : P good) (hs : ∀ n, P (seed n)) : Reach P true managed :=
  reach_step good h _ (reach_step good h _ (reach_step _ (hs 60) _ (reach_step _ (hs 30) _ (reach_step good h _
    (reach_booted h) (by decide +kernel)) (by decide +kernel)) (by decide +kernel)) (by decide +kernel)) (by decide +kernel)

/-- The response to a request for credential management. -/
def mgmtOf (i : Input) (s : St) : Option CmResponse :=
  match (runCmd (parse i) s).1 with
  | .ok (.credMgmt r) => r
  | _ => none

/-- C31: the enumeration of the two relying parties. -/
example :
    let i := mgmt managed 2 none true
    let next := mgmt managed 3 none false
    let s1 := step good i managed
    let s2 := step good next s1
    mgmtOf i managed = some { rp := some { id := rpA }, rpIdHash := some (Dev.sha256 rpA), totalRps := some 2 } ∧
    mgmtOf next s1 = some { rp := some { id := rpB }, rpIdHash := some (Dev.sha256 rpB) } ∧
    accepted good next s2 = false ∧ accepted good next (step good (.wait 30000) s1) = false ∧
    accepted good next (step good (.wait 29000) s1) = true := by decide +kernel

/-- C31: the enumeration of the two credentials of the first one. -/
example :
    let i := mgmt managed 4 (some (map [(.unsigned 1, .bytes (Dev.sha256 rpA))])) true
    let next := mgmt managed 5 none false
    let s1 := step good i managed
    let s2 := step good next s1
    ((mgmtOf i managed).map fun r => (r.user.map (·.id), r.totalCredentials)) = some (some [1], some 2) ∧
    ((mgmtOf next s1).map fun r => (r.user.map (·.id), r.totalCredentials)) = some (some [2], none) ∧
    accepted good next s2 = false := by decide +kernel

/-- C30: without authentication, or without a token, nothing is enumerated and nothing deleted. -/
example :
    let id := managed.stored.map (·.id) |>.headD []
    let del auth := mgmt managed 6
      (some (map [(.unsigned 2, map [(.text (b! "id"), .bytes id), (.text (b! "type"), .text (b! "public-key"))])])) auth
    (parse (mgmt managed 2 none false)) ≠ .getInfo ∧ accepted good (mgmt managed 2 none false) managed = false ∧
    accepted good (mgmt managed 3 none false) managed = false ∧
    accepted good (del false) managed = false ∧ (step good (del false) managed).stored = managed.stored ∧
    accepted good (del true) managed = true ∧ (step good (del true) managed).stored = managed.stored.drop 1 ∧
    accepted good (del true) (step good (.wait 30000) managed) = false := by decide +kernel

/-- C30: with a token for the other relying party, it is not deleted either. -/
example :
    let s := step good (getTokenPerm pin 4 (some rpA)) managed
    let c := (s.stored.map fun c => (c.rpId, c.id)).headD ([], [])
    let del := mgmt s 6
      (some (map [(.unsigned 2, map [(.text (b! "id"), .bytes c.2), (.text (b! "type"), .text (b! "public-key"))])])) true
    c.1 = rpB ∧ accepted good del s = false ∧ accepted good (mgmt s 2 none true) s = false ∧
    (step good del s).stored = s.stored ∧
    (∃ new t perms, LastIssued s.log new t perms (some rpA)) := by
  refine ⟨by decide +kernel, by decide +kernel, by decide +kernel, by decide +kernel, [], 76, 4, by simp,
    (step good (getTokenPerm pin 4 (some rpA)) managed).log.drop 1, by decide +kernel⟩

end Verif.Ctap.Toy
