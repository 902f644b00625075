import Verif.Ctap.AuthLemmas

/-!
# Stored credentials: slots, uniqueness, search
-/
namespace Verif.Ctap
set_option linter.unusedSectionVars false

/-- The same account: relying party and user handle. -/
def Cred.sameAccount (a b : Cred) : Prop := a.rpId = b.rpId ∧ a.userHandle = b.userHandle

instance (a b : Cred) : Decidable (a.sameAccount b) := by unfold Cred.sameAccount; infer_instance

theorem sameAccount_symm {a b : Cred} (h : a.sameAccount b) : b.sameAccount a := ⟨h.1.symm, h.2.symm⟩

variable [Dev]

/-- Valid sets of stored credentials. -/
structure CredsOk (l : List (Nat × Cred)) : Prop where
  nodup : (l.map (·.1)).Nodup
  range : ∀ e ∈ l, CREDENTIALS_START ≤ e.1 ∧ e.1 < CREDENTIALS_START + Dev.maxResidentKeys
  account : l.Pairwise fun a b => ¬ a.2.sameAccount b.2

omit [Dev] in
theorem pairwise_mem {l : List (Nat × Cred)} (h : l.Pairwise fun a b => ¬ a.2.sameAccount b.2) {x y : Nat × Cred}
    (hx : x ∈ l) (hy : y ∈ l) (hs : x.2.sameAccount y.2) : x = y := by
  induction h with
  | nil => cases hx
  | cons h1 _ ih =>
    rcases List.mem_cons.1 hx with rfl | hx' <;> rcases List.mem_cons.1 hy with rfl | hy'
    · rfl
    · exact absurd hs (h1 _ hy')
    · exact absurd (sameAccount_symm hs) (h1 _ hx')
    · exact ih hx' hy'

theorem CredsOk.uniq {l : List (Nat × Cred)} (h : CredsOk l) {x y : Nat × Cred}
    (hx : x ∈ l) (hy : y ∈ l) (hs : x.2.sameAccount y.2) : x = y := pairwise_mem h.account hx hy hs

omit [Dev] in
theorem key_uniq {l : List (Nat × Cred)} (h : (l.map (·.1)).Nodup) {x y : Nat × Cred}
    (hx : x ∈ l) (hy : y ∈ l) (hs : x.1 = y.1) : x = y := by
  induction l with
  | nil => cases hx
  | cons a l ih =>
    simp only [List.map_cons, List.nodup_cons, List.mem_map, not_exists, not_and] at h
    rcases List.mem_cons.1 hx with rfl | hx' <;> rcases List.mem_cons.1 hy with rfl | hy'
    · rfl
    · exact absurd hs.symm (h.1 _ hy')
    · exact absurd hs (h.1 _ hx')
    · exact ih h.2 hx' hy'

theorem CredsOk.key {l : List (Nat × Cred)} (h : CredsOk l) {x y : Nat × Cred}
    (hx : x ∈ l) (hy : y ∈ l) (hs : x.1 = y.1) : x = y := key_uniq h.nodup hx hy hs

theorem CredsOk.length {l : List (Nat × Cred)} (h : CredsOk l) : l.length ≤ Dev.maxResidentKeys := by
  have h1 : (l.map (·.1)).length ≤ ((List.range Dev.maxResidentKeys).map (CREDENTIALS_START + ·)).length := by
    apply h.nodup.length_le_of_subset
    intro k hk
    obtain ⟨e, he, rfl⟩ := List.mem_map.1 hk
    have := h.range e he
    exact List.mem_map.2 ⟨e.1 - CREDENTIALS_START, List.mem_range.2 (by omega), by omega⟩
  simpa using h1

theorem CredsOk.perm {l l' : List (Nat × Cred)} (h : CredsOk l) (hp : l'.Perm l) : CredsOk l' where
  nodup := (hp.map (·.1)).nodup_iff.2 h.nodup
  range := fun e he => h.range e (hp.mem_iff.1 he)
  account := (hp.pairwise_iff fun hab hba => hab (sameAccount_symm hba)).2 h.account

theorem CredsOk.filter {l : List (Nat × Cred)} (h : CredsOk l) (f : Nat × Cred → Bool) : CredsOk (l.filter f) where
  nodup := h.nodup.sublist (List.filter_sublist.map _)
  range := fun e he => h.range e ((List.mem_filter.1 he).1)
  account := h.account.sublist List.filter_sublist

/-- Putting a credential into a slot of its account, or into a free slot if the account is new. -/
theorem CredsOk.put {l : List (Nat × Cred)} (h : CredsOk l) {k : Nat} {c : Cred}
    (hk : CREDENTIALS_START ≤ k ∧ k < CREDENTIALS_START + Dev.maxResidentKeys)
    (hs : ∀ e ∈ l, e.2.sameAccount c → e.1 = k) : CredsOk ((k, c) :: l.filter fun e => e.1 != k) where
  nodup := by
    simp only [List.map_cons, List.nodup_cons]
    refine ⟨?_, (h.filter _).nodup⟩
    simp
  range := by
    intro e he
    rcases List.mem_cons.1 he with rfl | he
    · exact hk
    · exact h.range e ((List.mem_filter.1 he).1)
  account := by
    rw [List.pairwise_cons]
    refine ⟨?_, (h.filter _).account⟩
    intro e he hsa
    have he := List.mem_filter.1 he
    have := hs e he.1 (sameAccount_symm hsa)
    simp [this] at he

/-! ## The choice of a slot -/

theorem slotFold {new : Cred} {l : List (Nat × Cred)} {a b : SlotScan} (h : l.foldlM (slotStep new) a = some b) :
    (∀ k, k ∈ b.used ↔ k ∈ a.used ∨ k ∈ l.map (·.1)) ∧ b.used.length = a.used.length + l.length ∧
    (b.old = none → a.old = none ∧ ∀ e ∈ l, ¬ e.2.sameAccount new) ∧
    (∀ k, b.old = some k → a.old = some k ∧ (∀ e ∈ l, ¬ e.2.sameAccount new) ∨
      a.old = none ∧ ∃ c, (k, c) ∈ l ∧ c.sameAccount new ∧ ∀ e ∈ l, e.2.sameAccount new → e.1 = k) ∧
    (∀ e ∈ l, CREDENTIALS_START ≤ e.1 ∧ e.1 < CREDENTIALS_START + Dev.maxResidentKeys) := by
  induction l generalizing a with
  | nil =>
    simp only [List.foldlM_nil] at h
    cases h
    simp
  | cons x l ih =>
    simp only [List.foldlM_cons, Option.bind_eq_bind, Option.bind_eq_some_iff] at h
    obtain ⟨a1, h1, h2⟩ := h
    obtain ⟨i1, i2, i3, i4, i5⟩ := ih h2
    unfold slotStep at h1
    split at h1
    · cases h1
    rename_i hr
    have hr' : CREDENTIALS_START ≤ x.1 ∧ x.1 < CREDENTIALS_START + Dev.maxResidentKeys := by
      constructor
      · apply Nat.le_of_not_lt; exact fun h => hr (.inl h)
      · apply Nat.lt_of_not_le; exact fun h => hr (.inr (.inl h))
    split at h1
    · rename_i hs
      split at h1
      · cases h1
      · rename_i ho
        cases h1
        refine ⟨?_, ?_, ?_, ?_, ?_⟩
        · intro k; rw [i1]; simp only [List.mem_cons, List.map_cons]; constructor
          · rintro ((h | h) | h) <;> simp [h]
          · rintro (h | h | h) <;> simp [h]
        · rw [i2]; simp; omega
        · intro hn; have := (i3 hn).1; simp at this
        · intro k hk
          rcases i4 k hk with ⟨h1, h2⟩ | ⟨h1, h2⟩
          · simp only [Option.some.injEq] at h1
            right
            refine ⟨ho, x.2, by rw [← h1]; exact List.mem_cons_self, hs, ?_⟩
            intro e he hse
            rcases List.mem_cons.1 he with rfl | he
            · exact h1
            · exact absurd hse (h2 e he)
          · simp at h1
        · intro e he
          rcases List.mem_cons.1 he with rfl | he
          · exact hr'
          · exact i5 e he
    · rename_i hs
      cases h1
      refine ⟨?_, ?_, ?_, ?_, ?_⟩
      · intro k; rw [i1]; simp only [List.mem_cons, List.map_cons]; constructor
        · rintro ((h | h) | h) <;> simp [h]
        · rintro (h | h | h) <;> simp [h]
      · rw [i2]; simp; omega
      · intro hn
        refine ⟨(i3 hn).1, ?_⟩
        intro e he hse
        rcases List.mem_cons.1 he with rfl | he
        · exact hs hse
        · exact (i3 hn).2 e he hse
      · intro k hk
        rcases i4 k hk with ⟨h1, h2⟩ | ⟨h1, c, h2, h3, h4⟩
        · left
          refine ⟨h1, ?_⟩
          intro e he hse
          rcases List.mem_cons.1 he with rfl | he
          · exact hs hse
          · exact h2 e he hse
        · right
          refine ⟨h1, c, List.mem_cons_of_mem _ h2, h3, ?_⟩
          intro e he hse
          rcases List.mem_cons.1 he with rfl | he
          · exact absurd hse hs
          · exact h4 e he hse
      · intro e he
        rcases List.mem_cons.1 he with rfl | he
        · exact hr'
        · exact i5 e he

theorem firstFree_some {used : List Nat} {k : Nat} (h : firstFree used = some k) :
    k ∉ used ∧ CREDENTIALS_START ≤ k ∧ k < CREDENTIALS_START + Dev.maxResidentKeys := by
  unfold firstFree at h
  have h1 := List.find?_some h
  have h2 := List.mem_of_find?_eq_some h
  simp only [List.mem_map, List.mem_range] at h2
  obtain ⟨i, hi, rfl⟩ := h2
  exact ⟨by simpa using h1, by omega, by omega⟩

/-- What the choice of a slot guarantees. -/
theorem chooseSlot_ok {new : Cred} {l : List (Nat × Cred)} {k : Nat} (h : chooseSlot new l = .ok k) :
    CREDENTIALS_START ≤ k ∧ k < CREDENTIALS_START + Dev.maxResidentKeys ∧
    ((∃ c, (k, c) ∈ l ∧ c.sameAccount new ∧ ∀ e ∈ l, e.2.sameAccount new → e.1 = k) ∨
     ((∀ e ∈ l, ¬ e.2.sameAccount new) ∧ k ∉ l.map (·.1) ∧ l.length < Dev.maxResidentKeys)) := by
  unfold chooseSlot at h
  cases hf : l.foldlM (slotStep new) { used := [], old := none } with
  | none => simp [hf] at h
  | some a =>
    simp only [hf] at h
    obtain ⟨i1, i2, i3, i4, i5⟩ := slotFold hf
    cases ho : a.old with
    | some k' =>
      simp only [ho, Except.ok.injEq] at h
      subst h
      rcases i4 k' ho with ⟨h1, _⟩ | ⟨_, c, h2, h3, h4⟩
      · cases h1
      · have := i5 _ h2
        exact ⟨this.1, this.2, .inl ⟨c, h2, h3, h4⟩⟩
    | none =>
      simp only [ho] at h
      split at h
      · cases h
      · rename_i hl
        cases hff : firstFree a.used with
        | none => simp [hff] at h
        | some k' =>
          simp only [hff, Except.ok.injEq] at h
          subst h
          obtain ⟨h1, h2, h3⟩ := firstFree_some hff
          refine ⟨h2, h3, .inr ⟨(i3 ho).2, ?_, ?_⟩⟩
          · rw [i1] at h1; simpa using h1
          · rw [i2] at hl; simpa using hl

/-! ## Iteration and search -/

theorem getMasterKeys_ok {mk : Bytes} {s s' : St} (h : getMasterKeys s = (.ok mk, s')) :
    mk.length = 128 ∧ s'.p = { s.p with master := some mk } ∧ s'.v = s.v ∧ s'.log = s.log ∧ s.env.Le s'.env ∧
      (s.p.master = none ∨ s.p.master = some mk) := by
  simp only [getMasterKeys, mapErr_ok, bind_ok] at h
  obtain ⟨p, s1, h1, h2⟩ := h
  obtain ⟨rfl, rfl⟩ := readP_ok h1
  cases hm : s.p.master with
  | some x =>
    simp only [hm, bind_ok, guardE_ok, pure_ok] at h2
    obtain ⟨_, _, ⟨hl, rfl⟩, rfl, rfl⟩ := h2
    exact ⟨by simpa using hl, by simp [← hm], rfl, rfl, Env.le_next _, .inr rfl⟩
  | none =>
    simp only [hm, bind_ok, pure_ok] at h2
    obtain ⟨x, s2, h3, _, s3, h4, rfl, rfl⟩ := h2
    have hl := rng_length h3
    obtain ⟨_, rfl⟩ := rng_ok h3
    have := writeP_ok h4
    subst this
    exact ⟨hl, rfl, rfl, rfl, ((Env.le_next _).next).next, .inl rfl⟩

theorem iterCredentials_ok {l : List (Nat × Cred)} {s s' : St} (h : iterCredentials s = (.ok l, s')) :
    l.Perm s.p.creds ∧ ∃ mk e, mk.length = 128 ∧ s.env.Le e ∧ (s.p.master = none ∨ s.p.master = some mk) ∧
      s' = { s with env := e, p := { s.p with master := some mk } } := by
  simp only [iterCredentials, bind_ok, effect_ok, Res.ok.injEq] at h
  obtain ⟨mk, s1, h1, p, s2, h2, _, h3, rfl⟩ := h
  obtain ⟨a1, a2, a3, a4, a5, a6⟩ := getMasterKeys_ok h1
  obtain ⟨rfl, rfl⟩ := readP_ok h2
  refine ⟨?_, mk, _, a1, a5.next.next, a6, ?_⟩
  · rw [← h3]
    refine (Oracle.shuffle_perm _ _ _).trans ?_
    rw [a2]
  · cases s1
    simp_all

theorem findItem_ok {id : Bytes} {x : Nat × Cred} {s s' : St} (h : findCredentialItem id s = (.ok x, s')) :
    s.p.creds.filter (fun e => e.2.id == id) = [x] ∧ ∃ mk e, mk.length = 128 ∧ s.env.Le e ∧
      (s.p.master = none ∨ s.p.master = some mk) ∧
      s' = { s with env := e, p := { s.p with master := some mk } } := by
  simp only [findCredentialItem, bind_ok] at h
  obtain ⟨l, s1, h1, h2⟩ := h
  obtain ⟨hp, hs⟩ := iterCredentials_ok h1
  have hpf := hp.filter fun e => e.2.id == id
  cases hf : l.filter (fun e => e.2.id == id) with
  | nil => simp [hf, fail_ok] at h2
  | cons y t =>
    cases t with
    | cons _ _ => simp [hf, fail_ok] at h2
    | nil =>
      simp only [hf, pure_ok] at h2
      obtain ⟨rfl, rfl⟩ := h2
      rw [hf] at hpf
      exact ⟨(List.perm_singleton.1 hpf.symm), hs⟩

theorem findItem_mem {id : Bytes} {x : Nat × Cred} {l : List (Nat × Cred)}
    (h : l.filter (fun e => e.2.id == id) = [x]) : x ∈ l ∧ x.2.id = id := by
  have : x ∈ l.filter (fun e => e.2.id == id) := by rw [h]; exact List.mem_singleton_self _
  have := List.mem_filter.1 this
  exact ⟨this.1, by simpa using this.2⟩

theorem findCredential_ok {rp id : Bytes} {o : Option Cred} {s s' : St} (h : findCredential rp id s = (.ok o, s')) :
    (match s.p.creds.filter (fun e => e.2.id == id) with
     | [] => o = none
     | [e] => o = if e.2.rpId = rp then some e.2 else none
     | _ => False) ∧ ∃ mk e, mk.length = 128 ∧ s.env.Le e ∧ (s.p.master = none ∨ s.p.master = some mk) ∧
      s' = { s with env := e, p := { s.p with master := some mk } } := by
  simp only [findCredential, bind_ok] at h
  obtain ⟨l, s1, h1, h2⟩ := h
  obtain ⟨hp, hs⟩ := iterCredentials_ok h1
  have hpf := hp.filter fun e => e.2.id == id
  cases hf : l.filter (fun e => e.2.id == id) with
  | nil =>
    simp only [hf, pure_ok] at h2
    rw [hf] at hpf
    rw [List.nil_perm.1 hpf]
    exact ⟨h2.1.symm, h2.2 ▸ hs⟩
  | cons y t =>
    cases t with
    | cons _ _ => simp [hf, fail_ok] at h2
    | nil =>
      simp only [hf, pure_ok] at h2
      rw [hf] at hpf
      rw [List.perm_singleton.1 hpf.symm]
      exact ⟨h2.1.symm, h2.2 ▸ hs⟩

/-- Storing a credential. -/
theorem storeCredential_ok {c : Cred} {u : Unit} {s s' : St} (h : storeCredential c s = (.ok u, s')) :
    ∃ k mk e l, l.Perm s.p.creds ∧ chooseSlot c l = .ok k ∧ mk.length = 128 ∧ s.env.Le e ∧
      (s.p.master = none ∨ s.p.master = some mk) ∧
      s' = { s with env := e, p := { s.p with master := some mk, creds := (k, c) :: s.p.creds.filter fun e => e.1 != k } } := by
  simp only [storeCredential, bind_ok, liftE_ok] at h
  obtain ⟨l, s1, h1, k, _, ⟨h2, rfl⟩, mk, s2, h3, b, s3, h4, h5⟩ := h
  obtain ⟨hp, mk0, e0, ha, hb, hc, rfl⟩ := iterCredentials_ok h1
  obtain ⟨a1, a2, a3, a4, a5, a6⟩ := getMasterKeys_ok h3
  obtain ⟨_, rfl⟩ := rng_ok h4
  have := writeP_ok h5
  subst this
  simp at a6
  subst a6
  refine ⟨k, mk0, _, l, hp, h2, ha, (hb.trans a5).next.next, hc, ?_⟩
  cases s2
  simp_all [Persist.putCred]

/-! ## The invariant -/

/-- Stored credentials are valid. -/
def InvCreds (s : St) : Prop := CredsOk s.p.creds

instance : SEnv InvCreds := ⟨fun _ _ _ _ h => h⟩
instance (P : Oracle → Prop) : SOra P InvCreds := ⟨fun _ _ _ h => h⟩
stable_instances InvCreds under SMaster SMinPin SRpIds SForce SEp SAlwaysUv SLargeBlob SPin SRetries STok SMis SKeys SU2f
  SSp SLb SPresence SCompare SIssued SConsumed SU2fPrompt SU2fConsume SU2fTouch SCounterEv SBoot SCounter
instance : SErase InvCreds := ⟨fun _ h => CredsOk.filter h _⟩

/-- The credentials are `c`. -/
def KeepCreds (c : List (Nat × Cred)) (s : St) : Prop := s.p.creds = c

section
variable (c : List (Nat × Cred))
instance : SEnv (KeepCreds c) := ⟨fun _ _ _ _ h => h⟩
instance (P : Oracle → Prop) : SOra P (KeepCreds c) := ⟨fun _ _ _ h => h⟩
stable_instances (KeepCreds c) under SMaster SMinPin SRpIds SForce SEp SAlwaysUv SLargeBlob SPin SRetries STok SMis SKeys
  SU2f SSp SLb SPresence SCompare SIssued SConsumed SU2fPrompt SU2fConsume SU2fTouch SCounterEv SBoot SCounter
end

theorem keepCreds {m : M α} {s s' : St} {r : Res α} (h : m s = (r, s')) [hp : Pres (KeepCreds s.p.creds) m] :
    s'.p.creds = s.p.creds := by have := hp.out s rfl; rwa [h] at this

theorem writeCreds_inv {f : Persist → Persist} {s : St} (h1 : InvCreds s) (h2 : CredsOk (f s.p).creds) :
    InvCreds (writeP f [] s).2 := by
  rcases writeP_snd f [] s with h | h <;> rw [h]
  · exact h1
  · exact h2

instance (c : Cred) : Pres InvCreds (storeCredential c) := by
  unfold storeCredential
  refine Pres.bind' inferInstance fun s l s1 hs hl hs1 => ?_
  obtain ⟨hp, _, _, _, _, _, he⟩ := iterCredentials_ok hl
  have hl1 : l.Perm s1.p.creds := by rw [he]; exact hp
  refine bind_snd ((inferInstance : Pres InvCreds (liftE _)).out _ hs1) fun k s2 h2 => ?_
  rw [liftE_ok] at h2
  obtain ⟨h2, rfl⟩ := h2
  refine bind_snd ((inferInstance : Pres InvCreds getMasterKeys).out _ hs1) fun mk s3 h3 => ?_
  have k3 := keepCreds h3
  have hs3 : InvCreds s3 := pres_of_ok h3 hs1
  refine bind_snd ((inferInstance : Pres InvCreds (rng 16)).out _ hs3) fun b s4 h4 => ?_
  have k4 := keepCreds h4
  have hs4 : InvCreds s4 := pres_of_ok h4 hs3
  refine writeCreds_inv hs4 ?_
  obtain ⟨r1, r2, hc⟩ := chooseSlot_ok h2
  refine CredsOk.put hs4 ⟨r1, r2⟩ fun e he hse => ?_
  rw [k4, k3] at he
  have he : e ∈ l := hl1.symm.mem_iff.1 he
  rcases hc with ⟨c', _, _, h5⟩ | ⟨h5, _⟩
  · exact h5 e he hse
  · exact absurd hse (h5 e he)

instance (id : Bytes) : Pres InvCreds (deleteCredential id) := by
  have (k : Nat) : Pres InvCreds (writeP fun p => p.delCred k) :=
    ⟨fun s hs => writeCreds_inv hs (CredsOk.filter hs _)⟩
  unfold deleteCredential; pres

instance (id : Bytes) (a b c : Option Bytes) : Pres InvCreds (updateCredential id a b c) := by
  unfold updateCredential
  refine Pres.bind' inferInstance fun s x s1 hs hx hs1 => ?_
  obtain ⟨hf, _, _, _, _, _, he⟩ := findItem_ok hx
  have hmem : x ∈ s1.p.creds := by rw [he]; exact (findItem_mem hf).1
  dsimp only
  refine bind_snd ((inferInstance : Pres InvCreds getMasterKeys).out _ hs1) fun mk s3 h3 => ?_
  have k3 := keepCreds h3
  have hs3 : InvCreds s3 := pres_of_ok h3 hs1
  refine bind_snd ((inferInstance : Pres InvCreds (rng 16)).out _ hs3) fun b s4 h4 => ?_
  have k4 := keepCreds h4
  have hs4 : InvCreds s4 := pres_of_ok h4 hs3
  refine writeCreds_inv hs4 ?_
  have hmem4 : x ∈ s4.p.creds := by rw [k4, k3]; exact hmem
  refine CredsOk.put hs4 (CredsOk.range hs4 x hmem4) fun e he' hse => ?_
  exact congrArg (·.1) (CredsOk.uniq hs4 he' hmem4 hse)

instance (a : McParams) (sk : Bytes) (l : Option Bytes) : Pres InvCreds (mcCreate a sk l) := by
  unfold mcCreate; pres
instance (a : McParams) (b : Bool) : Pres InvCreds (mcFinish a b) := by unfold mcFinish; pres
instance (a : McParams) : Pres InvCreds (makeCredential a) := by unfold makeCredential; pres
instance (a : CmSubParams) : Pres InvCreds (cmDelete a) := by unfold cmDelete; pres
instance (a : CmSubParams) : Pres InvCreds (cmUpdate a) := by unfold cmUpdate; pres
instance (a : CmParams) (ch : Channel) : Pres InvCreds (cmDispatch a ch) := by unfold cmDispatch; pres
instance (a : CmParams) (ch : Channel) : Pres InvCreds (credentialManagement a ch) := by
  unfold credentialManagement; pres

step_instances InvCreds

theorem credsOk_reach {P : Oracle → Prop} {b : Bool} {s : St} (h : Reach P b s) : CredsOk s.p.creds :=
  reach_inv (I := InvCreds) h fun _ _ => ⟨by simp, by simp, by simp⟩

end Verif.Ctap
