import Verif.Ctap.PropsNames
import Verif.Ctap.PropsMgmt

/-!
# C68: stored credentials are kept
-/
namespace Verif.Ctap
set_option linter.unusedSectionVars false

/-! ## Specification -/

/-- Equal up to the names that are shown to the user. -/
def Cred.sameKey (c c' : Cred) : Prop :=
  c' = { c with userName := c'.userName, userDisplayName := c'.userDisplayName, userIcon := c'.userIcon }

/-- The request is meant to remove the credential, or to replace it: a factory reset, the deletion of its id, or the
registration of a discoverable credential for the same relying party and user. -/
def Command.removes (c : Cred) : Command → Prop
  | .reset => True
  | .makeCredential a => a.options.rk = true ∧ a.rp.id = c.rpId ∧ a.user.id = c.userHandle
  | .credMgmt a => a.sub = .delete ∧ ∃ p d, a.params = some p ∧ p.credentialId = some d ∧ d.id = c.id
  | _ => False

/-- The request is meant to change the names in the credential. -/
def Command.renames (c : Cred) : Command → Prop
  | .credMgmt a => a.sub = .update ∧ ∃ p d, a.params = some p ∧ p.credentialId = some d ∧ d.id = c.id
  | _ => False

/-- The request is meant to add a discoverable credential. -/
def Command.adds : Command → Prop
  | .makeCredential a => a.options.rk = true
  | _ => False

theorem Cred.sameKey_refl (c : Cred) : c.sameKey c := rfl

theorem Cred.sameKey_trans {a b c : Cred} (h1 : a.sameKey b) (h2 : b.sameKey c) : a.sameKey c := by
  unfold Cred.sameKey at *
  rw [h2, h1]

/-- The credentials before and after a request. -/
structure Changes (cmd : Command) (before after : List Cred) : Prop where
  kept : ∀ c ∈ before, ¬ cmd.removes c → ¬ cmd.renames c → c ∈ after
  left : ∀ c ∈ before, ¬ cmd.removes c → ∃ c' ∈ after, c.sameKey c'
  from' : ¬ cmd.adds → ∀ c' ∈ after, ∃ c ∈ before, c.sameKey c'

theorem Changes.refl (cmd : Command) (l : List Cred) : Changes cmd l l :=
  ⟨fun _ h _ _ => h, fun c h _ => ⟨c, h, c.sameKey_refl⟩, fun _ c h => ⟨c, h, c.sameKey_refl⟩⟩

section
variable [Dev] {P : Oracle → Prop} {s s' : St} {ch : Channel}

theorem reg_changes {a : McParams} {before after : List Cred} (h : RegEffect a before after) :
    Changes (.makeCredential a) before after := by
  rcases h with rfl | ⟨hr, ⟨c, hc, rfl⟩, _⟩
  · exact Changes.refl _ _
  · have key : ∀ d ∈ before, ¬ Command.removes d (.makeCredential a) →
        d ∈ c :: before.filter fun c => !c.isFor a.rp.id a.user.id := by
      intro d hd hn
      refine List.mem_cons_of_mem _ (List.mem_filter.2 ⟨hd, ?_⟩)
      cases h : d.isFor a.rp.id a.user.id with
      | false => rfl
      | true =>
        simp only [Cred.isFor, Bool.and_eq_true, beq_iff_eq] at h
        exact absurd ⟨hr, h.1.symm, h.2.symm⟩ hn
    exact ⟨fun d hd h1 _ => key d hd h1, fun d hd h1 => ⟨d, key d hd h1, d.sameKey_refl⟩, fun h => absurd hr h⟩

/-- Unchanged credentials. -/
theorem changes_of_keep {cmd : Command} {m : M α} (h : Pres (KeepCreds s.p.creds) m) : Changes cmd s.stored (m s).2.stored := by
  have : (m s).2.p.creds = s.p.creds := h.out s rfl
  unfold St.stored
  rw [this]
  exact Changes.refl _ _

theorem reset_changes : Changes .reset s.stored (resetCommand s).2.stored := by
  have h : AllCreds (fun c => c ∈ s.stored) (resetCommand s).2 :=
    Pres.out (I := AllCreds fun c => c ∈ s.stored) (m := resetCommand) s fun e he => List.mem_map.2 ⟨e, he, rfl⟩
  refine ⟨fun _ _ h => absurd trivial h, fun _ _ h => absurd trivial h, fun _ c hc => ?_⟩
  obtain ⟨e, he, rfl⟩ := List.mem_map.1 hc
  exact ⟨_, h e he, Cred.sameKey_refl _⟩

section
variable {cmd : Command} {l : List (Nat × Cred)}

/-- From `l`, the request `cmd` may have led to this state. -/
def Changed (cmd : Command) (l : List (Nat × Cred)) (t : St) : Prop := Changes cmd (l.map (·.2)) t.stored

theorem Changed.of (h : s.p.creds = l) : Changed cmd l s := by
  unfold Changed St.stored; rw [h]; exact Changes.refl _ _

/-- Steps that do not touch the credentials, in front. -/
theorem changed_bind {m : M α} {f : α → M β} (h : s.p.creds = l) [hm : ∀ l, Pres (KeepCreds l) m]
    (hf : ∀ x t, t.p.creds = l → m s = (.ok x, t) → Changed cmd l (f x t).2) : Changed cmd l ((m >>= f) s).2 := by
  refine bind_snd (Q := Changed cmd l) (Changed.of ?_) fun x t ht => hf x t ((keepCreds ht).trans h) ht
  exact (hm l).out s h

/-- A result at the end. -/
theorem changed_map {m : M α} {f : α → β} (h : Changed cmd l (m s).2) : Changed cmd l ((m >>= fun x => M.pure (f x)) s).2 :=
  bind_snd (Q := Changed cmd l) h fun x t ht => by rw [ht] at h; exact h

theorem changed_write {f : Persist → Persist} (h : s.p.creds = l)
    (hf : ∀ p : Persist, p.creds = l → Changes cmd (l.map (·.2)) ((f p).creds.map (·.2))) : Changed cmd l (writeP f [] s).2 := by
  rcases writeP_snd f [] s with h1 | h1 <;> rw [h1]
  · exact Changed.of h
  · exact hf _ h

theorem delete_changed {a : CmParams} {p : CmSubParams} (hc : CredsOk l) (ha : a.sub = .delete) (hp : a.params = some p)
    (h : s.p.creds = l) : Changed (.credMgmt a) l (cmDelete p s).2 := by
  unfold cmDelete
  refine changed_bind h fun d t ht hd => ?_
  rw [req_ok] at hd
  obtain ⟨hd, rfl⟩ := hd
  refine changed_bind ht fun _ t ht _ => ?_
  unfold deleteCredential
  refine changed_bind ht fun y t1 ht1 hy => ?_
  obtain ⟨hy, _⟩ := findItem_ok hy
  obtain ⟨hm, hid⟩ := findItem_mem hy
  rw [ht] at hm
  refine changed_write ht1 fun q hq => ?_
  have key : ∀ c ∈ l.map (·.2), ¬ Command.removes c (.credMgmt a) → c ∈ ((q.delCred y.1).creds).map (·.2) := by
    intro c hc' hn
    obtain ⟨e, he, rfl⟩ := List.mem_map.1 hc'
    refine List.mem_map.2 ⟨e, ?_, rfl⟩
    show e ∈ q.creds.filter _
    rw [hq]
    refine List.mem_filter.2 ⟨he, ?_⟩
    simp only [bne_iff_ne, ne_eq]
    intro hk
    have := hc.key he hm hk
    subst this
    exact hn ⟨ha, p, d, hp, hd, hid.symm⟩
  refine ⟨fun c h1 h2 _ => key c h1 h2, fun c h1 h2 => ⟨c, key c h1 h2, c.sameKey_refl⟩, fun _ c h1 => ⟨c, ?_, c.sameKey_refl⟩⟩
  obtain ⟨e, he, rfl⟩ := List.mem_map.1 h1
  have he : e ∈ q.creds.filter _ := he
  rw [hq] at he
  exact List.mem_map.2 ⟨e, (List.mem_filter.1 he).1, rfl⟩

theorem update_changed {a : CmParams} {p : CmSubParams} (hc : CredsOk l) (ha : a.sub = .update) (hp : a.params = some p)
    (h : s.p.creds = l) : Changed (.credMgmt a) l (cmUpdate p s).2 := by
  unfold cmUpdate
  refine changed_bind h fun d t ht hd => ?_
  rw [req_ok] at hd
  obtain ⟨hd, rfl⟩ := hd
  refine changed_bind ht fun u t ht _ => ?_
  refine changed_bind ht fun _ t ht _ => ?_
  unfold updateCredential
  refine changed_bind ht fun y t1 ht1 hy => ?_
  obtain ⟨hy, _⟩ := findItem_ok hy
  obtain ⟨hm, hid⟩ := findItem_mem hy
  rw [ht] at hm
  refine changed_bind ht1 fun _ t1 ht1 _ => ?_
  refine changed_bind ht1 fun _ t1 ht1 _ => ?_
  refine changed_write ht1 fun q hq => ?_
  have hcr : (q.putCred y.1 { y.2 with userName := u.name, userDisplayName := u.displayName, userIcon := u.icon }).creds =
      (y.1, { y.2 with userName := u.name, userDisplayName := u.displayName, userIcon := u.icon }) ::
        l.filter fun e => e.1 != y.1 := by
    show (_, _) :: q.creds.filter _ = _
    rw [hq]
  rw [hcr]
  have other : ∀ e ∈ l, e ≠ y → e.2 ∈ (l.filter fun e => e.1 != y.1).map (·.2) := by
    intro e he hne
    refine List.mem_map.2 ⟨e, List.mem_filter.2 ⟨he, ?_⟩, rfl⟩
    simp only [bne_iff_ne, ne_eq]
    exact fun hk => hne (hc.key he hm hk)
  refine ⟨fun c h1 _ h3 => ?_, fun c h1 _ => ?_, fun _ c h1 => ?_⟩
  · obtain ⟨e, he, rfl⟩ := List.mem_map.1 h1
    refine List.mem_cons_of_mem _ (other e he ?_)
    rintro rfl
    exact h3 ⟨ha, p, d, hp, hd, hid.symm⟩
  · obtain ⟨e, he, rfl⟩ := List.mem_map.1 h1
    by_cases hey : e = y
    · subst hey
      exact ⟨_, List.mem_cons_self .., rfl⟩
    · exact ⟨e.2, List.mem_cons_of_mem _ (other e he hey), Cred.sameKey_refl _⟩
  · rcases List.mem_cons.1 h1 with rfl | h1
    · exact ⟨y.2, List.mem_map.2 ⟨y, hm, rfl⟩, rfl⟩
    · obtain ⟨e, he, rfl⟩ := List.mem_map.1 h1
      exact ⟨e.2, List.mem_map.2 ⟨e, (List.mem_filter.1 he).1, rfl⟩, Cred.sameKey_refl _⟩

theorem mgmt_changed (hc : CredsOk l) {a : CmParams} (h : s.p.creds = l) :
    Changed (.credMgmt a) l (credentialManagement a ch s).2 := by
  unfold credentialManagement
  refine changed_bind h fun c t ht _ => ?_
  refine changed_bind ht fun _ t ht _ => ?_
  refine changed_bind ht fun _ t ht _ => ?_
  refine changed_map ?_
  unfold cmDispatch
  cases hs : a.sub with
  | delete =>
    refine changed_bind ht fun p t ht hp => ?_
    rw [req_ok] at hp
    obtain ⟨hp, rfl⟩ := hp
    exact changed_map (delete_changed hc hs hp ht)
  | update =>
    refine changed_bind ht fun p t ht hp => ?_
    rw [req_ok] at hp
    obtain ⟨hp, rfl⟩ := hp
    exact changed_map (update_changed hc hs hp ht)
  | _ =>
    refine Changed.of ?_
    exact Pres.out (I := KeepCreds l) (self := by pres) _ ht

theorem command_changed (hc : CredsOk l) (h : s.p.creds = l) : Changed cmd l (channelCommand ch cmd s).2 := by
  cases ch with
  | vendor c =>
    refine Changed.of ?_
    cases cmd <;> unfold channelCommand vendorChannelCommand <;> exact Pres.out (I := KeepCreds l) (self := by pres) _ h
  | main c =>
    cases cmd with
    | credMgmt a => exact mgmt_changed hc h
    | makeCredential a =>
      exact reg_changes ((makeCredential_tri hc a).snd (I := fun t => RegEffect a (l.map (·.2)) t.stored) (fun _ _ h => h.1)
        (fun _ h => h) s h)
    | reset =>
      subst h
      exact reset_changes
    | getAssertion a => exact Changed.of (Pres.out (I := KeepCreds l) (m := getAssertion a _) _ h)
    | getNextAssertion => exact Changed.of (Pres.out (I := KeepCreds l) (m := getNextAssertion) _ h)
    | getInfo => exact Changed.of (Pres.out (I := KeepCreds l) (m := getInfo) _ h)
    | clientPin a =>
      exact Changed.of (Pres.out (I := KeepCreds l) (m := do let r ← clientPinCommand a; M.pure (Response.clientPin r)) _ h)
    | selection => exact Changed.of (Pres.out (I := KeepCreds l) (m := selection) _ h)
    | largeBlobs a => exact Changed.of (Pres.out (I := KeepCreds l) (m := largeBlobsCommand a) _ h)
    | config a => exact Changed.of (Pres.out (I := KeepCreds l) (m := configCommand a) _ h)

instance : SEnv (Changed cmd l) := ⟨fun _ _ _ _ h => h⟩
stable_instances (Changed cmd l) under SCounterEv

/-- One message. -/
theorem message_changed {msg : Bytes} (hc : CredsOk s.p.creds) (hd : Command.deserialize msg = .ok cmd) :
    Changes cmd s.stored (stepM (.ctap2 ch msg) s).2.stored := by
  refine stepM_msg (I := Changed cmd s.p.creds) hd ?_
  rw [processParsed_eq]
  exact command_changed hc rfl

theorem idle_changed {i : Input} (hi : i.idle) : (stepM i s).2.stored = s.stored := by
  have : KeepCreds s.p.creds (stepM i s).2 := stepM_idle hi rfl
  unfold St.stored
  rw [show (stepM i s).2.p.creds = _ from this]

theorem boot_changed : (bootM s).2.stored = s.stored := by
  have : KeepCreds s.p.creds (bootM s).2 := Pres.out (I := KeepCreds s.p.creds) (m := bootM) s rfl
  unfold St.stored
  rw [show (bootM s).2.p.creds = _ from this]

end

/-! ## C68 -/

/-- What every request and every restart keeps is kept. -/
theorem without_inv {kind : Command → Prop} {I : List Cred → Prop} (hc : CredsOk s.p.creds) (h0 : I s.stored)
    (hstep : ∀ cmd before after, ¬ kind cmd → Changes cmd before after → I before → I after)
    (h : Without P kind s s') : I s'.stored := by
  have : CredsOk s'.p.creds ∧ I s'.stored := by
    induction h with
    | start => exact ⟨hc, h0⟩
    | boot h ho ih =>
      refine ⟨Pres.out (I := InvCreds) (m := bootM) _ ih.1, ?_⟩
      rw [boot_changed]
      exact ih.2
    | @step s1 o i h ho hi ih =>
      refine ⟨Pres.out (I := InvCreds) (m := stepM i) _ ih.1, ?_⟩
      by_cases h : ∃ ch msg cmd, i = .ctap2 ch msg ∧ Command.deserialize msg = .ok cmd
      · obtain ⟨ch, msg, cmd, rfl, hd⟩ := h
        exact hstep cmd _ _ (hi ch msg cmd rfl hd) (message_changed (s := s1.withOracle o) ih.1 hd) ih.2
      · rw [idle_changed fun ch msg cmd h1 h2 => h ⟨ch, msg, cmd, h1, h2⟩]
        exact ih.2
  exact this.2

/-- **C68.** A stored credential stays, unchanged, whatever the device is asked and whatever happens to it (failures and power
cuts included), unless a request is meant to remove this very credential or to change its names. -/
theorem C68_kept {c : Cred} (hr : Reach P b s) (hc : c ∈ s.stored)
    (h : Without P (fun cmd => cmd.removes c ∨ cmd.renames c) s s') : c ∈ s'.stored :=
  without_inv (I := fun l => c ∈ l) (credsOk_reach hr) hc
    (fun _ _ _ hn h1 h2 => h1.kept c h2 (fun h => hn (.inl h)) fun h => hn (.inr h)) h

/-- **C68**, with changes of names: the credential stays, and its id, private key, relying party, user handle, protection
policy, credential blob and all else but the names are what they were. -/
theorem C68_kept_key {c : Cred} (hr : Reach P b s) (hc : c ∈ s.stored)
    (h : Without P (fun cmd => ∃ c', c.sameKey c' ∧ cmd.removes c') s s') : ∃ c' ∈ s'.stored, c.sameKey c' :=
  without_inv (I := fun l => ∃ c' ∈ l, c.sameKey c') (credsOk_reach hr) ⟨c, hc, c.sameKey_refl⟩
    (fun _ _ _ hn h1 ⟨c', h2, h3⟩ => by
      obtain ⟨c'', h4, h5⟩ := h1.left c' h2 fun h => hn ⟨c', h3, h⟩
      exact ⟨c'', h4, Cred.sameKey_trans h3 h5⟩) h

/-- **C68**, in the other direction: credentials do not come from nowhere. Without a request to register a discoverable
credential, every stored credential was stored before, up to its names. -/
theorem C68_origin (hr : Reach P b s) (h : Without P Command.adds s s') :
    ∀ c' ∈ s'.stored, ∃ c ∈ s.stored, c.sameKey c' :=
  without_inv (I := fun l => ∀ c' ∈ l, ∃ c ∈ s.stored, c.sameKey c') (credsOk_reach hr) (fun c hc => ⟨c, hc, c.sameKey_refl⟩)
    (fun _ _ _ hn h1 h2 c' hc' => by
      obtain ⟨c1, h3, h4⟩ := h1.from' hn c' hc'
      obtain ⟨c, h5, h6⟩ := h2 c1 h3
      exact ⟨c, h5, Cred.sameKey_trans h6 h4⟩) h

theorem without_pres {kind : Command → Prop} {I : St → Prop} [hO : SOra P I] [hb : Pres I bootM] [hs : ∀ i, Pres I (stepM i)]
    (h : Without P kind s s') (h0 : I s) : I s' := by
  induction h with
  | start => exact h0
  | boot h ho ih => exact hb.out _ (hO.out _ _ ho ih)
  | step h ho hi ih => exact (hs _).out _ (hO.out _ _ ho ih)

/-- An assertion that names a stored credential is signed by it. -/
theorem assertion_stored {g : GaParams} {r : Response} {c : Cred} (hi : c.id.length = 32) (hc : c ∈ s.stored) (hrp : c.rpId = g.rpId)
    (hl : g.allowList = some [{ id := c.id }]) (h : processParsed (.getAssertion g) ch s = (.ok r, s')) :
    ∃ ga, r = .getAssertion ga ∧ AssertedBy g c ga := by
  obtain ⟨⟨cid, rfl⟩, h⟩ := processParsed_ok h (by simp)
  obtain ⟨s1, s2, s3, s4, s5, s6, c', rest, ad, number, ga, h1, h2, h3, h4, h5, h6, h7, rfl, _⟩ := getAssertion_ok h
  have hp1 := keepP h1
  have hst : s1.stored = s.stored := by unfold St.stored; rw [hp1]; rfl
  simp only [gaFindCredential, hl, bind_ok, pure_ok, Prod.mk.injEq, anyFromAllowList] at h2
  obtain ⟨o, s7, ⟨o', s8, h8, h9⟩, ⟨rfl, _⟩, _⟩ := h2
  obtain ⟨_, _, h10⟩ := findCredential_spec h8
  have ho : o' = some c := (h10 c).2 ⟨by rw [hst]; exact hc, rfl, hrp⟩
  subst ho
  obtain ⟨g1, _, g3, g4, _, _⟩ := assertionResponse_ok h7
  have : c' = c := by
    cases hf : (some c : Option Cred).filter fun c => listedOk c.policy g.authParam.isSome with
    | some x =>
      rw [hf] at h9
      simp only [pure_ok] at h9
      have := (Option.filter_eq_some_iff.1 hf).1
      cases this
      exact (Option.some.inj h9.1).symm
    | none =>
      rw [hf] at h9
      simp only [bind_ok] at h9
      obtain ⟨w, s9, h11, h12⟩ := h9
      rcases unwrap_ok h11 with ⟨rfl, _, _⟩ | ⟨mk, _, _, _, _, _, h13⟩
      · simp only [Option.filter_none, anyFromAllowList, pure_ok] at h12
        cases h12.1
      · cases w with
        | none =>
          simp only [Option.filter_none, anyFromAllowList, pure_ok] at h12
          cases h12.1
        | some w =>
          have := (opens_iff.1 h13).tagged.1
          omega
  subst this
  exact ⟨ga, rfl, g1, g4, g3⟩

/-- The requests that are meant to remove the credential of this registration. -/
def Unregisters (a : McParams) (m : McResponse) (cmd : Command) : Prop :=
  ∃ c : Cred, c.id = credentialIdIn m.authData ∧ c.rpId = a.rp.id ∧ c.userHandle = a.user.id ∧ cmd.removes c

/-- **C68**, use: after the registration of a discoverable credential, whatever happens in between, as long as no request is
meant to remove this credential, assertion requests for its relying party that may see it are not refused for lack of
credentials, and a request that lists its id is answered, if it succeeds, with a signature by the private key of the
registration. -/
theorem C68_usable {a : McParams} {m : McResponse} {msg : Bytes} {o : Oracle} {s1 s2 : St}
    (hr : Reach P true s) (ho : P o) (hmsg : Command.deserialize msg = .ok (.makeCredential a))
    (h : processParsed (.makeCredential a) ch (s.withOracle o) = (.ok (.makeCredential m), s1)) (hrk : a.options.rk = true)
    (hw : Without P (Unregisters a m) (stepM (.ctap2 ch msg) (s.withOracle o)).2 s2) :
    ∃ sk, PublicKeyIn m.authData sk ∧
      ∀ (g : GaParams) (ch' : Channel) (o' : Oracle) (r : Res Response) (s3 : St), g.rpId = a.rp.id →
        processParsed (.getAssertion g) ch' (s2.withOracle o') = (r, s3) →
        (g.allowList = some [{ id := credentialIdIn m.authData }] →
          (VisibleById (mcPolicy a.ext.credProtect) g.authParam.isSome → r ≠ .err .noCredentials) ∧
          ∀ x, r = .ok x → ∃ ga, x = .getAssertion ga ∧ ga.credential = { id := credentialIdIn m.authData } ∧
            Dev.ecdsaSign sk (ga.authData ++ g.clientDataHash) = some ga.signature) ∧
        (g.allowList = none → VisibleByRp (mcPolicy a.ext.credProtect) g.authParam.isSome → r ≠ .err .noCredentials) := by
  obtain ⟨c, hc, h1, h2, h3, h4, _, h5⟩ := C34_stored h hrk
  have hr' := Reach.step o ho (.ctap2 ch msg) hr
  have hp := (step_parsed hmsg h).1
  have hc' : c ∈ (stepM (.ctap2 ch msg) (s.withOracle o)).2.stored := by unfold St.stored; rw [hp]; exact hc
  obtain ⟨d, hd, hk⟩ := without_inv (I := fun l => ∃ d ∈ l, c.sameKey d) (credsOk_reach hr') ⟨c, hc', c.sameKey_refl⟩
    (fun _ _ _ hn h1' ⟨d, hd, hk⟩ => by
      obtain ⟨d', hd', hk'⟩ := h1'.left d hd fun h => hn ⟨d, by rw [hk]; exact h1, by rw [hk]; exact h2, by rw [hk]; exact h3, h⟩
      exact ⟨d', hd', Cred.sameKey_trans hk hk'⟩) hw
  have e1 : d.id = credentialIdIn m.authData := by rw [hk]; exact h1
  have e2 : d.rpId = a.rp.id := by rw [hk]; exact h2
  have e3 : d.sk = c.sk := by rw [hk]
  have e4 : d.policy = mcPolicy a.ext.credProtect := by rw [hk]; exact h4
  have hids : AllCreds (fun c => c.id.length = 32) s2 :=
    without_pres hw (allCreds_reach (Q := fun c => c.id.length = 32) hr')
  have hcr : InvCreds s2 := without_pres hw (credsOk_reach hr')
  have hlen : d.id.length = 32 := by
    obtain ⟨e, he, rfl⟩ := List.mem_map.1 hd
    exact hids e he
  refine ⟨c.sk, h5, fun g ch' o' r s3 hrp hg => ⟨fun hl => ⟨fun hv => ?_, fun x hx => ?_⟩, fun hl hv => ?_⟩⟩
  · rintro rfl
    obtain ⟨hst, hnn⟩ := C22_listed_refused hg hl
    refine hnn _ (List.mem_singleton.2 rfl) (.inl ⟨d, ⟨by rw [hst]; exact hd, e1, e2.trans hrp.symm⟩, ?_⟩)
    rw [e4]; exact hv
  · subst hx
    obtain ⟨ga, rfl, k1, _, k3⟩ := assertion_stored (s := s2.withOracle o') hlen hd (e2.trans hrp.symm) (by rw [e1]; exact hl) hg
    exact ⟨ga, rfl, by rw [k1, e1], by rw [← e3]; exact k3⟩
  · rintro rfl
    rw [processParsed_eq] at hg
    cases ch' with
    | vendor c => simp [channelCommand, vendorChannelCommand, fail] at hg
    | main cid =>
      obtain ⟨s4, rest, g1, g2⟩ := getAssertion_noCred hg
      have hp1 : s4.p = s2.p := (keepP g1).trans (prelude_p ..)
      obtain ⟨mk, l, _, hperm, _, g3, _⟩ := gaFind_discoverable (s := s4) (by rw [hp1]; exact hcr) hl g2
      obtain ⟨⟨k, c''⟩, he, rfl⟩ := List.mem_map.1 hd
      have : k ∈ discoverableKeys g.rpId g.authParam.isSome l :=
        mem_discoverable.2 ⟨c'', hperm.mem_iff.2 (by rw [hp1]; exact he), e2.trans hrp.symm, by rw [e4]; exact hv⟩
      rw [g3 rfl] at this
      cases this

end
end Verif.Ctap

namespace Verif.Ctap.Toy
open Verif.Cbor (Value)
set_option maxRecDepth 100000

/-- The request names this credential. -/
def names (c : Cred) (a : CmParams) : Bool := (a.params.bind (·.credentialId)).map (·.id) == some c.id

theorem names_iff {c : Cred} {a : CmParams} :
    names c a = true ↔ ∃ p d, a.params = some p ∧ p.credentialId = some d ∧ d.id = c.id := by
  simp only [names, beq_iff_eq, Option.map_eq_some_iff, Option.bind_eq_some_iff]
  constructor
  · rintro ⟨d, ⟨p, h1, h2⟩, h3⟩; exact ⟨p, d, h1, h2, h3⟩
  · rintro ⟨p, d, h1, h2, h3⟩; exact ⟨d, ⟨p, h1, h2⟩, h3⟩

/-- The request may remove the credential or change its names. -/
def touches (c : Cred) : Command → Bool
  | .reset => true
  | .makeCredential a => a.options.rk && a.rp.id == c.rpId && a.user.id == c.userHandle
  | .credMgmt a => (a.sub == .delete || a.sub == .update) && names c a
  | _ => false

theorem touches_iff {c : Cred} {cmd : Command} : touches c cmd = true ↔ cmd.removes c ∨ cmd.renames c := by
  cases cmd <;> simp [touches, Command.removes, Command.renames, names_iff, and_assoc, or_and_right]

/-- A step that does not concern the credential. -/
theorem without_step {P : Oracle → Prop} {c : Cred} {s s1 : St} {o : Oracle} {i : Input} (ho : P o)
    (h : Without P (fun cmd => cmd.removes c ∨ cmd.renames c) s s1) (hi : touches c (parse i) = false)
    (hp : (match i with | .ctap2 _ m => (Command.deserialize m).toOption == some (parse i) | _ => true) = true) :
    Without P (fun cmd => cmd.removes c ∨ cmd.renames c) s (step o i s1) := by
  refine Without.step h ho fun ch msg cmd h1 h2 => ?_
  subst h1
  simp only [h2, Except.toOption, beq_iff_eq, Option.some.injEq] at hp
  rw [← touches_iff, hp, hi]
  exact Bool.false_ne_true

deriving instance Inhabited for Cred

/-- The credential of the user 2 of the relying party A, and the id of the one of user 1. -/
def second : Cred := (managed.stored.find? fun c => c.userHandle == [2]).getD default
def firstId : Bytes := ((managed.stored.find? fun c => c.userHandle == [1]).map (·.id)).getD []

/-- The deletion of a credential. -/
def delete (id : Bytes) : Input :=
  mgmt managed 6 (some (map [(.unsigned 2, map [(.text (b! "id"), .bytes id), (.text (b! "type"), .text (b! "public-key"))])])) true

/-- C68: the credential stays when another one of the same relying party is deleted and a registration is requested; it goes
when its own deletion is requested. -/
example : second ∈ managed.stored ∧ accepted good (delete firstId) managed = true ∧
    Without (fun _ => True) (fun cmd => cmd.removes second ∨ cmd.renames second) managed
      (boot good (step (seed 90) (register rpA [1] true none) (step good (delete firstId) managed))) ∧
    second ∈ (boot good (step (seed 90) (register rpA [1] true none) (step good (delete firstId) managed))).stored ∧
    (step good (delete firstId) managed).stored.length = 2 ∧
    (step good (delete second.id) managed).stored.length = 2 ∧ second ∉ (step good (delete second.id) managed).stored := by
  refine ⟨by decide +kernel, by decide +kernel, ?_, by decide +kernel, by decide +kernel, by decide +kernel, by decide +kernel⟩
  exact Without.boot (without_step trivial (without_step trivial .start (by decide +kernel) (by decide +kernel))
    (by decide +kernel) (by decide +kernel)) trivial

end Verif.Ctap.Toy
