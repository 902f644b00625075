import Verif.Ctap.CounterSpec
import Verif.Ctap.PropsLb

/-!
# C27: the signature counter
-/
namespace Verif.Ctap
open Verif.Cbor (beBytes beNat)
set_option linter.unusedSectionVars false
variable [Dev] {P : Oracle → Prop} {s s' : St} {ch : Channel}

theorem beNat_beBytes4 {n : Nat} (h : n < 2 ^ 32) : beNat (beBytes 4 n) = n := by
  simp [beNat, beBytes]
  omega

/-! ## The history -/

theorem sinceErased_cons {e : Ev} (l : List Ev) (h : e ≠ .erased) : sinceErased (e :: l) = e :: sinceErased l := by
  simp [sinceErased, h]

theorem sinceErased_erased (l : List Ev) : sinceErased (.erased :: l) = [] := by
  simp [sinceErased]

/-- The stored counter. -/
def St.counter (s : St) : Nat := s.p.counter.getD 1

/-- An event with a counter. -/
def Ev.isCounter : Ev → Bool
  | .counter _ _ => true
  | _ => false

/-- The stored counter is less than 2^32; if it did not overflow, no response had a greater counter, they are ordered,
and the assertion that is to be continued has no greater counter. -/
structure CounterGood (s : St) : Prop where
  small : s.counter < 2 ^ 32
  old : .wrapped ∉ sinceErased s.log → ∀ n k, .counter n k ∈ sinceErased s.log → n ≤ s.counter
  ordered : .wrapped ∉ sinceErased s.log → (sinceErased s.log).Pairwise Increases
  session : .wrapped ∉ sinceErased s.log → ∀ inp keys, s.v.sp.cmd = some (.getAssertion inp keys) →
    inp.authData.length = 37 ∧ authDataCounter inp.authData ≤ s.counter

/-- No response had this counter. -/
def Fresh (s : St) : Prop := .wrapped ∉ sinceErased s.log → ∀ n k, .counter n k ∈ sinceErased s.log → n < s.counter

theorem CounterGood.cons {e : Ev} (h : CounterGood s) (h1 : e ≠ .erased) (h2 : e.isCounter = false) :
    CounterGood { s with log := e :: s.log } := by
  refine ⟨h.small, ?_, ?_, ?_⟩ <;> dsimp only <;> rw [sinceErased_cons _ h1] <;> intro hw <;>
    have hw := fun h => hw (List.mem_cons_of_mem _ h)
  · intro n k hn
    rcases List.mem_cons.1 hn with rfl | hn
    · cases h2
    · exact h.old hw n k hn
  · refine List.pairwise_cons.2 ⟨fun b _ n k m k' he => ?_, h.ordered hw⟩
    subst he
    cases h2
  · exact h.session hw

theorem Fresh.cons {e : Ev} (h : Fresh s) (h1 : e ≠ .erased) (h2 : e.isCounter = false) :
    Fresh { s with log := e :: s.log } := by
  unfold Fresh
  dsimp only
  rw [sinceErased_cons _ h1]
  intro hw n k hn
  rcases List.mem_cons.1 hn with rfl | hn
  · cases h2
  · exact h (fun h => hw (List.mem_cons_of_mem _ h)) n k hn

instance : SEnv CounterGood := ⟨fun _ _ _ _ h => ⟨h.1, h.2, h.3, h.4⟩⟩
instance (Q : Oracle → Prop) : SOra Q CounterGood := ⟨fun _ _ _ h => ⟨h.1, h.2, h.3, h.4⟩⟩
section
local macro "keepG" : term => `(by constructor; intros; rename_i h; exact ⟨h.1, h.2, h.3, h.4⟩)
instance : SMaster CounterGood := keepG
instance : SCreds CounterGood := keepG
instance : SMinPin CounterGood := keepG
instance : SRpIds CounterGood := keepG
instance : SForce CounterGood := keepG
instance : SEp CounterGood := keepG
instance : SAlwaysUv CounterGood := keepG
instance : SLargeBlob CounterGood := keepG
instance : SPin CounterGood := keepG
instance : SRetries CounterGood := keepG
instance : STok CounterGood := keepG
instance : SMis CounterGood := keepG
instance : SKeys CounterGood := keepG
instance : SU2f CounterGood := keepG
instance : SLb CounterGood := keepG
end
instance : SPresence CounterGood := ⟨fun _ _ h => h.cons (by simp) rfl⟩
instance : SCompare CounterGood := ⟨fun _ _ h => h.cons (by simp) rfl⟩
instance : SIssued CounterGood := ⟨fun _ _ _ _ h => h.cons (by simp) rfl⟩
instance : SConsumed CounterGood := ⟨fun _ h => h.cons (by simp) rfl⟩
instance : SU2fPrompt CounterGood := ⟨fun _ _ h => h.cons (by simp) rfl⟩
instance : SU2fConsume CounterGood := ⟨fun _ _ h => h.cons (by simp) rfl⟩
instance : SU2fTouch CounterGood := ⟨fun _ _ h => h.cons (by simp) rfl⟩
instance : SSpGo CounterGood where
  drop _ h := ⟨h.1, h.2, h.3, fun _ _ _ h => by cases h⟩
  next s c c' hc hn h := by
    refine ⟨h.1, h.2, h.3, fun hw inp keys he => ?_⟩
    cases hn with
    | assertion i l k => cases he; exact h.session hw _ _ hc
    | rp i => cases he
    | credential l k => cases he
instance : SSpEnum CounterGood := ⟨fun s c ch hc h => ⟨h.1, h.2, h.3, fun _ inp keys he => by
  rcases hc with ⟨_, rfl⟩ | ⟨_, rfl⟩ <;> cases he⟩⟩

/-- The state after an increment. -/
theorem incr_good {n : Nat} (h0 : 0 < n) (h8 : n ≤ 8) (h : CounterGood s) (s1 : St) (hs : s1 = { s with
    p := { s.p with counter := some ((s.p.counter.getD 1 + n) % 2 ^ 32) }
    log := (if s.p.counter.getD 1 + n < 2 ^ 32 then [] else [.wrapped]) ++ s.log }) : CounterGood s1 ∧ Fresh s1 := by
  subst hs
  by_cases hw : s.p.counter.getD 1 + n < 2 ^ 32
  · have hc : St.counter { s with p := { s.p with counter := some ((s.p.counter.getD 1 + n) % 2 ^ 32) }, log := s.log } = s.counter + n := by
      show (s.p.counter.getD 1 + n) % 2 ^ 32 = _
      rw [Nat.mod_eq_of_lt hw]; rfl
    rw [if_pos hw, List.nil_append]
    refine ⟨⟨?_, fun hw n k hn => ?_, h.ordered, fun hw inp keys he => ?_⟩, fun hw n k hn => ?_⟩
    · rw [hc]; exact hw
    · have := h.old hw n k hn
      rw [hc]; omega
    · have := h.session hw inp keys he
      rw [hc]; exact ⟨this.1, by omega⟩
    · have := h.old hw n k hn
      rw [hc]; omega
  · rw [if_neg hw]
    have hm : Ev.wrapped ∈ sinceErased (Ev.wrapped :: s.log) := by
      rw [sinceErased_cons _ (by simp)]; exact List.mem_cons_self
    refine ⟨⟨?_, fun h => absurd hm h, fun h => absurd hm h, fun h => absurd hm h⟩, fun h => absurd hm h⟩
    exact Nat.mod_lt _ (by decide)

instance : SIncr CounterGood := ⟨fun s n h0 h8 h => (incr_good h0 h8 h _ rfl).1⟩


/-- After an increment no response had the counter. -/
theorem increment_fresh (hu : Dev.useSignatureCounter = true) {u : Unit} (h : incrementGlobalCounter s = (.ok u, s'))
    (hg : CounterGood s) : CounterGood s' ∧ Fresh s' := by
  simp only [incrementGlobalCounter, whenM, hu, if_true, incrSignatureCounter, bind_ok] at h
  obtain ⟨r, s1, h1, old, s2, h2, h3⟩ := h
  obtain ⟨_, rfl⟩ := rng_ok h1
  obtain ⟨rfl, rfl⟩ := signatureCounter_ok h2
  rw [writeP_ok h3]
  have := incr_good (n := beNat r % 8 + 1) (by omega) (by omega) hg _ rfl
  exact ⟨⟨this.1.1, this.1.2, this.1.3, this.1.4⟩, this.2⟩

/-! ## Commands -/

/-- A factory reset begins a new history. -/
structure ResetGood (s : St) : Prop where
  good : CounterGood s
  no : NoSession s

section
local macro "keepR" : term => `(by constructor; intros; rename_i h; exact ⟨⟨h.1.1, h.1.2, h.1.3, h.1.4⟩, h.2⟩)
instance : SEnv ResetGood := ⟨fun _ _ _ _ h => ⟨⟨h.1.1, h.1.2, h.1.3, h.1.4⟩, h.2⟩⟩
instance : SMaster ResetGood := keepR
instance : STok ResetGood := keepR
instance : SMis ResetGood := keepR
instance : SKeys ResetGood := keepR
instance : SU2f ResetGood := keepR
end
instance : SPresence ResetGood := ⟨fun _ _ h => ⟨h.1.cons (by simp) rfl, h.2⟩⟩
instance : SSpGo ResetGood where
  drop s h := ⟨SSpGo.drop (I := CounterGood) s h.1, SSpGo.drop (I := NoSession) s h.2⟩
  next s c c' hc hn h := ⟨SSpGo.next (I := CounterGood) s c c' hc hn h.1, SSpGo.next (I := NoSession) s c c' hc hn h.2⟩
instance : SErase ResetGood := ⟨fun s h => by
  refine ⟨⟨?_, ?_, ?_, ?_⟩, h.2⟩
  · show (1 : Nat) < 2 ^ 32
    decide
  · simp only [sinceErased_erased]; simp
  · simp only [sinceErased_erased]; simp
  · intro _ inp keys he
    rcases h.2 with h | h <;> rw [h] at he <;> cases he⟩

/-- What a response says about the counter. -/
def CounterResponse : Response → St → Prop
  | .makeCredential r, s => authDataCounter r.authData = s.counter
  | .getAssertion r, s => authDataCounter r.authData = s.counter ∧ Fresh s
  | .getNextAssertion r, s => .wrapped ∉ sinceErased s.log → authDataCounter r.authData ≤ s.counter
  | _, _ => True

theorem authDataCounter_append {h ext : Bytes} {f : UInt8} {n : Nat} (hl : h.length = 32) (hn : n < 2 ^ 32) :
    authDataCounter (h ++ [f] ++ beBytes 4 n ++ ext) = n := by
  unfold authDataCounter
  rw [List.append_assoc (h ++ [f]), List.drop_left' (by simp [hl]), List.take_left' (by simp [beBytes]), beNat_beBytes4 hn]

theorem authDataCounter_prefix {ad ext : Bytes} (h : ad.length = 37) : authDataCounter (ad ++ ext) = authDataCounter ad := by
  unfold authDataCounter
  rw [List.drop_append_of_le_length (by omega), List.take_append_of_le_length (by simp [h])]

theorem makeCredential_counter {a : McParams} {r : Response} (hg : CounterGood s)
    (h : makeCredential a s = (.ok r, s')) : CounterResponse r s' := by
  obtain ⟨ep, s1, s2, s3, s4, _, h1, h2, h3, h4, h5⟩ := makeCredential_ok h
  have g1 : CounterGood s1 := by have := Pres.out (I := CounterGood) (m := mcEnterprise a) _ hg; rwa [h1] at this
  have g2 : CounterGood s2 := by have := Pres.out (I := CounterGood) (m := mcAuth a) _ g1; rwa [h2] at this
  have g3 : CounterGood s3 := by
    have := Pres.out (I := CounterGood) (m := checkExcludeList a.rp.id a.authParam.isSome (a.excludeList.getD [])) _ g2
    rwa [h3] at this
  have g4 : CounterGood s4 := by have := Pres.out (I := CounterGood) (m := checkPresenceE) _ g3; rwa [h4] at this
  have g5 := STok.out (I := CounterGood) s4 s4.v.pin.tok.clearFlags g4
  have g5 := g5.cons (e := .tokenConsumed) (by simp) rfl
  simp only [mcFinish, bind_ok, pure_ok] at h5
  obtain ⟨mp, s6, h6, lbk, s7, h7, sk, s8, h8, id, s9, h9, ad, s10, h10, ⟨sig, x5c⟩, s11, h11, rfl, rfl⟩ := h5
  have g6 : CounterGood s6 := by have := Pres.out (I := CounterGood) (m := mcMinPin a) _ g5; rwa [h6] at this
  have g7 : CounterGood s7 := by have := Pres.out (I := CounterGood) (m := mcLargeBlobKey a) _ g6; rwa [h7] at this
  have g8 : CounterGood s8 := by have := Pres.out (I := CounterGood) (m := newSk) _ g7; rwa [h8] at this
  have g9 : CounterGood s9 := by have := Pres.out (I := CounterGood) (m := mcCreate a sk lbk) _ g8; rwa [h9] at this
  have e1 := keepP h10
  have e2 := keepP h11
  simp only [mcAuthData, bind_ok, pure_ok] at h10
  obtain ⟨base, t1, k1, _, t2, _, pk, t3, _, cose, t4, _, ext, t5, _, rfl, _⟩ := h10
  obtain ⟨n, rfl, _, hn⟩ := generateAuthData_ok k1
  show authDataCounter _ = s11.p.counter.getD 1
  rw [e2, e1, ← hn]
  simp only [List.append_assoc (_ ++ beBytes 4 n)]
  exact authDataCounter_append (Dev.sha256_len _) (by rw [hn]; exact g9.small)

/-- The good end of an assertion. -/
def AssertionGood (r : Res Response) (s : St) : Prop := CounterGood s ∧ ∀ x, r = .ok x → CounterResponse x s

theorem bind_assertion {α : Type} {m : M α} {f : α → M Response} [hp : Pres CounterGood m] (hg : CounterGood s)
    (h : ∀ a s1, m s = (.ok a, s1) → CounterGood s1 → AssertionGood (f a s1).1 (f a s1).2) :
    AssertionGood ((m >>= f) s).1 ((m >>= f) s).2 := by
  refine bind_split (fun r hr => ⟨hp.out _ hg, fun x hx => absurd hx (hr x)⟩) fun a s1 h1 => h a s1 h1 ?_
  have := hp.out _ hg
  rwa [h1] at this

theorem gaRemember_good {inp : AssertionInput} {keys : List Nat} (hg : CounterGood s) (hf : Fresh s)
    (hl : inp.authData.length = 37) (hc : authDataCounter inp.authData = s.counter) (number : Option Nat)
    (h : gaRemember inp keys ch s = (.ok number, s')) : CounterGood s' ∧ Fresh s' ∧ s'.counter = s.counter := by
  cases keys with
  | nil =>
    simp only [gaRemember, pure_ok] at h
    obtain ⟨_, rfl⟩ := h
    exact ⟨hg, hf, rfl⟩
  | cons k l =>
    simp only [gaRemember, setCommand, bind_ok, clock_ok, modSp, modV_ok, pure_ok] at h
    obtain ⟨_, _, ⟨_, _, ⟨rfl, rfl⟩, rfl⟩, _, rfl⟩ := h
    refine ⟨⟨hg.1, hg.2, hg.3, fun _ inp' keys' he => ?_⟩, hf, rfl⟩
    cases he
    exact ⟨hl, Nat.le_of_eq hc⟩

theorem getAssertion_counter (hu : Dev.useSignatureCounter = true) {a : GaParams} (hg : CounterGood s) :
    AssertionGood (getAssertion a ch s).1 (getAssertion a ch s).2 := by
  unfold getAssertion
  refine bind_assertion hg fun _ s1 _ hg => ?_
  refine bind_assertion hg fun _ s1 _ hg => ?_
  refine bind_assertion hg fun _ s1 _ hg => ?_
  refine bind_assertion hg fun x s1 _ hg => ?_
  refine bind_assertion hg fun c s2 _ hg => ?_
  refine bind_assertion hg fun _ s3 _ hg => ?_
  refine bind_assertion hg fun _ s4 h4 hg4 => ?_
  obtain ⟨_, hf⟩ := increment_fresh hu h4 hg
  refine bind_assertion hg4 fun ad s5 h5 hg5 => ?_
  obtain ⟨n, rfl, rfl, hn⟩ := generateAuthData_ok h5
  have hl : (Dev.sha256 a.rpId ++ [gaFlags a] ++ beBytes 4 n).length = 37 := by simp [Dev.sha256_len, beBytes]
  have hc : authDataCounter (Dev.sha256 a.rpId ++ [gaFlags a] ++ beBytes 4 n) = s4.counter := by
    have := authDataCounter_append (ext := []) (f := gaFlags a) (Dev.sha256_len a.rpId) (n := n) (by rw [hn]; exact hg4.small)
    rw [List.append_nil] at this
    rw [this, hn]; rfl
  refine bind_split' (fun r hr hk => ?_) fun number s6 h6 => ?_
  · exfalso
    revert hk
    cases x.2 with
    | nil => exact fun h => h _ rfl
    | cons k l => exact fun h => h _ rfl
  · obtain ⟨hg6, hf6, hc6⟩ := gaRemember_good (s := { s4 with env := s4.env.next }) hg5 hf hl hc number h6
    refine bind_assertion hg6 fun g s7 h7 hg7 => ⟨hg7, fun y hy => ?_⟩
    cases hy
    obtain ⟨_, ⟨ext, _, _, hx⟩, _⟩ := assertionResponse_ok h7
    obtain ⟨mx, ep⟩ := keepPM h7
    have el := keepLog h7
    have ec : s7.counter = s6.counter := by unfold St.counter; rw [ep]
    show authDataCounter g.authData = s7.counter ∧ Fresh s7
    refine ⟨?_, ?_⟩
    · rw [hx, authDataCounter_prefix hl, hc, ec, hc6]; rfl
    · unfold Fresh
      rw [el, ec]
      exact hf6

theorem next_counter {r : Response} (hg : CounterGood s) (h : getNextAssertion s = (.ok r, s')) : CounterResponse r s' := by
  obtain ⟨inp, keys, k, c, g, t, h1, _, ⟨mk, hk⟩, h2, rfl⟩ := nextAssertion_ok h
  obtain ⟨_, ⟨ext, _, _, hx⟩, _⟩ := assertionResponse_ok h2
  obtain ⟨mx, ep⟩ := keepPM h2
  have el := keepLog h2
  have hs : s.v.sp.cmd = some (.getAssertion inp (keys ++ [k])) := by
    unfold StatefulPerm.clearTimer at h1
    split at h1
    · cases h1
    · exact h1
  intro hw
  rw [el, hk.log] at hw
  obtain ⟨a1, a2⟩ := hg.session hw _ _ hs
  rw [hx, authDataCounter_prefix a1]
  refine Nat.le_trans a2 (Nat.le_of_eq ?_)
  unfold St.counter
  rw [ep]
  show _ = t.p.counter.getD 1
  rw [hk.eq]


/-- Commands other than assertions and factory reset. -/
theorem good_command {cmd : Command} (h1 : ∀ a, cmd ≠ .getAssertion a) (h2 : cmd ≠ .reset) (hs : CounterGood s) :
    CounterGood (channelCommand ch cmd s).2 := by
  cases ch with
  | vendor c =>
    cases cmd <;> unfold channelCommand vendorChannelCommand <;> exact Pres.out (I := CounterGood) (self := by pres) _ hs
  | main c =>
    cases cmd with
    | getAssertion a => exact absurd rfl (h1 a)
    | credMgmt a => exact Pres.out (I := CounterGood) (m := credentialManagement a _) _ hs
    | getNextAssertion => exact Pres.out (I := CounterGood) (m := getNextAssertion) _ hs
    | makeCredential a => exact Pres.out (I := CounterGood) (m := makeCredential a) _ hs
    | getInfo => exact Pres.out (I := CounterGood) (m := getInfo) _ hs
    | clientPin a =>
      exact Pres.out (I := CounterGood) (m := do let r ← clientPinCommand a; M.pure (Response.clientPin r)) _ hs
    | reset => exact absurd rfl h2
    | selection => exact Pres.out (I := CounterGood) (m := selection) _ hs
    | largeBlobs a => exact Pres.out (I := CounterGood) (m := largeBlobsCommand a) _ hs
    | config a => exact Pres.out (I := CounterGood) (m := configCommand a) _ hs

theorem bind_const {α : Type} {m : M α} {f : α → Response} {r : Response} (h : (m >>= fun a => M.pure (f a)) s = (.ok r, s')) :
    ∃ a, r = f a := by
  simp only [bind_ok, pure_ok] at h
  obtain ⟨a, _, _, rfl, _⟩ := h
  exact ⟨a, rfl⟩

theorem lbSet_response {a : LbParams} {set : Bytes} {r : Response} (h : lbSet a set s = (.ok r, s')) :
    ∃ x, r = .largeBlobs x := by
  simp only [lbSet, bind_ok, pure_ok] at h
  obtain ⟨_, _, _, _, _, _, _, _, _, _, _, _, _, _, _, _, _, _, _, _, _, rfl, _⟩ := h
  exact ⟨_, rfl⟩

/-- Commands whose responses hold no counter. -/
theorem response_other {cmd : Command} {r : Response} (h : channelCommand ch cmd s = (.ok r, s'))
    (h1 : ∀ a, cmd ≠ .makeCredential a) (h2 : ∀ a, cmd ≠ .getAssertion a) (h3 : cmd ≠ .getNextAssertion) :
    CounterResponse r s' := by
  have hi : getInfo s = (.ok r, s') → CounterResponse r s' := by
    intro h
    simp only [getInfo, bind_ok, pure_ok] at h
    obtain ⟨_, _, _, _, _, _, _, _, _, _, _, _, _, _, _, _, _, _, rfl, _⟩ := h
    trivial
  cases ch with
  | vendor c =>
    cases cmd with
    | getInfo => exact hi h
    | _ => cases h
  | main c =>
    cases cmd with
    | getAssertion a => exact absurd rfl (h2 a)
    | makeCredential a => exact absurd rfl (h1 a)
    | getNextAssertion => exact absurd rfl h3
    | getInfo => exact hi h
    | credMgmt a =>
      replace h : credentialManagement a _ s = _ := h
      simp only [credentialManagement, bind_ok, pure_ok] at h
      obtain ⟨_, _, _, _, _, _, _, _, _, _, _, _, rfl, _⟩ := h
      trivial
    | clientPin a =>
      obtain ⟨_, rfl⟩ := bind_const (f := Response.clientPin) h
      trivial
    | reset =>
      replace h : resetCommand s = _ := h
      simp only [resetCommand, bind_ok, pure_ok] at h
      obtain ⟨_, _, _, _, _, _, _, _, _, _, _, _, _, _, _, _, _, _, rfl, _⟩ := h
      trivial
    | selection =>
      replace h : selection s = _ := h
      simp only [selection, bind_ok, pure_ok] at h
      obtain ⟨_, _, _, rfl, _⟩ := h
      trivial
    | largeBlobs a =>
      replace h : largeBlobsCommand a s = _ := h
      unfold largeBlobsCommand at h
      cases hg : a.get with
      | some n =>
        rw [hg] at h
        simp only [lbGet, bind_ok, pure_ok] at h
        obtain ⟨_, _, _, _, _, _, rfl, _⟩ := h
        trivial
      | none =>
        rw [hg] at h
        cases hs : a.set with
        | none => rw [hs] at h; cases h
        | some set =>
          rw [hs] at h
          obtain ⟨_, rfl⟩ := lbSet_response h
          trivial
    | config a =>
      replace h : configCommand a s = _ := h
      simp only [configCommand, bind_ok, pure_ok] at h
      obtain ⟨_, _, _, _, _, _, _, _, _, _, _, _, rfl, _⟩ := h
      trivial

theorem clearTimer_cmd {sp : StatefulPerm} {now : Nat} {c : Stateful} (h : (sp.clearTimer now).cmd = some c) :
    sp.cmd = some c := by
  unfold StatefulPerm.clearTimer at h
  split at h
  · cases h
  · exact h

theorem clearOldChannels_cmd {sp : StatefulPerm} {c : Stateful} (h : (sp.clearOldChannels ch).cmd = some c) :
    sp.cmd = some c := by
  unfold StatefulPerm.clearOldChannels at h
  cases hc : sp.channel with
  | none => rw [hc] at h; exact h
  | some c' =>
    rw [hc] at h
    dsimp only at h
    split at h
    · cases h
    · exact h

theorem prelude_good {cmd : Command} (hs : CounterGood s) : CounterGood (prelude cmd ch s) := by
  refine ⟨hs.1, hs.2, hs.3, fun hw inp keys he => hs.4 hw inp keys ?_⟩
  replace he : StatefulPerm.cmd (if _ then _ else _) = _ := he
  split at he
  · exact clearOldChannels_cmd (clearTimer_cmd he)
  · cases he

theorem parsed_counter (hu : Dev.useSignatureCounter = true) {cmd : Command} (hs : CounterGood s) :
    AssertionGood (processParsed cmd ch s).1 (processParsed cmd ch s).2 := by
  rw [processParsed_eq]
  have hp := prelude_good (cmd := cmd) (ch := ch) hs
  by_cases hr : cmd = .reset
  · subst hr
    refine ⟨?_, fun x hx => response_other (Prod.ext hx rfl) (by simp) (by simp) (by simp)⟩
    cases ch with
    | vendor c => exact hp
    | main c =>
      exact (Pres.out (I := ResetGood) (m := resetCommand) _ ⟨hp, noSession_prelude _ _ (by simp) (by simp)⟩).good
  by_cases hg : ∃ a, cmd = .getAssertion a
  · obtain ⟨a, rfl⟩ := hg
    cases ch with
    | vendor c => exact ⟨hp, fun x hx => by cases hx⟩
    | main c => exact getAssertion_counter hu hp
  have hg : ∀ a, cmd ≠ .getAssertion a := fun a h => hg ⟨a, h⟩
  refine ⟨good_command hg hr hp, fun x hx => ?_⟩
  by_cases hm : ∃ a, cmd = .makeCredential a
  · obtain ⟨a, rfl⟩ := hm
    cases ch with
    | vendor c => cases hx
    | main c => exact makeCredential_counter hp (Prod.ext hx rfl)
  by_cases hn : cmd = .getNextAssertion
  · subst hn
    cases ch with
    | vendor c => cases hx
    | main c => exact next_counter hp (Prod.ext hx rfl)
  exact response_other (Prod.ext hx rfl) (fun a h => hm ⟨a, h⟩) hg hn

/-- A response that leaves the device. -/
theorem CounterGood.sent {n : Nat} {k : CounterKind} (h : CounterGood s)
    (hn : .wrapped ∉ sinceErased s.log → n ≤ s.counter) (hk : k = .assertion → n = s.counter ∧ Fresh s)
    (hr : k = .registration → n = s.counter) : CounterGood { s with log := .counter n k :: s.log } := by
  refine ⟨h.small, ?_, ?_, ?_⟩ <;> dsimp only <;> rw [sinceErased_cons _ (by simp)] <;> intro hw <;>
    have hw := fun h => hw (List.mem_cons_of_mem _ h)
  · intro m k' hm
    rcases List.mem_cons.1 hm with hm | hm
    · cases hm; exact hn hw
    · exact h.old hw m k' hm
  · refine List.pairwise_cons.2 ⟨fun b hb n' k1 m k2 h1 h2 => ?_, h.ordered hw⟩
    cases h1
    subst h2
    refine ⟨fun he => ?_, fun he => ?_⟩
    · obtain ⟨rfl, hf⟩ := hk he
      exact hf (by assumption) m k2 hb
    · rw [hr he]
      exact h.old hw m k2 hb
  · exact h.session hw

theorem respond_good {r : Response} (h : CounterGood s) (hr : CounterResponse r s) : CounterGood (respond r s).2 := by
  unfold respond
  refine bind_snd (Pres.out (I := CounterGood) (m := encodeResponse r) _ h) fun b s1 h1 => ?_
  have e1 : s1 = s := by
    unfold encodeResponse at h1
    revert h1
    cases r.toCbor with
    | none => intro h1; cases h1
    | some o =>
      cases o with
      | none => exact fun h1 => ((pure_ok).1 h1).2.symm
      | some v => cases hc : cborWrite v <;> simp only [hc] <;> exact fun h1 => ((pure_ok).1 h1).2.symm
  subst e1
  refine bind_snd (by rw [effect_snd]; exact SEnv.out s1 _ (next_now_le _) rfl h) fun _ s2 h2 => ?_
  obtain ⟨_, _, rfl⟩ := (effect_ok).1 h2
  have h : CounterGood { s1 with env := s1.env.next } := SEnv.out s1 _ (next_now_le _) rfl h
  suffices hl : CounterGood (logCounter r { s1 with env := s1.env.next }).2 from
    bind_snd hl fun _ s3 h3 => by rw [h3] at hl; exact hl
  cases r with
  | makeCredential r => exact h.sent (fun _ => Nat.le_of_eq hr) (fun h => by cases h) (fun _ => hr)
  | getAssertion r => exact h.sent (fun _ => Nat.le_of_eq hr.1) (fun _ => hr) (fun h => by cases h)
  | getNextAssertion r => exact h.sent hr (fun h => by cases h) (fun h => by cases h)
  | _ => exact h

/-! ## U2F -/

theorem u2fSign_counter (hu : Dev.useSignatureCounter = true) {c a sk r : Bytes} (hg : CounterGood s)
    (h : u2fSign c a sk s = (.ok (.ok r), s')) : beNat ((r.drop 1).take 4) = s'.counter ∧ Fresh s' := by
  simp only [u2fSign, bindSw_ok, orSw_ok] at h
  rcases h with ⟨_, s1, h1, h⟩ | ⟨e, _, h⟩
  · obtain ⟨hg1, hf⟩ := increment_fresh hu h1 hg
    rcases h with ⟨ad, s2, h2, h⟩ | ⟨e, _, h⟩
    · rcases h with ⟨sig, s3, h3, h⟩ | ⟨e, _, h⟩
      · obtain ⟨n, rfl, rfl, hn⟩ := generateAuthData_ok h2
        rw [liftE_ok] at h3
        rw [pure_ok] at h
        obtain ⟨hr, rfl⟩ := h
        obtain ⟨_, rfl⟩ := h3
        have hr := Except.ok.inj hr
        refine ⟨?_, hf⟩
        rw [← hr, show a ++ [(0x01 : UInt8)] ++ beBytes 4 n ++ c = a ++ ([0x01] ++ beBytes 4 n ++ c) by simp,
          List.drop_left, List.take_left' (by simp [beBytes])]
        show beNat ((beBytes 4 n ++ sig).take 4) = _
        rw [List.take_left' (by simp [beBytes]), beNat_beBytes4 (by rw [hn]; exact hg1.small), hn]
        rfl
      · cases h
    · cases h
  · cases h

theorem u2f_counter (hu : Dev.useSignatureCounter = true) {msg c a hd r : Bytes} {f : U2fFlags}
    (hm : U2fCommand.parse msg = .ok (.authenticate c a hd f)) (hg : CounterGood s)
    (h : u2fCommand msg s = (.ok (.ok r), s')) : beNat ((r.drop 1).take 4) = s'.counter ∧ Fresh s' := by
  simp only [u2fCommand, bindSw_ok, orSw_ok] at h
  rcases h with ⟨al, s1, h1, h⟩ | ⟨e, _, h⟩
  · have g1 : CounterGood s1 := by have := Pres.out (I := CounterGood) (m := hasAlwaysUv) _ hg; rwa [h1] at this
    cases al with
    | true =>
      simp only [if_true, pure_ok] at h
      cases h.1
    | false =>
      simp only [hm, u2fDispatch, bind_ok, Bool.false_eq_true, if_false] at h
      obtain ⟨up, s2, h2, h⟩ := h
      have g2 : CounterGood s2 := by have := Pres.out (I := CounterGood) (m := u2fCheckUp f) _ g1; rwa [h2] at this
      cases up with
      | false =>
        simp only [Bool.false_eq_true, if_false, pure_ok] at h
        cases h.1
      | true =>
        simp only [if_true, u2fAuthenticate, bindSw_ok, orSw_ok] at h
        rcases h with ⟨w, s3, h3, h⟩ | ⟨e, _, h⟩
        · have g3 : CounterGood s3 := by
            have := Pres.out (I := CounterGood) (m := unwrapCredential hd a) _ g2; rwa [h3] at this
          cases hw : w.filter fun c => listedOk c.policy false with
          | none => simp only [hw, pure_ok] at h; cases h.1
          | some w' =>
            simp only [hw] at h
            by_cases hf : f = .checkOnly
            · simp only [hf, if_true, pure_ok] at h; cases h.1
            · simp only [hf, if_false] at h
              exact u2fSign_counter hu g3 h
        · cases h
  · cases h

theorem processU2f_good (hu : Dev.useSignatureCounter = true) {msg : Bytes} (hg : CounterGood s) :
    CounterGood (processU2f msg s).2 := by
  unfold processU2f
  refine bind_snd (Pres.out (I := CounterGood) (m := u2fCommand msg) _ hg) fun r s1 h1 => ?_
  have g1 : CounterGood s1 := by have := Pres.out (I := CounterGood) (m := u2fCommand msg) _ hg; rwa [h1] at this
  refine bind_snd (by rw [effect_snd]; exact SEnv.out s1 _ (next_now_le _) rfl g1) fun _ s2 h2 => ?_
  obtain ⟨_, _, rfl⟩ := (effect_ok).1 h2
  have g2 : CounterGood { s1 with env := s1.env.next } := SEnv.out s1 _ (next_now_le _) rfl g1
  cases hm : U2fCommand.parse msg with
  | error e => exact g2
  | ok c =>
    cases c with
    | authenticate c a hd f =>
      cases r with
      | error e => exact g2
      | ok b =>
        obtain ⟨h3, h4⟩ := u2f_counter hu hm hg h1
        exact g2.sent (fun _ => Nat.le_of_eq h3) (fun _ => ⟨h3, h4⟩) (fun h => by cases h)
    | _ => exact g2

/-! ## All histories -/

theorem counter_step (hu : Dev.useSignatureCounter = true) {i : Input} (hg : CounterGood s) : CounterGood (stepM i s).2 := by
  cases i with
  | ctap2 ch msg =>
    cases hd : Command.deserialize msg with
    | error e => simpa only [stepM, processCommand, hd, bind_def, M.bind, M.pure] using hg
    | ok cmd =>
      suffices h : CounterGood (processCommand ch msg s).2 from bind_snd h fun _ s1 h1 => by rw [h1] at h; exact h
      have hp := parsed_counter hu (cmd := cmd) (ch := ch) hg
      have h2 : CounterGood ((processParsed cmd ch >>= respond) s).2 :=
        bind_snd hp.1 fun r s1 h1 => by
          rw [h1] at hp
          exact respond_good hp.1 (hp.2 r rfl)
      simp only [processCommand, hd]
      show CounterGood (errorByte (processParsed cmd ch >>= respond) s).2
      unfold errorByte
      rcases hm : (processParsed cmd ch >>= respond) s with ⟨r, s1⟩
      rw [hm] at h2
      cases r <;> exact h2
  | ctap1 msg =>
    exact bind_snd (processU2f_good hu hg) fun _ s1 h1 => by
      have := processU2f_good hu (msg := msg) hg
      rw [h1] at this; exact this
  | touch =>
    have : Pres CounterGood (stepM .touch) := by unfold stepM; pres
    exact this.out _ hg
  | wait ms => exact (presWait (I := CounterGood) ms).out _ hg

theorem counter_reach (hu : Dev.useSignatureCounter = true) {b : Bool} (h : Reach P b s) : CounterGood s := by
  induction h with
  | factory env att =>
    refine ⟨by show (1 : Nat) < 2 ^ 32; decide, ?_, ?_, ?_⟩
    · intro _ n k h; cases h
    · intro _; exact .nil
    · intro _ inp keys h; cases h
  | boot o ho h ih =>
    obtain ⟨e, _, _, ⟨_, h⟩ | ⟨p1, p2, h⟩⟩ := bootM_cases (St.withOracle _ o)
    · rw [h]; exact ⟨ih.1, ih.2, ih.3, ih.4⟩
    · rw [h]
      have := ih.cons (e := .boot e.now) (by simp) rfl
      exact ⟨this.1, this.2, this.3, fun _ inp keys h => by cases h⟩
  | step o ho i h ih => exact counter_step hu (s := St.withOracle _ o) ⟨ih.1, ih.2, ih.3, ih.4⟩

/-- **C27** (for responses other than those to authenticatorGetNextAssertion, see `Toy.C27_false`): on a device that
uses its signature counter, as long as the counter has not overflowed since the last factory reset, the counter of an
assertion (CTAP2 or U2F) is greater than all counters that left the device before, and the counter of a registration is
not smaller; whatever is sent, wherever power is cut, and whichever storage operations fail. -/
theorem C27_increases_partial (hu : Dev.useSignatureCounter = true) {b : Bool} (h : Reach P b s)
    (hw : .wrapped ∉ sinceErased s.log) : (sinceErased s.log).Pairwise Increases :=
  (counter_reach hu h).ordered hw

/-- **C27**: no counter that left the device is greater than the next counter, also for
authenticatorGetNextAssertion. -/
theorem C27_bounded (hu : Dev.useSignatureCounter = true) {b : Bool} (h : Reach P b s)
    (hw : .wrapped ∉ sinceErased s.log) {n : Nat} {k : CounterKind} (hn : .counter n k ∈ sinceErased s.log) :
    n ≤ s.p.counter.getD 1 := (counter_reach hu h).old hw n k hn

end Verif.Ctap

namespace Verif.Ctap.Toy
set_option maxRecDepth 100000

/-- A U2F authentication without user presence. -/
def u2fAuth (application handle : Bytes) : Input :=
  .ctap1 ([0, 2, 8, 0, 0] ++ Verif.Cbor.beBytes 2 (65 + handle.length) ++ cdh ++ application ++
    [UInt8.ofNat handle.length] ++ handle)

def c1 : St := step good (register rpA [1] true none) withSealed
def c2 : St := step good (register rpA [2] true none) c1
def c3 : St := step good (assert rpA none none) c2
def c4 : St := step good (u2fAuth (Dev.sha256 rpA) sealedId) c3
def c5 : St := step good (.ctap2 ch [8]) c4

theorem reach_c4 {P : Oracle → Prop} (h : P good) : Reach P true c4 :=
  reach_step good h _ (reach_step good h _ (reach_step good h _ (reach_step good h _ (reach_step good h _ (reach_booted h)
    (by decide +kernel)) (by decide +kernel)) (by decide +kernel)) (by decide +kernel)) (by decide +kernel)

/-- C27: three registrations, an assertion, a U2F assertion. -/
example : c4.log.filter (·.isCounter) = [.counter 10 .assertion, .counter 7 .assertion, .counter 1 .registration,
    .counter 1 .registration, .counter 1 .registration] ∧ .wrapped ∉ sinceErased c4.log := by decide +kernel

/-- **C27 is false for authenticatorGetNextAssertion**: it repeats the authenticator data of the assertion that it
continues, so its counter is smaller than that of a U2F assertion made in between. -/
theorem C27_false : ∃ s n m rest, Reach (good = ·) true s ∧ .wrapped ∉ sinceErased s.log ∧
    s.log = .counter n .next :: .counter m .assertion :: rest ∧ n < m :=
  ⟨c5, 7, 10, c5.log.drop 2, reach_step (P := (good = ·)) good rfl (.ctap2 ch [8]) (reach_c4 rfl) (by decide +kernel), by decide +kernel,
    by decide +kernel, by decide⟩

/-- Power is cut after the counter is written, before the signature leaves the device: the next one is still greater. -/
example : (step good (u2fAuth (Dev.sha256 rpA) sealedId) (boot good (step (cutAt 5) (u2fAuth (Dev.sha256 rpA) sealedId) c3))).log.filter
    (·.isCounter) = .counter 13 .assertion :: c3.log.filter (·.isCounter) := by decide +kernel

end Verif.Ctap.Toy
