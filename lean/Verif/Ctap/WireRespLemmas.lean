import Verif.Ctap.WireLemmas
import Verif.Ctap.ErrLemmas
import Verif.Ctap.PropsMgmt

/-!
# Every response can be encoded so that it is decoded again

The numbers of a response fit 64 bits and its texts are texts.
-/
namespace Verif.Ctap
open Verif.Cbor (Value)
set_option linter.unusedSectionVars false
variable [Dev] {s s' : St}

/-- What the responses rely on. -/
structure WireOk (s : St) : Prop where
  data : DataOk s
  creds : CredsOk s.p.creds
  retries : s.p.retries ≤ 8

theorem WireOk.reach {P : Oracle → Prop} {b : Bool} (h : Reach P b s) : WireOk s where
  data := data_reach h
  creds := credsOk_reach h
  retries := by
    have h1 := (inv10_reach h).2.1
    have h2 := Dev.maxPinRetries_le
    omega

theorem CredsOk.le300 {l : List (Nat × Cred)} (h : CredsOk l) : l.length ≤ 300 := by
  have h1 := h.length
  have h2 := Dev.maxResidentKeys_le
  omega

theorem remaining_ok {n : Nat} (h : remainingCredentials s = (.ok n, s')) : n ≤ 300 := by
  have h2 := Dev.maxResidentKeys_le
  simp only [remainingCredentials, countCredentials, bind_ok, pure_ok] at h
  obtain ⟨k, _, _, h⟩ := h
  split at h
  · simp only [pure_ok] at h
    omega
  · exact absurd h (by simp [fail])

/-- The user data of an assertion. -/
theorem gaUser_text {c : Cred} {uv : Bool} (h : c.IsText) {u : UserEntity} (hu : gaUser c uv = some u) : u.IsText := by
  unfold gaUser at hu
  split at hu
  · cases hu
  · cases hu
    intro t ht
    cases uv
    · simp at ht
    · simp only [if_true] at ht
      rcases ht with ht | ht | ht
      · exact h.name t ht
      · exact h.displayName t ht
      · exact h.icon t ht

theorem sealed_text (id : Bytes) (c : CredSource) : (toPublicSource id c).IsText :=
  ⟨by show Verif.Utf8.valid [] = true; decide +kernel, fun _ h => (nomatch h), fun _ h => (nomatch h), fun _ h => (nomatch h)⟩

theorem stored_text (h : DataOk s) {c : Cred} (hc : c ∈ s.stored) : c.IsText := by
  obtain ⟨e, he, rfl⟩ := List.mem_map.1 hc
  exact h.1 e he

/-- The credential of an assertion and the number of the remaining ones. -/
theorem gaFind_fits {a : GaParams} {c : Cred} {rest : List Nat} (hw : DataOk s) (hc : CredsOk s.p.creds)
    (h : gaFindCredential a s = (.ok (some c, rest), s')) : c.IsText ∧ rest.length ≤ 300 := by
  cases hl : a.allowList with
  | none =>
    obtain ⟨mk, l, _, hp, hr, _, hm⟩ := gaFind_discoverable hc hl h
    obtain ⟨k, _, hk, _⟩ := hm c rfl
    refine ⟨hw.1 _ hk, ?_⟩
    rw [hr]
    have h1 := hc.le300
    have h2 := hp.length_eq
    have h3 : (discoverableKeys a.rpId a.authParam.isSome l).length ≤ l.length := by
      unfold discoverableKeys
      rw [List.length_map, (sortByOrder_perm _).length_eq]
      exact List.length_filter_le _ _
    simp only [List.length_dropLast]
    omega
  | some l =>
    simp only [gaFindCredential, hl, bind_ok, pure_ok, Prod.mk.injEq] at h
    obtain ⟨o, s1, h1, ⟨rfl, rfl⟩, _⟩ := h
    refine ⟨?_, by simp⟩
    rcases allowList_ok h1 with ⟨_, h2, _⟩ | ⟨mk, _, h2, _⟩
    · cases h2
    · obtain ⟨_, d, _, _, hy, _⟩ := h2 c rfl
      rcases hy with ⟨hy, _⟩ | ⟨w, _, _, rfl⟩
      · exact stored_text hw hy.1
      · exact sealed_text _ _

/-! ## The commands -/

theorem ga_fits {a : GaParams} {ch : Channel} {r : Response} (hw : WireOk s) (h : getAssertion a ch s = (.ok r, s'))
    {v : Value} (hv : r.toCbor = some (some v)) : v.Fit := by
  obtain ⟨s1, s2, s3, s4, s5, s6, c, rest, ad, number, ga, h1, h2, h3, h4, h5, h6, h7, rfl, _⟩ := getAssertion_ok h
  have hc1 : s1.p.creds = s.p.creds := keepCreds h1
  have hd1 : DataOk s1 := by
    have := (inferInstance : Pres DataOk (gaAuth a)).out s hw.data
    rwa [h1] at this
  obtain ⟨ht, hr⟩ := gaFind_fits hd1 (hc1 ▸ hw.creds) h2
  obtain ⟨_, _, _, hu, hn, _⟩ := assertionResponse_ok h7
  simp only [Response.toCbor, Option.map_eq_some_iff] at hv
  obtain ⟨v', hv, he⟩ := hv
  cases he
  refine GaResponse.fit (fun u hu' => gaUser_text ht (hu ▸ hu')) (fun n hn' => ?_) hv
  rw [hn] at hn'
  subst hn'
  cases rest with
  | nil => simp only [gaRemember, pure_ok] at h6; cases h6.1
  | cons k l =>
    simp only [gaRemember, bind_ok, pure_ok] at h6
    obtain ⟨_, _, _, he, _⟩ := h6
    cases he
    omega

theorem next_fits {r : Response} (hw : WireOk s) (h : getNextAssertion s = (.ok r, s'))
    {v : Value} (hv : r.toCbor = some (some v)) : v.Fit := by
  simp only [getNextAssertion, bind_ok, pure_ok] at h
  obtain ⟨⟨i, k⟩, s1, h1, c, s2, h2, ga, s3, h3, rfl, rfl⟩ := h
  have hc1 : s1.p.creds = s.p.creds := keepCreds h1
  obtain ⟨hm, _⟩ := getCredential_ok h2
  obtain ⟨_, _, _, hu, hn, _⟩ := assertionResponse_ok h3
  simp only [Response.toCbor, Option.map_eq_some_iff] at hv
  obtain ⟨v', hv, he⟩ := hv
  cases he
  exact GaResponse.fit (fun u hu' => gaUser_text (hw.data.1 _ (hc1 ▸ hm)) (hu ▸ hu')) (fun n hn' => by rw [hn] at hn'; cases hn') hv

theorem info_fits {r : Response} (hc : ConfigFits) (hw : WireOk s) (h : getInfo s = (.ok r, s'))
    {v : Value} (hv : r.toCbor = some (some v)) : v.Fit := by
  simp only [getInfo, bind_ok, pure_ok] at h
  obtain ⟨al, s1, h1, ep, s2, h2, ph, s3, h3, f, s4, h4, m, s5, h5, n, s6, h6, rfl, rfl⟩ := h
  have hd : DataOk s4 := by
    have : Pres DataOk (do let _ ← hasAlwaysUv; let _ ← infoEp; let _ ← pinHash; hasForcePinChange) := by pres
    have := this.out s hw.data
    simp only [bind_def, M.bind, h1, h2, h3, h4] at this
    exact this
  simp only [Response.toCbor, Option.map_eq_some_iff] at hv
  obtain ⟨v', hv, he⟩ := hv
  cases he
  have h7 := remaining_ok h6
  have h8 := (minPinLength_ok h5).1
  have h9 := hd.2
  exact InfoResponse.fit hc (by simp only; omega) (by simp only; omega) hv

theorem pin_fits {a : PinParams} {r : Option PinResponse} (hw : WireOk s) (h : clientPinCommand a s = (.ok r, s'))
    {v : Value} (hv : (Response.clientPin r).toCbor = some (some v)) : v.Fit := by
  have hk : ∀ sk k, some (ecdhCose sk) = some k → k.Small := by
    intro sk k hk; cases hk; simp only [CoseKey.Small, ecdhCose]; decide
  simp only [clientPinCommand, bind_ok, guardE_ok] at h
  obtain ⟨_, _, ⟨_, rfl⟩, h⟩ := h
  have hnone : (∀ x, r = some x → (∀ k, x.keyAgreement = some k → k.Small) ∧ (∀ n, x.retries = some n → n < 2 ^ 64)) → v.Fit := by
    intro hx
    cases r with
    | none => simp [Response.toCbor, optP] at hv
    | some x =>
      obtain ⟨h1, h2⟩ := hx x rfl
      obtain ⟨w, hw, he⟩ : ∃ w, x.toCbor = some w ∧ w = v := by
        simp only [Response.toCbor, optP, Option.map_eq_some_iff] at hv
        obtain ⟨w, hw, he⟩ := hv
        cases he
        exact ⟨_, hw, rfl⟩
      subst he
      exact PinResponse.fit h1 h2 hw
  apply hnone
  have htok : ∀ {a : PinParams} {s s' : St} {x : PinResponse}, processGetPinToken a s = (.ok x, s') → x.keyAgreement = none ∧ x.retries = none := by
    intro a s s' x h
    simp only [processGetPinToken, bind_ok, pure_ok] at h
    obtain ⟨_, _, _, _, _, _, _, _, _, _, _, _, _, _, _, _, _, _, _, _, _, _, _, _, _, _, _, _, _, _, _, _, _, _, _, _, _, _, _, _, _, _, _, _, _, rfl, _⟩ := h
    exact ⟨rfl, rfl⟩
  cases hs : a.sub <;> simp only [hs] at h
  case getPinRetries =>
    simp only [processGetPinRetries, bind_ok, pure_ok] at h
    obtain ⟨_, _, ⟨_, s1, hg, n, s2, hn, rfl, rfl⟩, rfl, rfl⟩ := h
    obtain ⟨rfl, rfl⟩ := getV_ok.1 hg
    have h1 := (pinRetries_ok hn).1
    have h2 := hw.retries
    intro x hx
    cases hx
    exact ⟨fun k hk => (nomatch hk), fun n hn => by cases hn; omega⟩
  case getKeyAgreement =>
    simp only [processGetKeyAgreement, bind_ok, pure_ok] at h
    obtain ⟨_, _, ⟨_, s1, hg, rfl, rfl⟩, rfl, rfl⟩ := h
    intro x hx
    cases hx
    exact ⟨fun k h => hk _ _ h, fun n hn => nomatch hn⟩
  case setPin => simp only [bind_ok, pure_ok] at h; obtain ⟨_, _, _, rfl, _⟩ := h; intro x hx; cases hx
  case changePin => simp only [bind_ok, pure_ok] at h; obtain ⟨_, _, _, rfl, _⟩ := h; intro x hx; cases hx
  case getPinToken =>
    simp only [bind_ok, pure_ok] at h
    obtain ⟨x, _, hx, _, _, _, rfl, _⟩ := h
    obtain ⟨h1, h2⟩ := htok hx
    intro x hx
    cases hx
    exact ⟨fun k h => (by rw [h1] at h; cases h), fun n h => (by rw [h2] at h; cases h)⟩
  case getUvTokenUsingUv => exact absurd h (by simp [fail])
  case getUvRetries => exact absurd h (by simp [fail])
  case getPinTokenWithPermissions =>
    simp only [bind_ok, pure_ok, processGetPinTokenWithPermissions] at h
    obtain ⟨x, _, ⟨_, _, _, _, _, _, _, _, _, y, _, hx, _, _, _, rfl, _⟩, _, _, _, rfl, _⟩ := h
    obtain ⟨h1, h2⟩ := htok hx
    intro x hx
    cases hx
    exact ⟨fun k h => (by rw [h1] at h; cases h), fun n h => (by rw [h2] at h; cases h)⟩

theorem rpsOf_length (l : List (Nat × Cred)) : (rpsOf l).length ≤ l.length := by
  have := (rpsOf_nodup l).length_le_of_subset (l₂ := l.map fun e => e.2.rpId) fun x hx => by
    obtain ⟨e, he, rfl⟩ := mem_rpsOf.1 hx
    exact List.mem_map.2 ⟨e, he, rfl⟩
  simpa using this

theorem rpResponse_small {rp : Bytes} {n : Option Nat} (h : Verif.Utf8.valid rp = true) (hn : ∀ k, n = some k → k < 2 ^ 64) :
    (rpResponse rp n).Small where
  rp := fun e he => by cases he; exact ⟨h, fun _ h => (nomatch h), fun _ h => (nomatch h)⟩
  user := fun _ h => nomatch h
  key := fun _ h => nomatch h
  existing := fun _ h => nomatch h
  remaining := fun _ h => nomatch h
  rps := hn
  creds := fun _ h => nomatch h

theorem credResponse_small {c : Cred} {n : Option Nat} {r : CmResponse} (h : c.IsText) (hn : ∀ k, n = some k → k < 2 ^ 64)
    (hr : credResponse c n = .ok r) : r.Small := by
  unfold credResponse pubKey at hr
  cases hp : Dev.ecdsaPub c.sk with
  | none => simp [hp] at hr
  | some xy =>
    simp only [hp, Except.ok.injEq] at hr
    subst hr
    exact {
      rp := fun _ h => nomatch h
      user := fun u hu => by
        cases hu
        intro t ht
        rcases ht with ht | ht | ht
        · exact h.name t ht
        · exact h.displayName t ht
        · exact h.icon t ht
      key := fun k hk => by cases hk; simp only [CoseKey.Small]; decide
      existing := fun _ h => nomatch h
      remaining := fun _ h => nomatch h
      rps := fun _ h => nomatch h
      creds := hn }

theorem cmMetadata_small {r : CmResponse} (hw : CredsOk s.p.creds) (h : cmMetadata s = (.ok r, s')) : r.Small := by
  simp only [cmMetadata, countCredentials, bind_ok, pure_ok] at h
  obtain ⟨n, s1, ⟨p, s2, h1, rfl, rfl⟩, m, s3, h2, rfl, rfl⟩ := h
  obtain ⟨rfl, rfl⟩ := readP_ok h1
  have h3 := remaining_ok h2
  have h4 := hw.le300
  exact {
    rp := fun _ h => nomatch h
    user := fun _ h => nomatch h
    key := fun _ h => nomatch h
    existing := fun n hn => by cases hn; omega
    remaining := fun n hn => by cases hn; omega
    rps := fun _ h => nomatch h
    creds := fun _ h => nomatch h }

theorem rps_text (hw : DataOk s) {rp : Bytes} (h : rp ∈ rpsOf s.p.creds) : Verif.Utf8.valid rp = true := by
  obtain ⟨e, he, rfl⟩ := mem_rpsOf.1 h
  exact (hw.1 e he).rp

theorem cmRpsBegin_small {ch : Channel} {r : CmResponse} (hd : DataOk s) (hw : CredsOk s.p.creds) (h : cmRpsBegin ch s = (.ok r, s')) :
    r.Small := by
  simp only [cmRpsBegin, bind_ok, pure_ok, req_ok] at h
  obtain ⟨l, s1, h1, _, s2, _, rp, _, ⟨h2, rfl⟩, rfl, rfl⟩ := h
  obtain ⟨rfl, _⟩ := storedRpIds_ok h1
  have h3 := hw.le300
  have h4 := rpsOf_length s.p.creds
  exact rpResponse_small (rps_text hd (List.mem_of_head? h2)) fun k hk => by cases hk; omega

theorem cmRpsNext_small {r : CmResponse} (hd : DataOk s) (h : cmRpsNext s = (.ok r, s')) : r.Small := by
  simp only [cmRpsNext, bind_ok, pure_ok, req_ok] at h
  obtain ⟨i, s0, h0, l, s1, h1, rp, _, ⟨h2, rfl⟩, rfl, rfl⟩ := h
  have hc := keepCreds h0
  obtain ⟨rfl, _⟩ := storedRpIds_ok h1
  rw [hc] at h2
  exact rpResponse_small (rps_text hd (List.mem_of_getElem? h2)) fun k hk => by cases hk

theorem cmCredsBegin_small {sp : CmSubParams} {ch : Channel} {r : CmResponse} (hd : DataOk s) (hw : CredsOk s.p.creds)
    (h : cmCredsBegin sp ch s = (.ok r, s')) : r.Small := by
  simp only [cmCredsBegin, bind_ok, req_ok, liftE_ok] at h
  obtain ⟨hash, _, ⟨_, rfl⟩, _, s1, h1, l, s2, h2, k, _, ⟨h3, rfl⟩, c, s3, h4, _, s4, _, h5, _⟩ := h
  have hc1 : s1.p.creds = s.p.creds := keepCreds h1
  have hc2 : s2.p.creds = s1.p.creds := keepCreds h2
  obtain ⟨hm, _⟩ := getCredential_ok h4
  rw [hc2, hc1] at hm
  obtain ⟨hp, _⟩ := iterCredentials_ok h2
  have h6 := hp.length_eq
  have h7 := hw.le300
  have h8 : (keysOfRpHash hash l).length ≤ l.length := by
    unfold keysOfRpHash
    rw [List.length_map]
    exact List.length_filter_le _ _
  rw [hc1] at h6
  exact credResponse_small (hd.1 _ hm) (fun k hk => by cases hk; omega) h5

theorem cmCredsNext_small {r : CmResponse} (hd : DataOk s) (h : cmCredsNext s = (.ok r, s')) : r.Small := by
  simp only [cmCredsNext, bind_ok, liftE_ok] at h
  obtain ⟨k, s1, h1, c, s2, h2, h3, _⟩ := h
  have hc1 : s1.p.creds = s.p.creds := keepCreds h1
  obtain ⟨hm, _⟩ := getCredential_ok h2
  exact credResponse_small (hd.1 _ (hc1 ▸ hm)) (fun k hk => by cases hk) h3

theorem cm_fits {a : CmParams} {ch : Channel} {r : Response} (hw : WireOk s) (h : credentialManagement a ch s = (.ok r, s'))
    {v : Value} (hv : r.toCbor = some (some v)) : v.Fit := by
  simp only [credentialManagement, bind_ok, pure_ok] at h
  obtain ⟨c, s1, h1, _, s2, h2, _, s3, h3, o, s4, h4, rfl, rfl⟩ := h
  have hd : DataOk s3 := by
    have : Pres DataOk (do let _ ← getCommand; whenM (!cmKeeps a.sub c) (modSp fun _ => .cleared); whenM a.sub.needsToken (cmAuth a)) := by
      pres
    have := this.out s hw.data
    simp only [bind_def, M.bind, h1, h2, h3] at this
    exact this
  have hc3 : s3.p.creds = s.p.creds := by
    have : Pres (KeepCreds s.p.creds) (do let _ ← getCommand; whenM (!cmKeeps a.sub c) (modSp fun _ => .cleared); whenM a.sub.needsToken (cmAuth a)) := by
      pres
    have := this.out s rfl
    simp only [bind_def, M.bind, h1, h2, h3] at this
    exact this
  have hw3 : CredsOk s3.p.creds := hc3 ▸ hw.creds
  cases o with
  | none => simp [Response.toCbor, optP] at hv
  | some x =>
    have hx : x.Small := by
      unfold cmDispatch at h4
      have hsame : ∀ {s s' : St} {b : Unit}, hasNoRpIdPermission s = (.ok b, s') → s' = s := by
        intro s s' b h
        simp only [hasNoRpIdPermission, bind_ok, guardE_ok, getV_ok] at h
        obtain ⟨_, _, ⟨_, rfl⟩, _, rfl⟩ := h
        rfl
      cases hs : a.sub <;> simp only [hs, bind_ok, pure_ok, req_ok, Option.some.injEq] at h4
      case metadata =>
        obtain ⟨_, s5, h5, y, s6, h6, rfl, rfl⟩ := h4
        have := hsame h5; subst this
        exact cmMetadata_small hw3 h6
      case rpsBegin =>
        obtain ⟨_, s5, h5, y, s6, h6, rfl, rfl⟩ := h4
        have := hsame h5; subst this
        exact cmRpsBegin_small hd hw3 h6
      case rpsNext =>
        obtain ⟨y, s6, h6, rfl, rfl⟩ := h4
        exact cmRpsNext_small hd h6
      case credsBegin =>
        obtain ⟨sp, _, ⟨_, rfl⟩, y, s6, h6, rfl, rfl⟩ := h4
        exact cmCredsBegin_small hd hw3 h6
      case credsNext =>
        obtain ⟨y, s6, h6, rfl, rfl⟩ := h4
        exact cmCredsNext_small hd h6
      case delete => obtain ⟨_, _, _, _, _, _, h, _⟩ := h4; cases h
      case update => obtain ⟨_, _, _, _, _, _, h, _⟩ := h4; cases h
    simp only [Response.toCbor, optP, Option.map_eq_some_iff] at hv
    obtain ⟨w, hw, he⟩ := hv
    cases he
    exact CmResponse.fit hx hw

theorem mc_fits {a : McParams} {r : Response} (h : makeCredential a s = (.ok r, s'))
    {v : Value} (hv : r.toCbor = some (some v)) : v.Fit := by
  have : ∃ m, r = .makeCredential m := by
    obtain ⟨ep, s1, s2, s3, s4, _, _, _, _, _, h⟩ := makeCredential_ok h
    simp only [mcFinish, bind_ok, pure_ok] at h
    obtain ⟨_, _, _, _, _, _, _, _, _, _, _, _, _, _, _, ⟨_, _⟩, _, _, h, _⟩ := h
    exact ⟨_, h.symm⟩
  obtain ⟨m, rfl⟩ := this
  simp only [Response.toCbor, Option.map_eq_some_iff] at hv
  obtain ⟨w, hw, he⟩ := hv
  cases he
  exact McResponse.fit hw

theorem lb_fits {a : LbParams} {r : Response} (h : largeBlobsCommand a s = (.ok r, s'))
    {v : Value} (hv : r.toCbor = some (some v)) : v.Fit := by
  have : ∃ o, r = .largeBlobs o := by
    unfold largeBlobsCommand at h
    cases hg : a.get with
    | some n =>
      simp only [hg, lbGet, bind_ok, pure_ok] at h
      obtain ⟨_, _, _, b, _, _, rfl, _⟩ := h
      exact ⟨_, rfl⟩
    | none =>
      cases hs : a.set with
      | some b =>
        simp only [hg, hs, lbSet, bind_ok, pure_ok] at h
        obtain ⟨_, _, _, _, _, _, _, _, _, _, _, _, _, _, _, _, _, _, _, _, _, rfl, _⟩ := h
        exact ⟨_, rfl⟩
      | none => simp [hg, hs, fail] at h
  obtain ⟨o, rfl⟩ := this
  cases o with
  | none => simp [Response.toCbor, optP] at hv
  | some b =>
    simp only [Response.toCbor, optP, Option.map_eq_some_iff] at hv
    obtain ⟨w, hw, he⟩ := hv
    cases he
    exact mapOptions_fit hw (by fits)

theorem response_fits {cmd : Command} {ch : Channel} {r : Response} (hc : ConfigFits) (hw : WireOk s)
    (h : processParsed cmd ch s = (.ok r, s')) {v : Value} (hv : r.toCbor = some (some v)) : v.Fit := by
  have hw : WireOk (prelude cmd ch s) := ⟨hw.data, hw.creds, hw.retries⟩
  by_cases hi : cmd = .getInfo
  · subst hi
    rw [processParsed_eq] at h
    cases ch <;> exact info_fits hc hw h hv
  · obtain ⟨_, h⟩ := processParsed_ok h hi
    cases cmd <;> simp only [fidoCommand] at h
    case getInfo => exact absurd rfl hi
    case makeCredential a => exact mc_fits h hv
    case getAssertion a => exact ga_fits hw h hv
    case clientPin a =>
      simp only [bind_ok, pure_ok] at h
      obtain ⟨o, s1, h1, rfl, rfl⟩ := h
      exact pin_fits hw h1 hv
    case reset =>
      simp only [resetCommand, bind_ok, pure_ok] at h
      obtain ⟨_, _, _, _, _, _, _, _, _, _, _, _, _, _, _, _, _, _, rfl, _⟩ := h
      cases hv
    case getNextAssertion => exact next_fits hw h hv
    case credMgmt a => exact cm_fits hw h hv
    case selection =>
      simp only [selection, bind_ok, pure_ok] at h
      obtain ⟨_, _, _, rfl, _⟩ := h
      cases hv
    case largeBlobs a => exact lb_fits h hv
    case config a =>
      obtain ⟨_, _, _, rfl, _⟩ := configCommand_ok h
      cases hv

/-! ## Responses are maps -/

theorem mapOptions_map {es : List (Value × Option Value)} {v : Value} (h : cborMapOptions es = some v) : ∃ m, v = .map m := by
  unfold cborMapOptions Verif.Cbor.mkMap at h
  split at h
  · cases h
  · cases h
    exact ⟨_, rfl⟩

theorem response_map {r : Response} {v : Value} (h : r.toCbor = some (some v)) : ∃ m, v = .map m := by
  cases r with
  | makeCredential r =>
    simp only [Response.toCbor, McResponse.toCbor, Option.map_eq_some_iff, Option.bind_eq_bind, Option.bind_eq_some_iff] at h
    obtain ⟨w, ⟨_, _, hw⟩, he⟩ := h
    cases he
    exact mapOptions_map hw
  | getAssertion r =>
    simp only [Response.toCbor, GaResponse.toCbor, Option.map_eq_some_iff, Option.bind_eq_bind, Option.bind_eq_some_iff] at h
    obtain ⟨w, ⟨_, _, _, _, hw⟩, he⟩ := h
    cases he
    exact mapOptions_map hw
  | getNextAssertion r =>
    simp only [Response.toCbor, GaResponse.toCbor, Option.map_eq_some_iff, Option.bind_eq_bind, Option.bind_eq_some_iff] at h
    obtain ⟨w, ⟨_, _, _, _, hw⟩, he⟩ := h
    cases he
    exact mapOptions_map hw
  | getInfo r =>
    simp only [Response.toCbor, InfoResponse.toCbor, Option.map_eq_some_iff, Option.bind_eq_bind, Option.bind_eq_some_iff] at h
    obtain ⟨w, ⟨_, _, _, _, hw⟩, he⟩ := h
    cases he
    exact mapOptions_map hw
  | clientPin r =>
    cases r with
    | none => simp [Response.toCbor, optP] at h
    | some r =>
      simp only [Response.toCbor, optP, PinResponse.toCbor, Option.map_eq_some_iff, Option.bind_eq_bind, Option.bind_eq_some_iff] at h
      obtain ⟨w, ⟨_, _, hw⟩, he⟩ := h
      cases he
      exact mapOptions_map hw
  | credMgmt r =>
    cases r with
    | none => simp [Response.toCbor, optP] at h
    | some r =>
      simp only [Response.toCbor, optP, CmResponse.toCbor, Option.map_eq_some_iff, Option.bind_eq_bind, Option.bind_eq_some_iff] at h
      obtain ⟨w, ⟨_, _, _, _, _, _, _, _, hw⟩, he⟩ := h
      cases he
      exact mapOptions_map hw
  | largeBlobs r =>
    cases r with
    | none => simp [Response.toCbor, optP] at h
    | some r =>
      simp only [Response.toCbor, optP, Option.map_eq_some_iff] at h
      obtain ⟨w, hw, he⟩ := h
      cases he
      exact mapOptions_map hw
  | _ => cases h

end Verif.Ctap
