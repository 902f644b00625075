import Verif.Ctap.PropsAuthData
import Verif.Ctap.PropsKept

/-!
# C81: extensions return what was registered
-/
namespace Verif.Ctap

open Verif.Cbor

section
variable [Dev] {P : Oracle → Prop} {s s' : St} {ch : Channel}

/-! ## Specification -/

/-- The assertion `g` answers the extensions of the request `a` with the blob, the large blob key, and secrets that depend on the private
key `sk`, the master keys `mk` and the salts only. -/
def ReturnsExt (a : GaParams) (g : GaResponse) (p : ClientPin) (mk sk : Bytes) (blob lbk : Option Bytes) : Prop :=
  ∃ d out, d.Ok ∧ g.authData = d.bytes ∧ GaOutputs.In { credBlob := if a.ext.credBlob then some (blob.getD []) else none, hmacSecret := out } d ∧
    out.isSome = a.ext.hmacSecret.isSome ∧
    (∀ i x, a.ext.hmacSecret = some i → out = some x → SecretsFor p (credRandomOf mk sk a.authParam.isSome) i x) ∧
    g.largeBlobKey = if a.ext.largeBlobKey = some true then lbk else none

/-! ## Proofs -/

theorem command_master {mk : Bytes} {cmd : Command} (hn : cmd ≠ .reset) (h : MasterIs mk s) : MasterIs mk (channelCommand ch cmd s).2 := by
  cases ch with
  | vendor c => cases cmd <;> unfold channelCommand vendorChannelCommand <;> exact Pres.out (I := MasterIs mk) (self := by pres) _ h
  | main c =>
    cases cmd with
    | reset => exact absurd rfl hn
    | credMgmt a => exact Pres.out (I := MasterIs mk) (m := credentialManagement a _) _ h
    | makeCredential a => exact Pres.out (I := MasterIs mk) (m := makeCredential a) _ h
    | getAssertion a => exact Pres.out (I := MasterIs mk) (m := getAssertion a _) _ h
    | getNextAssertion => exact Pres.out (I := MasterIs mk) (m := getNextAssertion) _ h
    | getInfo => exact Pres.out (I := MasterIs mk) (m := getInfo) _ h
    | clientPin a =>
      exact Pres.out (I := MasterIs mk) (m := do let r ← clientPinCommand a; M.pure (Response.clientPin r)) _ h
    | selection => exact Pres.out (I := MasterIs mk) (m := selection) _ h
    | largeBlobs a => exact Pres.out (I := MasterIs mk) (m := largeBlobsCommand a) _ h
    | config a => exact Pres.out (I := MasterIs mk) (m := configCommand a) _ h

/-- Without a reset, the master keys stay. -/
theorem without_master {kind : Command → Prop} {mk : Bytes} (hk : kind .reset) (h : Without P kind s s') (h0 : s.p.master = some mk) :
    s'.p.master = some mk := by
  induction h with
  | start => exact h0
  | boot h ho ih => exact Pres.out (I := MasterIs mk) (m := bootM) _ ih
  | @step s1 o i h ho hi ih =>
    by_cases h : ∃ ch msg cmd, i = .ctap2 ch msg ∧ Command.deserialize msg = .ok cmd
    · obtain ⟨ch, msg, cmd, rfl, hd⟩ := h
      have hn : cmd ≠ .reset := fun he => hi ch msg cmd rfl hd (he ▸ hk)
      refine stepM_msg (I := MasterIs mk) hd ?_
      rw [processParsed_eq]
      exact command_master hn ih
    · exact stepM_idle (I := MasterIs mk) (fun ch msg cmd h1 h2 => h ⟨ch, msg, cmd, h1, h2⟩) ih

/-- If a list with one id is answered, a single stored credential has this id. -/
theorem listed_unique {g : GaParams} {r : Response} {c d : Cred} {id : Bytes} (hc : NamesStored s.stored g.rpId id c)
    (hd : NamesStored s.stored g.rpId id d) (hl : g.allowList = some [{ id := id }])
    (h : processParsed (.getAssertion g) ch s = (.ok r, s')) : c = d := by
  obtain ⟨⟨cid, rfl⟩, h⟩ := processParsed_ok h (by simp)
  obtain ⟨s1, s2, s3, s4, s5, s6, c', rest, ad, number, ga, h1, h2, h3, h4, h5, h6, h7, rfl, _⟩ := getAssertion_ok h
  have hp1 := keepP h1
  have hst : s1.stored = s.stored := by unfold St.stored; rw [hp1]; rfl
  simp only [gaFindCredential, hl, bind_ok, pure_ok, Prod.mk.injEq, anyFromAllowList] at h2
  obtain ⟨o, s7, ⟨o', s8, h8, h9⟩, ⟨rfl, _⟩, _⟩ := h2
  obtain ⟨_, _, h10⟩ := findCredential_spec h8
  rw [hst] at h10
  exact Option.some.inj (((h10 c).2 hc).symm.trans ((h10 d).2 hd))

theorem AssertedAs.returns {a : GaParams} {c : Cred} {g : GaResponse} {p : ClientPin} {d : AuthData} {out : Option Bytes} {mk : Bytes}
    (h : AssertedAs a c g p s d out) (hm : s.p.master = some mk) : ReturnsExt a g p mk c.sk c.credBlob c.largeBlobKey := by
  refine ⟨d, out, h.ok, h.bytes, h.outputs, h.secrets.1, fun i x hi hx => ?_, h.largeBlobKey⟩
  obtain ⟨mk', h1, h2⟩ := h.secrets.2 i x hi hx
  rw [hm] at h1
  cases h1
  exact h2

omit [Dev] in
theorem credentialIdIn_bytes {d : AuthData} {c : AttestedCredential} (h : d.Ok) (hc : d.credential = some c) :
    credentialIdIn d.bytes = c.id := by
  have h1 := h.hash
  have h2 := h.aaguid c hc
  have h3 := h.id c hc
  have e : ∀ x : Bytes, d.rpIdHash ++ [d.flags] ++ beBytes 4 d.counter ++ (c.aaguid ++ x) =
      (d.rpIdHash ++ [d.flags] ++ beBytes 4 d.counter ++ c.aaguid) ++ x := fun x => by simp
  have hl : (d.rpIdHash ++ [d.flags] ++ beBytes 4 d.counter ++ c.aaguid).length = 53 := by simp [h1, h2, beBytes_length]
  have hb : d.bytes = (d.rpIdHash ++ [d.flags] ++ beBytes 4 d.counter ++ c.aaguid) ++ (beBytes 2 c.id.length ++ (c.id ++ (c.key.enc ++
      (d.extensions.map Value.enc).getD []))) := by
    simp [AuthData.bytes, hc, AttestedCredential.bytes]
  unfold credentialIdIn
  rw [hb]
  generalize d.rpIdHash ++ [d.flags] ++ beBytes 4 d.counter ++ c.aaguid = p at *
  have h4 : (beBytes 2 c.id.length).length = 2 := beBytes_length ..
  have h5 : (p ++ (beBytes 2 c.id.length ++ (c.id ++ (c.key.enc ++ (d.extensions.map Value.enc).getD [])))).drop 53 =
      beBytes 2 c.id.length ++ (c.id ++ (c.key.enc ++ (d.extensions.map Value.enc).getD [])) := by rw [← hl]; exact List.drop_left
  have h6 : (p ++ (beBytes 2 c.id.length ++ (c.id ++ (c.key.enc ++ (d.extensions.map Value.enc).getD [])))).drop 55 =
      c.id ++ (c.key.enc ++ (d.extensions.map Value.enc).getD []) := by
    rw [show 55 = 53 + 2 from rfl, ← List.drop_drop, h5, ← h4]; exact List.drop_left
  have h7 : beNat (beBytes 2 c.id.length) = c.id.length := by
    simp [beNat, beBytes]
    omega
  have h8 : (beBytes 2 c.id.length ++ (c.id ++ (c.key.enc ++ (d.extensions.map Value.enc).getD []))).take 2 = beBytes 2 c.id.length := by
    rw [List.take_append_of_le_length (by omega), List.take_of_length_le (by omega)]
  rw [h5, h6, h8, h7, List.take_left]

theorem listed_data {mk id : Bytes} (hc : CredsOk s.p.creds) (hb : AllCreds BlobOk s) (hm : s.p.master = some mk) {o : Oracle} {a : GaParams} {r : Response}
    (h : processParsed (.getAssertion a) ch (s.withOracle o) = (.ok r, s')) (hal : a.allowList = some [{ id := id }]) :
    ∃ g c d out, r = .getAssertion g ∧ AssertedAs a c g s.v.pin s' d out ∧ s'.p.master = some mk ∧ s'.stored = s.stored ∧ c.id = id := by
  obtain ⟨g, z, d', out, rfl, hd', _⟩ := assertion_data hc hb h
  obtain ⟨⟨cid, rfl⟩, h⟩ := processParsed_ok h (by simp)
  refine ⟨g, z, d', out, rfl, hd', keepMaster (m := getAssertion a (.main cid)) h hm, ?_, ?_⟩
  · have : s'.p.creds = s.p.creds := (keepCreds (m := getAssertion a (.main cid)) h).trans rfl
    unfold St.stored; rw [this]
  · obtain ⟨e, h1, h2⟩ := hd'.listed _ hal
    rw [List.mem_singleton] at h1
    rw [← h2, h1]

omit [Dev] in
theorem allCreds_mem {Q : Cred → Prop} {c : Cred} (h : AllCreds Q s) (hc : c ∈ s.stored) : Q c := by
  obtain ⟨e, he, rfl⟩ := List.mem_map.1 hc
  exact h e he

/-- A login with the id of a stored credential finds it. -/
theorem used_stored {ac : McParams} {m : McResponse} {msg : Bytes} {o : Oracle} {s1 : St}
    (hr : Reach P true s) (ho : P o) (hmsg : Command.deserialize msg = .ok (.makeCredential ac))
    (h : processParsed (.makeCredential ac) ch (s.withOracle o) = (.ok (.makeCredential m), s1)) (hrk : ac.options.rk = true)
    (hl : m.authData.length < 2 ^ 64) :
    ∃ d c sk policy blob mk, RegisteredAs ac m s1 d c sk policy blob ∧
      ∀ s2, Without P (Unregisters ac m) (stepM (.ctap2 ch msg) (s.withOracle o)).2 s2 →
        ∀ (a : GaParams) (ch' : Channel) (o' : Oracle) (r : Response) (s3 : St), a.rpId = ac.rp.id →
          a.allowList = some [{ id := c.id }] → processParsed (.getAssertion a) ch' (s2.withOracle o') = (.ok r, s3) →
          ∃ g z d' out, r = .getAssertion g ∧ AssertedAs a z g s2.v.pin s3 d' out ∧ z.id = c.id ∧ z.sk = sk ∧ z.credBlob = blob ∧
            z.largeBlobKey = m.largeBlobKey ∧ s3.p.master = some mk := by
  obtain ⟨d, c, sk, policy, blob, hreg⟩ := C80_registration hr h hl
  obtain ⟨x, hx, x1, x2, x3, x4, x5, x6, x7⟩ := hreg.stored hrk
  obtain ⟨mk, hmk⟩ := Option.isSome_iff_exists.1 hreg.master
  have hid : credentialIdIn m.authData = c.id := by rw [hreg.bytes]; exact credentialIdIn_bytes hreg.ok hreg.credential
  refine ⟨d, c, sk, policy, blob, mk, hreg, fun s2 hw a ch' o' r s3 hrp hal hga => ?_⟩
  have hr' := Reach.step o ho (.ctap2 ch msg) hr
  have hp := (step_parsed hmsg h).1
  have hx' : x ∈ (stepM (.ctap2 ch msg) (s.withOracle o)).2.stored := by unfold St.stored; rw [hp]; exact hx
  have hm2 : s2.p.master = some mk := without_master (kind := Unregisters ac m) ⟨x, by rw [hid, x2], x1, x6, trivial⟩ hw (by rw [hp]; exact hmk)
  obtain ⟨y, hy, hk⟩ := without_inv (I := fun l => ∃ y ∈ l, x.sameKey y) (credsOk_reach hr') ⟨x, hx', x.sameKey_refl⟩
    (fun _ _ _ hn h1' ⟨y, hy, hk⟩ => by
      obtain ⟨y', hy', hk'⟩ := h1'.left y hy fun h => hn ⟨y, by rw [hk, hid]; exact x2, by rw [hk]; exact x1, by rw [hk]; exact x6, h⟩
      exact ⟨y', hy', Cred.sameKey_trans hk hk'⟩) hw
  have hr2 : CredsOk s2.p.creds := without_pres (I := InvCreds) hw (credsOk_reach hr')
  have hb2 : AllCreds BlobOk s2 := without_pres (I := AllCreds BlobOk) hw (allCreds_reach hr')
  obtain ⟨g, z, d', out, rfl, hd', hm3, hst, hzid⟩ := listed_data hr2 hb2 hm2 hga hal
  refine ⟨g, z, d', out, rfl, hd', hzid, ?_⟩
  have hzy : z = y := by
    rcases hd'.has with ⟨h1, h2⟩ | ⟨mk, w, _, h1, _⟩
    · refine listed_unique (s := s2.withOracle o') (id := c.id) ⟨show z ∈ s2.stored from hst ▸ h1, hzid, h2⟩ ⟨hy, by rw [hk]; exact x2, by rw [hk, hrp]; exact x1⟩ hal hga
    · have h2 := h1.tagged.1
      have h3 := allCreds_mem (without_pres (I := AllCreds fun c => c.id.length = 32) hw (allCreds_reach hr')) hy
      have h4 : y.id = x.id := by rw [hk]
      rw [hzid, ← x2, ← h4, h3] at h2
      cases h2
  subst hzy
  exact ⟨by rw [hk]; exact x3, by rw [hk]; exact x5, by rw [hk]; exact x7, hm3⟩

/-- A login with an id that contains a credential finds it. -/
theorem used_wrapped {ac : McParams} {m : McResponse} {msg : Bytes} {o : Oracle} {s1 : St}
    (hr : Reach P true s) (ho : P o) (hmsg : Command.deserialize msg = .ok (.makeCredential ac))
    (h : processParsed (.makeCredential ac) ch (s.withOracle o) = (.ok (.makeCredential m), s1)) (hrk : ac.options.rk = false)
    (hl : m.authData.length < 2 ^ 64) :
    ∃ d c sk policy blob mk, RegisteredAs ac m s1 d c sk policy blob ∧
      ∀ s2, Without P (· = .reset) (stepM (.ctap2 ch msg) (s.withOracle o)).2 s2 →
        ∀ (a : GaParams) (ch' : Channel) (o' : Oracle) (r : Response) (s3 : St), a.rpId = ac.rp.id →
          a.allowList = some [{ id := c.id }] → processParsed (.getAssertion a) ch' (s2.withOracle o') = (.ok r, s3) →
          ∃ g z d' out, r = .getAssertion g ∧ AssertedAs a z g s2.v.pin s3 d' out ∧ z.id = c.id ∧ z.sk = sk ∧ z.credBlob = blob ∧
            z.largeBlobKey = none ∧ s3.p.master = some mk := by
  obtain ⟨d, c, sk, policy, blob, hreg⟩ := C80_registration hr h hl
  obtain ⟨mk, w, hmk, hw, x1, x2, x3⟩ := hreg.wrapped hrk
  refine ⟨d, c, sk, policy, blob, mk, hreg, fun s2 hwo a ch' o' r s3 hrp hal hga => ?_⟩
  have hr' := Reach.step o ho (.ctap2 ch msg) hr
  have hp := (step_parsed hmsg h).1
  have hm2 : s2.p.master = some mk := without_master (kind := (· = .reset)) rfl hwo (by rw [hp]; exact hmk)
  have hr2 : CredsOk s2.p.creds := without_pres (I := InvCreds) hwo (credsOk_reach hr')
  have hb2 : AllCreds BlobOk s2 := without_pres (I := AllCreds BlobOk) hwo (allCreds_reach hr')
  obtain ⟨g, z, d', out, rfl, hd', hm3, hst, hzid⟩ := listed_data hr2 hb2 hm2 hga hal
  refine ⟨g, z, d', out, rfl, hd', hzid, ?_⟩
  rcases hd'.has with ⟨h1, h2⟩ | ⟨mk', w', hmk', h1, h2, _, h4, _, h6⟩
  · have h3 := allCreds_mem (without_pres (I := AllCreds fun c => c.id.length = 32) hwo (allCreds_reach hr')) (hst ▸ h1)
    have h4 := hw.tagged.1
    rw [← hzid, h3] at h4
    cases h4
  · rw [hm3] at hmk'
    cases hmk'
    rw [hzid, hrp] at h1
    have hww : w' = w := by
      have e1 := opens_iff.2 h1
      rw [opens_iff.2 hw] at e1
      cases e1
      rfl
    subst hww
    exact ⟨h2.trans x1, h4.trans x3, h6, hm3⟩

/-- **C81**, stored credentials: after the registration, whatever happens (failures and power cuts included), as long as no request is
meant to remove the credential, the answers to logins with its id return the blob that was registered, the large blob key that the
registration returned, and secrets that are the same each time. -/
theorem C81_stored {ac : McParams} {m : McResponse} {msg : Bytes} {o : Oracle} {s1 : St}
    (hr : Reach P true s) (ho : P o) (hmsg : Command.deserialize msg = .ok (.makeCredential ac))
    (h : processParsed (.makeCredential ac) ch (s.withOracle o) = (.ok (.makeCredential m), s1)) (hrk : ac.options.rk = true)
    (hl : m.authData.length < 2 ^ 64) :
    ∃ d c sk policy blob mk, RegisteredAs ac m s1 d c sk policy blob ∧
      ∀ s2, Without P (Unregisters ac m) (stepM (.ctap2 ch msg) (s.withOracle o)).2 s2 →
        ∀ (a : GaParams) (ch' : Channel) (o' : Oracle) (r : Response) (s3 : St), a.rpId = ac.rp.id →
          a.allowList = some [{ id := c.id }] → processParsed (.getAssertion a) ch' (s2.withOracle o') = (.ok r, s3) →
          ∃ g, r = .getAssertion g ∧ ReturnsExt a g s2.v.pin mk sk blob m.largeBlobKey := by
  obtain ⟨d, c, sk, policy, blob, mk, hreg, hu⟩ := used_stored hr ho hmsg h hrk hl
  refine ⟨d, c, sk, policy, blob, mk, hreg, fun s2 hw a ch' o' r s3 hrp hal hga => ?_⟩
  obtain ⟨g, z, d', out, rfl, hd', _, e1, e2, e3, hm3⟩ := hu s2 hw a ch' o' r s3 hrp hal hga
  have := hd'.returns hm3
  rw [e1, e2, e3] at this
  exact ⟨g, rfl, this⟩

/-- **C81**, credentials that are in their id: the same, as long as the device is not reset. -/
theorem C81_wrapped {ac : McParams} {m : McResponse} {msg : Bytes} {o : Oracle} {s1 : St}
    (hr : Reach P true s) (ho : P o) (hmsg : Command.deserialize msg = .ok (.makeCredential ac))
    (h : processParsed (.makeCredential ac) ch (s.withOracle o) = (.ok (.makeCredential m), s1)) (hrk : ac.options.rk = false)
    (hl : m.authData.length < 2 ^ 64) :
    ∃ d c sk policy blob mk, RegisteredAs ac m s1 d c sk policy blob ∧
      ∀ s2, Without P (· = .reset) (stepM (.ctap2 ch msg) (s.withOracle o)).2 s2 →
        ∀ (a : GaParams) (ch' : Channel) (o' : Oracle) (r : Response) (s3 : St), a.rpId = ac.rp.id →
          a.allowList = some [{ id := c.id }] → processParsed (.getAssertion a) ch' (s2.withOracle o') = (.ok r, s3) →
          ∃ g, r = .getAssertion g ∧ ReturnsExt a g s2.v.pin mk sk blob none := by
  obtain ⟨d, c, sk, policy, blob, mk, hreg, hu⟩ := used_wrapped hr ho hmsg h hrk hl
  refine ⟨d, c, sk, policy, blob, mk, hreg, fun s2 hw a ch' o' r s3 hrp hal hga => ?_⟩
  obtain ⟨g, z, d', out, rfl, hd', _, e1, e2, e3, hm3⟩ := hu s2 hw a ch' o' r s3 hrp hal hga
  have := hd'.returns hm3
  rw [e1, e2, e3] at this
  exact ⟨g, rfl, this⟩

end
end Verif.Ctap

namespace Verif.Ctap.Toy
open Verif.Cbor (Value)
set_option maxRecDepth 100000

/-- A registration with all extensions. -/
def registerExt (rk : Bool) : Input :=
  send 0x01 (map [(.unsigned 1, .bytes cdh), (.unsigned 2, map [(.text (b! "id"), .text rpA)]),
    (.unsigned 3, map [(.text (b! "id"), .bytes [1])]), (.unsigned 4, .array [param]),
    (.unsigned 6, map ([(.text (b! "credBlob"), .bytes [1, 2, 3]), (.text (b! "credProtect"), .unsigned 2),
      (.text (b! "hmac-secret"), cborBool true)] ++ if rk then [(.text (b! "largeBlobKey"), cborBool true)] else [])),
    (.unsigned 7, map [(.text (b! "rk"), cborBool rk)])])

/-- The salts of two requests for secrets. -/
def salt (n : Nat) : Bytes := List.replicate n 0x11

/-- An assertion with all extensions. -/
def assertExt (id : Bytes) (salts : Bytes) : Input :=
  send 0x02 (map [(.unsigned 1, .text rpA), (.unsigned 2, .bytes cdh),
    (.unsigned 3, .array [map [(.text (b! "id"), .bytes id), (.text (b! "type"), .text (b! "public-key"))]]),
    (.unsigned 4, map [(.text (b! "credBlob"), cborBool true),
      (.text (b! "hmac-secret"), map [(.unsigned 1, cose), (.unsigned 2, .bytes (enc salts)), (.unsigned 3, .bytes (mac (enc salts)))]),
      (.text (b! "largeBlobKey"), cborBool true)])])

/-- The answer to a registration. -/
def registeredBy (i : Input) (s : St) : Option McResponse :=
  match (processParsed (parse i) ch (s.withOracle good)).1 with
  | .ok (.makeCredential m) => some m
  | _ => none

def assertedBy (i : Input) (s : St) : Option GaResponse :=
  match (processParsed (parse i) ch (s.withOracle good)).1 with
  | .ok (.getAssertion g) => some g
  | _ => none

def extId (rk : Bool) : Bytes := ((registeredBy (registerExt rk) booted).map fun m => credentialIdIn m.authData).getD []
def extState (rk : Bool) : St := boot good (step good (registerExt rk) booted)

/-- C80: the contents of the authenticator data of these answers. -/
example : let d : AuthData :=
      { rpIdHash := Dev.sha256 rpA, up := true, uv := false, counter := 1
        credential := some { aaguid := Dev.aaguid, id := extId true
                             key := map [(.unsigned 1, .unsigned 2), (.unsigned 3, .negative (-7)), (.negative (-1), .unsigned 1),
                               (.negative (-2), .bytes ((List.range 32).map fun i => UInt8.ofNat (29 + i))),
                               (.negative (-3), .bytes ((List.range 32).map fun i => UInt8.ofNat (29 + i)))] }
        extensions := some (map [(.text (b! "credBlob"), cborBool true), (.text (b! "credProtect"), .unsigned 2),
          (.text (b! "hmac-secret"), cborBool true)]) }
    (registeredBy (registerExt true) booted).map (·.authData) = some d.bytes := by decide +kernel

example : (assertedBy (assertExt (extId true) (salt 32)) (extState true)).map (·.authData.take 37) =
    some ({ rpIdHash := Dev.sha256 rpA, up := true, uv := false, counter := 9, credential := none
            extensions := some (map []) } : AuthData).bytes.dropLast := by decide +kernel

/-- C80, C81: the hypotheses are met; the extensions of the login return what was registered, also after a restart. -/
example : ∃ ac m s1, parse (registerExt true) = .makeCredential ac ∧ ac.options.rk = true ∧
    processParsed (.makeCredential ac) ch (booted.withOracle good) = (.ok (.makeCredential m), s1) ∧ m.authData.length < 2 ^ 64 ∧
    m.largeBlobKey.isSome = true ∧
    (assertedBy (assertExt (extId true) (salt 32)) (extState true)).map (·.largeBlobKey) = some m.largeBlobKey ∧
    (assertedBy (assertExt (extId true) (salt 64)) (step good (.wait 5) (extState true))).map (·.largeBlobKey) = some m.largeBlobKey := by
  have h : (match parse (registerExt true), runCmd (parse (registerExt true)) booted with
    | .makeCredential ac, (.ok (.makeCredential m), _) => ac.options.rk && m.largeBlobKey.isSome && decide (m.authData.length < 2 ^ 64) &&
        (assertedBy (assertExt (extId true) (salt 32)) (extState true)).map (·.largeBlobKey) == some m.largeBlobKey &&
        (assertedBy (assertExt (extId true) (salt 64)) (step good (.wait 5) (extState true))).map (·.largeBlobKey) == some m.largeBlobKey
    | _, _ => false) = true := by decide +kernel
  split at h
  · rename_i ac m s1 h1 h2
    simp only [Bool.and_eq_true, beq_iff_eq, decide_eq_true_eq] at h
    rw [h1] at h2
    exact ⟨ac, m, s1, h1, h.1.1.1.1, h2, h.1.1.2, h.1.1.1.2, h.1.2, h.2⟩
  · cases h

/-- The secret in the last 32 bytes of the authenticator data, decrypted by the platform. -/
def secretIn (g : GaResponse) : Option Bytes := PinSpec.decrypt .v1 x (g.authData.drop (g.authData.length - 32))

/-- C81: the secrets are the same each time for the same salt; the blob is the one of the registration. The same holds for a
credential that is in its id. -/
example :
    let secretOf (rk : Bool) (s : St) := (assertedBy (assertExt (extId rk) (salt 32)) s).bind secretIn
    (secretOf true (extState true)).isSome = true ∧
    secretOf true (extState true) = secretOf true (step good (assert rpB none none) (boot good (extState true))) ∧
    secretOf true (extState true) = ((extState true).p.master.map fun mk => Dev.hmac (credRandomOf mk
      (((extState true).stored.map (·.sk)).headD []) false) (salt 32)) ∧
    (secretOf false (extState false)).isSome = true ∧ secretOf false (extState false) = secretOf false (boot good (extState false)) ∧
    (assertedBy (assertExt (extId false) (salt 32)) (extState false)).map (·.largeBlobKey) = some none ∧
    (assertedBy (assertExt (extId false) (salt 32)) (extState false)).map (fun g => (g.authData.drop 47).take 4) = some [0x43, 1, 2, 3] := by
  decide +kernel

end Verif.Ctap.Toy
