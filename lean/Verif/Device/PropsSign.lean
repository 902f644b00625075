import Verif.Device.Spec

/-!
# C69: the answers of the firmware verify
-/
namespace Verif.Device
open Verif.Ctap
open Verif.P256 (G E Secret)
open Verif.P256.Spec (coords number Valid DerSignature)
open Verif.Crypto.Sha (SHA256)

/-! ## Keys and signatures -/

theorem array32_some {α : Type} {f : Bytes → Option α} {b : Bytes} {r : α} :
    array32 f b = some r ↔ b.length = 32 ∧ f b = some r := by
  unfold array32
  split
  · simp [*]
  · simp [*]

theorem pub_pair {sk x y : Bytes} (h : ecdsaPub sk = some (x, y)) : KeyPair sk x y := by
  obtain ⟨k, hk, he⟩ := Option.map_eq_some_iff.1 h
  obtain ⟨hl, hk⟩ := array32_some.1 hk
  obtain ⟨_, _, h3, _, h5⟩ := P256.C65_secret hl
  have hs := ((h3 k).1 hk).1
  have hv := h5 k hk
  have hp := P256.C61_public hs
  rw [hv] at hp
  simp only [P256.Ecdsa.PubKey.to_coordinates, Prod.mk.injEq] at he
  obtain ⟨rfl, rfl⟩ := he
  refine ⟨hl, ⟨by rw [← hv]; exact hs.2.1, by rw [← hv]; exact hs.2.2⟩, P256.to_bin_len hp.wx, P256.to_bin_len hp.wy, ?_⟩
  rw [hp.coords]
  simp only [P256.number_to_bin]

theorem sign_verifies {w turns : Nat} (hw : w = 32 ∨ w = 64) {sk msg sig x y : Bytes} (hl : msg.length < 2 ^ 32)
    (h : ecdsaSign w turns sk msg = some sig) (hp : KeyPair sk x y) : Verifies x y msg sig := by
  obtain ⟨k, hk, h⟩ := Option.bind_eq_some_iff.1 h
  obtain ⟨_, hk⟩ := array32_some.1 hk
  obtain ⟨_, _, h3, _, h5⟩ := P256.C65_secret hp.1
  have hs := ((h3 k).1 hk).1
  obtain ⟨g, hg, rfl⟩ := Option.map_eq_some_iff.1 h
  obtain ⟨c1, c2, c3⟩ := P256.C61_signature (P256.sha256_ok w) hs (.deterministic turns (P256.sha256_hmac_len w) hg)
  rw [h5 k hk] at c3
  have hh : (P256.sha256 w).hash msg = SHA256 msg := by
    refine Crypto.Sha.sha256_hash w msg ?_ (by have : (2:Nat)^32 < 2^61 := by decide
                                               omega)
    rcases hw with rfl | rfl
    · exact hl
    · have : (2:Nat)^32 < 2^64 := by decide
      omega
  rw [hh] at c3
  exact ⟨_, _, _, hp.2.2.2.2, (P256.C65_der c1 c2).1, c3⟩

theorem sign_pub {w turns : Nat} {sk msg sig : Bytes} (h : ecdsaSign w turns sk msg = some sig) :
    ∃ x y, ecdsaPub sk = some (x, y) := by
  obtain ⟨k, hk, _⟩ := Option.bind_eq_some_iff.1 h
  exact ⟨_, _, Option.map_eq_some_iff.2 ⟨k, hk, rfl⟩⟩

/-- The COSE key of the model is the one of the specification. -/
theorem cose_bytes {x y : Bytes} (hx : x.length = 32) (hy : y.length = 32) {v : Cbor.Value} {cose : Bytes}
    (h1 : CoseKey.toCbor { x := x, y := y, alg := -7, kty := 2, crv := 1 } = some v) (h2 : cborWrite v = .ok cose) :
    cose = coseKey x y := by
  have e : CoseKey.toCbor { x := x, y := y, alg := -7, kty := 2, crv := 1 } =
      some (.map [(.unsigned 1, .unsigned 2), (.unsigned 3, .negative (-7)), (.negative (-1), .unsigned 1),
        (.negative (-2), .bytes x), (.negative (-3), .bytes y)]) := rfl
  rw [e] at h1
  cases h1
  have e2 : cborWrite (.map [(.unsigned 1, .unsigned 2), (.unsigned 3, .negative (-7)), (.negative (-1), .unsigned 1),
        (.negative (-2), .bytes x), (.negative (-3), .bytes y)]) =
      .ok ([0xa5, 0x01, 0x02, 0x03, 0x26, 0x20, 0x01, 0x21] ++ (Cbor.startItem 2 x.length ++ x) ++
        ([0x22] ++ (Cbor.startItem 2 y.length ++ y) ++ [])) := rfl
  rw [e2, hx, hy] at h2
  cases h2
  simp [coseKey, Cbor.startItem, Cbor.beBytes]

section
variable [Dev] {s s' : St} {ch : Channel}

/-- The signature of a registration (for any cryptography). -/
theorem registered_sig {a : McParams} {m : McResponse}
    (h : processParsed (.makeCredential a) ch s = (.ok (.makeCredential m), s')) :
    ∃ sk, PublicKeyIn m.authData sk ∧
      ((m.x5c = none ∧ Dev.ecdsaSign sk (m.authData ++ a.clientDataHash) = some m.sig) ∨
       ∃ att, s'.p.attestation = some att ∧ m.x5c = some att.certificate ∧
         Dev.ecdsaSign att.sk (m.authData ++ a.clientDataHash) = some m.sig) := by
  have key : ∃ sk, PublicKeyIn m.authData sk ∧ ∃ ep s1, mcSign ep sk (m.authData ++ a.clientDataHash) s1 = (.ok (m.sig, m.x5c), s') := by
    obtain ⟨_, h⟩ := processParsed_ok h (by simp)
    obtain ⟨ep, s1, s2, s3, s4, _, h1, h2, h3, h4, h5⟩ := makeCredential_ok h
    simp only [mcFinish, bind_ok, pure_ok] at h5
    obtain ⟨mp, s5, a1, lbk, s6, a2, sk, s7, a3, id, s8, a4, ad, s9, a5, ⟨sig, x5c⟩, s10, a6, a7, rfl⟩ := h5
    cases a7
    refine ⟨sk, ?_, ep, s9, a6⟩
    have hid := mcAuthData_ok a5
    simp only [mcAuthData, generateAuthData, bind_ok, pure_ok, guardE_ok, liftE_ok] at a5
    obtain ⟨base, _, ⟨c, _, _, rfl, rfl⟩, _, _, ⟨_, rfl⟩, pk, _, ⟨hpk, rfl⟩, cose, s3', hcose, ext, _, _, rfl, _⟩ := a5
    simp only [pubKey] at hpk
    cases hpub : Dev.ecdsaPub sk with
    | none => rw [hpub] at hpk; cases hpk
    | some xy =>
      obtain ⟨x, y⟩ := xy
      rw [hpub] at hpk
      cases hpk
      obtain ⟨_, v, hv, hcose⟩ := cborWriteM_ok hcose
      refine ⟨x, y, v, cose, hpub, hv, hcose, ?_⟩
      simp only [hid]
      rw [List.append_assoc, List.drop_left']
      · exact List.prefix_append _ _
      · simp [Dev.sha256_len, Dev.aaguid_len, Verif.Cbor.beBytes]
        omega
  obtain ⟨sk, hk, ep, s1, h1⟩ := key
  refine ⟨sk, hk, ?_⟩
  unfold mcSign at h1
  split at h1
  · simp only [bind_ok, req_ok] at h1
    obtain ⟨o, s2, h2, att, s3, ⟨rfl, rfl⟩, h3⟩ := h1
    right
    simp only [attestationGet, mapErr_ok, bind_ok, pure_ok] at h2
    obtain ⟨p, s4, h2, h4, rfl⟩ := h2
    obtain ⟨rfl, rfl⟩ := readP_ok h2
    cases hs : Dev.ecdsaSign att.sk (m.authData ++ a.clientDataHash) with
    | none => simp [hs, panicM_ok] at h3
    | some g =>
      simp only [hs, pure_ok, Prod.mk.injEq] at h3
      obtain ⟨⟨rfl, h5⟩, rfl⟩ := h3
      exact ⟨att, h4, h5.symm, hs⟩
  · simp only [bind_ok, liftE_ok, pure_ok, Prod.mk.injEq, signEncode] at h1
    obtain ⟨g, s2, ⟨h2, rfl⟩, ⟨rfl, h3⟩, rfl⟩ := h1
    left
    refine ⟨h3.symm, ?_⟩
    cases hs : Dev.ecdsaSign sk (m.authData ++ a.clientDataHash) with
    | none => rw [hs] at h2; cases h2
    | some g => rw [hs] at h2; cases h2; rfl

theorem u2fAttestation_ok {att : Attestation} (h : u2fAttestation s = (.ok (.ok att), s')) : s'.p.attestation = some att := by
  simp only [u2fAttestation, bindSw_ok, orSw_ok, attestationGet, mapErr_ok, bind_ok, pure_ok] at h
  rcases h with ⟨o, s7, ⟨p, s8, h6, h7, rfl⟩, h8⟩ | ⟨e, _, h6⟩
  · obtain ⟨rfl, rfl⟩ := readP_ok h6
    cases o with
    | none => simp only [pure_ok] at h8; cases h8.1
    | some b =>
      simp only [pure_ok, Except.ok.injEq] at h8
      obtain ⟨rfl, rfl⟩ := h8
      exact h7
  · cases h6

/-- The signature of a U2F registration (for any cryptography). -/
theorem registered_u2f {msg c a r : Bytes} (hm : U2fCommand.parse msg = .ok (.register c a)) (ha : a.length = 32)
    (h : processU2f msg s = (.ok (.ok r), s')) :
    ∃ mk w x y handle att sig, s'.p.master = some mk ∧ Opens mk handle a w ∧ w.policy = none ∧
      Dev.ecdsaPub w.sk = some (x, y) ∧ s'.p.attestation = some att ∧
      r = [0x05, 0x04] ++ x ++ y ++ [UInt8.ofNat handle.length] ++ handle ++ att.certificate ++ sig ∧
      Dev.ecdsaSign att.sk ([0x00] ++ a ++ c ++ handle ++ [0x04] ++ x ++ y) = some sig := by
  obtain ⟨s1, h1, hp⟩ := processU2f_cmd h
  simp only [u2fCommand, bindSw_ok, orSw_ok] at h1
  rcases h1 with ⟨al, s2, h1, h2⟩ | ⟨e, _, h1⟩
  · cases al with
    | true => simp only [if_true, pure_ok] at h2; cases h2.1
    | false =>
      simp only [hm, u2fDispatch, bind_ok, Bool.false_eq_true, if_false] at h2
      obtain ⟨up, s3, h3, h4⟩ := h2
      cases up with
      | false => simp only [Bool.false_eq_true, if_false, pure_ok] at h4; cases h4.1
      | true =>
        simp only [if_true, u2fRegister, bind_ok] at h4
        obtain ⟨sk, s4, h4, h5⟩ := h4
        have hsk : sk.length = 32 := rng_length h4
        cases hpub : Dev.ecdsaPub sk with
        | none => simp only [hpub, pure_ok] at h5; cases h5.1
        | some xy =>
          obtain ⟨x, y⟩ := xy
          simp only [hpub, bindSw_ok, orSw_ok] at h5
          rcases h5 with ⟨hd, s5, h5, h6⟩ | ⟨e, _, h5⟩
          · obtain ⟨mk, e, b1, b2, b3, rfl, b5, b6⟩ := wrap_ok h5 ⟨hsk, ha, fun b hb => by cases hb⟩
            by_cases hl : hd.length > 0xFF
            · simp only [hl, if_true, pure_ok] at h6; cases h6.1
            · simp only [hl, if_false, bindSw_ok] at h6
              rcases h6 with ⟨att, s6, h6, h7⟩ | ⟨e, _, h6⟩
              · have hm6 : s6.p.master = some mk := keepMaster h6 rfl
                have hm1 := keepMaster h7 hm6
                simp only [u2fRegisterResponse] at h7
                cases hs : Dev.ecdsaSign att.sk (registerData a c hd (toUncompressed x y)) with
                | none => simp [hs, panicM_ok] at h7
                | some sig =>
                  simp only [hs, pure_ok, Except.ok.injEq] at h7
                  have hatt := u2fAttestation_ok h6
                  refine ⟨mk, _, x, y, hd, att, sig, by rw [hp, hm1], opens_iff.1 b6, rfl, hpub, by rw [hp, ← h7.2]; exact hatt, ?_, ?_⟩
                  · rw [← h7.1]
                    simp [toUncompressed]
                  · rw [← hs]
                    simp [registerData, toUncompressed]
              · cases h6
          · cases h5
  · cases h1

end

/-! ## The property -/

section
variable [B : Board] {P : Oracle → Prop} {s s' : St} {ch : Channel}

theorem public_in {ad sk : Bytes} (h : PublicKeyIn ad sk) : ∃ x y, KeyIn ad x y ∧ KeyPair sk x y := by
  obtain ⟨x, y, v, cose, h1, h2, h3, h4⟩ := h
  have hp := pub_pair h1
  rw [cose_bytes hp.2.2.1 hp.2.2.2.1 h2 h3] at h4
  exact ⟨x, y, ⟨hp.2.2.1, hp.2.2.2.1, h4⟩, hp⟩

theorem signed {sk msg sig x y : Bytes} (h : Dev.ecdsaSign sk msg = some sig) (hp : KeyPair sk x y)
    (hl : msg.length < 2 ^ 32) : Verifies x y msg sig := sign_verifies B.wordBits_eq hl h hp

theorem signed_pair {sk msg sig : Bytes} (h : Dev.ecdsaSign sk msg = some sig) : ∃ x y, KeyPair sk x y := by
  obtain ⟨x, y, h⟩ := sign_pub h
  exact ⟨x, y, pub_pair h⟩

/-- **C69**, registration: the answer to a registration contains a public key of P-256; the signature verifies under this
key, or, if there is a certificate, this is the one in the attestation store and the signature verifies under the public key of
the private key there. -/
theorem C69_registration {a : McParams} {m : McResponse}
    (h : processParsed (.makeCredential a) ch s = (.ok (.makeCredential m), s'))
    (hl : (m.authData ++ a.clientDataHash).length < 2 ^ 32) :
    ∃ x y, KeyIn m.authData x y ∧
      (m.x5c = none → Verifies x y (m.authData ++ a.clientDataHash) m.sig) ∧
      ∀ cert, m.x5c = some cert → ∃ sk x' y', s'.p.attestation = some ⟨sk, cert⟩ ∧ KeyPair sk x' y' ∧
        Verifies x' y' (m.authData ++ a.clientDataHash) m.sig := by
  obtain ⟨sk, hk, hs⟩ := registered_sig h
  obtain ⟨x, y, h1, h2⟩ := public_in hk
  refine ⟨x, y, h1, ?_, ?_⟩
  · intro hx
    rcases hs with ⟨_, hs⟩ | ⟨att, _, h3, _⟩
    · exact signed hs h2 hl
    · rw [hx] at h3; cases h3
  · intro cert hx
    rcases hs with ⟨h3, _⟩ | ⟨att, h3, h4, hs⟩
    · rw [hx] at h3; cases h3
    · obtain ⟨x', y', hp⟩ := signed_pair hs
      rw [hx] at h4
      cases h4
      exact ⟨att.sk, x', y', h3, hp, signed hs hp hl⟩

/-- **C69**, use of a credential that is not discoverable: until a reset, an assertion that lists its id verifies under the
public key in the answer to its registration. -/
theorem C69_sealed {a : McParams} {m : McResponse} {msg : Bytes} {o : Oracle} {s1 s2 : St} {b : Bool}
    (hr : Reach P true s) (ho : P o) (hmsg : Command.deserialize msg = .ok (.makeCredential a))
    (h : processParsed (.makeCredential a) ch (s.withOracle o) = (.ok (.makeCredential m), s1))
    (hrk : a.options.rk = false) (hrun : Run P (stepM (.ctap2 ch msg) (s.withOracle o)).2 b s2)
    (hn : ¬ HappenedSince (stepM (.ctap2 ch msg) (s.withOracle o)).2.log Ev.isErased s2.log)
    {g : GaParams} {ch' : Channel} {o' : Oracle} {r : Response} {s3 : St} (hrp : g.rpId = a.rp.id)
    (hid : g.allowList = some [{ id := credentialIdIn m.authData }])
    (hv : VisibleById (mcPolicy a.ext.credProtect) g.authParam.isSome)
    (hg : processParsed (.getAssertion g) ch' (s2.withOracle o') = (.ok r, s3)) :
    ∃ ga x y, r = .getAssertion ga ∧ ga.credential = { id := credentialIdIn m.authData } ∧ KeyIn m.authData x y ∧
      ((ga.authData ++ g.clientDataHash).length < 2 ^ 32 → Verifies x y (ga.authData ++ g.clientDataHash) ga.signature) := by
  obtain ⟨sk, hk, hu⟩ := C34_usable hr ho hmsg h hrk hrun hn
  obtain ⟨x, y, h1, h2⟩ := public_in hk
  obtain ⟨ga, rfl, h3, h4⟩ := (hu g ch' o' _ s3 hrp hid hv hg).2 r rfl
  exact ⟨ga, x, y, rfl, h3, h1, fun hl => signed h4 h2 hl⟩

/-- **C69**, use of a discoverable credential: until a request to remove it, an assertion that lists its id verifies under the
public key in the answer to its registration. -/
theorem C69_stored {a : McParams} {m : McResponse} {msg : Bytes} {o : Oracle} {s1 s2 : St}
    (hr : Reach P true s) (ho : P o) (hmsg : Command.deserialize msg = .ok (.makeCredential a))
    (h : processParsed (.makeCredential a) ch (s.withOracle o) = (.ok (.makeCredential m), s1)) (hrk : a.options.rk = true)
    (hw : Without P (Unregisters a m) (stepM (.ctap2 ch msg) (s.withOracle o)).2 s2)
    {g : GaParams} {ch' : Channel} {o' : Oracle} {r : Response} {s3 : St} (hrp : g.rpId = a.rp.id)
    (hid : g.allowList = some [{ id := credentialIdIn m.authData }])
    (hg : processParsed (.getAssertion g) ch' (s2.withOracle o') = (.ok r, s3)) :
    ∃ ga x y, r = .getAssertion ga ∧ ga.credential = { id := credentialIdIn m.authData } ∧ KeyIn m.authData x y ∧
      ((ga.authData ++ g.clientDataHash).length < 2 ^ 32 → Verifies x y (ga.authData ++ g.clientDataHash) ga.signature) := by
  obtain ⟨sk, hk, hu⟩ := C68_usable hr ho hmsg h hrk hw
  obtain ⟨x, y, h1, h2⟩ := public_in hk
  obtain ⟨ga, rfl, h3, h4⟩ := ((hu g ch' o' _ s3 hrp hg).1 hid).2 r rfl
  exact ⟨ga, x, y, rfl, h3, h1, fun hl => signed h4 h2 hl⟩

/-- **C69**, enumerations: an assertion by a credential verifies under the public key that credential management lists for it
(together with `C25_enumeration`, `C31_credentials`). -/
theorem C69_listed {a : GaParams} {c : Cred} {g : GaResponse} (h : AssertedBy a c g) {total : Option Nat} {r : CmResponse}
    (hc : DescribesCred total c r) (hl : (g.authData ++ a.clientDataHash).length < 2 ^ 32) :
    r.credentialId = some g.credential ∧ ∃ k, r.publicKey = some k ∧
      Verifies k.x k.y (g.authData ++ a.clientDataHash) g.signature := by
  obtain ⟨k, hk, rfl⟩ := hc
  refine ⟨by rw [h.id], k, rfl, ?_⟩
  unfold pubKey at hk
  cases hp : Dev.ecdsaPub c.sk with
  | none => rw [hp] at hk; cases hk
  | some xy =>
    obtain ⟨x, y⟩ := xy
    rw [hp] at hk
    cases hk
    exact signed h.signature (pub_pair hp) hl

/-- **C69**, U2F registration: the answer has the layout of the standard (U2F Raw Message Formats, 4.3); its signature verifies
under the public key of the attestation key; as long as the device is not reset, the answers to authentications with the key
handle (5.4 there) verify under the public key in it. -/
theorem C69_u2f {msg c a r : Bytes} {o : Oracle} (hm : U2fCommand.parse msg = .ok (.register c a)) (ha : a.length = 32)
    (h : processU2f msg (s.withOracle o) = (.ok (.ok r), s')) (hc : c.length = 32) :
    ∃ x y handle cert sig sk x' y', r = [0x05, 0x04] ++ x ++ y ++ [UInt8.ofNat handle.length] ++ handle ++ cert ++ sig ∧
      x.length = 32 ∧ y.length = 32 ∧ handle.length = 241 ∧ s'.p.attestation = some ⟨sk, cert⟩ ∧ KeyPair sk x' y' ∧
      Verifies x' y' ([0x00] ++ a ++ c ++ handle ++ [0x04] ++ x ++ y) sig ∧
      ∀ {b : Bool} {s1 : St}, Run P s' b s1 → ¬ HappenedSince s'.log Ev.isErased s1.log →
      ∀ (msg' c' r' : Bytes) (f : U2fFlags) (o' : Oracle) (s2 : St), U2fCommand.parse msg' = .ok (.authenticate c' a handle f) →
        c'.length = 32 → processU2f msg' (s1.withOracle o') = (.ok (.ok r'), s2) →
        ∃ n sig', r' = [0x01] ++ Verif.Cbor.beBytes 4 n ++ sig' ∧
          Verifies x y (a ++ [0x01] ++ Verif.Cbor.beBytes 4 n ++ c') sig' := by
  obtain ⟨mk, w, x, y, handle, att, sig, h1, h2, h3, h4, h5, rfl, h6⟩ := registered_u2f hm ha h
  have hp := pub_pair h4
  obtain ⟨x', y', hp'⟩ := signed_pair h6
  have hlen : handle.length = 241 := h2.tagged.1
  refine ⟨x, y, handle, att.certificate, sig, att.sk, x', y', rfl, hp.2.2.1, hp.2.2.2.1, hlen, h5, hp', ?_, ?_⟩
  · refine signed h6 hp' ?_
    simp only [List.length_append, List.length_cons, List.length_nil, ha, hc, hlen, hp.2.2.1, hp.2.2.2.1]
    decide
  · intro b s1 hrun hn msg' c' r' f o' s2 hm' hc' hu
    have hm2 : s1.p.master = some mk := run_master hrun h1 hn
    obtain ⟨n, sig', rfl, h7⟩ := C34_u2f_usable (s := s1.withOracle o') hm' hm2 h2 hu _ rfl
    refine ⟨n, sig', rfl, signed h7 hp ?_⟩
    have : (Verif.Cbor.beBytes 4 n).length = 4 := rfl
    simp only [List.length_append, List.length_cons, List.length_nil, ha, hc', this]
    decide

end

end Verif.Device
