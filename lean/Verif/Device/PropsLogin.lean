import Verif.Device.LoginSpec
import Verif.Device.PropsSign
import Verif.Ctap.PropsExtOut
import Verif.Ctap.PropsAnswer
import Verif.Ctap.PropsRequest

/-!
# C83: from the bytes of the requests to the bytes of the answers
-/
namespace Verif.Ctap
open Verif.Cbor (Value)

/-! ## Sizes of the fields of a message -/

theorem enc_mem_map {k v : Value} : ∀ {m : Entries}, (k, v) ∈ m → v.enc.length ≤ (Value.encMap m).length
  | (k', v') :: m, h => by
    simp only [Value.encMap, List.length_append]
    rcases List.mem_cons.1 h with h | h
    · cases h; omega
    · have := enc_mem_map h; omega

theorem must_le {R : Value → α → Prop} {m : Entries} {k : Value} {a : α} {n : Nat} (h : Must R m k a)
    (hR : ∀ v, R v a → n ≤ v.enc.length) : n ≤ (Value.map m).enc.length := by
  obtain ⟨v, h1, h2⟩ := h
  have := enc_mem_map h1
  have := hR v h2
  simp only [Value.enc, List.length_append]
  omega

theorem bytes_le {v : Value} {b : Bytes} (h : SaysBytes v b) : b.length ≤ v.enc.length := by
  cases h; simp only [Value.enc, List.length_append]; omega

theorem text_le {v : Value} {b : Bytes} (h : SaysText v b) : b.length ≤ v.enc.length := by
  cases h; simp only [Value.enc, List.length_append]; omega

variable [Dev]

theorem mc_sizes {msg : Bytes} {a : McParams} {w : Nat} (h : (Command.makeCredential a).Says w msg) :
    a.clientDataHash.length ≤ msg.length ∧ a.rp.id.length ≤ msg.length := by
  obtain ⟨c, rest, rfl, h | ⟨v, _, rfl, _, m, rfl, h1, h2, _⟩⟩ := h
  · cases h
  · have i1 := must_le h1 fun _ => bytes_le
    have i2 := must_le h2 fun v ⟨m, e, h, _⟩ => by rw [e]; exact must_le h fun _ => text_le
    simp only [List.length_cons]
    omega

theorem ga_sizes {msg : Bytes} {a : GaParams} {w : Nat} (h : (Command.getAssertion a).Says w msg) :
    a.clientDataHash.length ≤ msg.length ∧ a.rpId.length ≤ msg.length := by
  obtain ⟨c, rest, rfl, h | ⟨v, _, rfl, _, m, rfl, h1, h2, _⟩⟩ := h
  · cases h
  · have i1 := must_le h1 fun _ => text_le
    have i2 := must_le h2 fun _ => bytes_le
    simp only [List.length_cons]
    omega

theorem answer_size {ans : Bytes} {g : GaResponse} (h : (Response.getAssertion g).SaidBy ans) : g.authData.length ≤ ans.length := by
  obtain ⟨h, _⟩ | ⟨v, _, _, rfl, m, rfl, _, h, _⟩ := h
  · cases h
  · have := must_le h fun _ => bytes_le
    simp only [List.length_cons]
    omega

/-! ## Histories -/

theorem Without.mono {P : Oracle → Prop} {k k' : Command → Prop} {s s' : St} (h : Without P k s s') (hk : ∀ c, k' c → k c) : Without P k' s s' := by
  induction h with
  | start => exact .start
  | boot _ ho ih => exact .boot ih ho
  | step _ ho hi ih => exact .step ih ho fun ch msg cmd e hd hk' => hi ch msg cmd e hd (hk cmd hk')

instance (i : Input) : Pres DataOk (stepM i) := ⟨fun _ h => data_step i h⟩

theorem without_wire {P : Oracle → Prop} {k : Command → Prop} {s s' : St} {b : Bool} (hr : Reach P b s) (h : Without P k s s') : WireOk s' where
  data := without_pres h (data_reach hr)
  creds := without_pres (I := InvCreds) h (credsOk_reach hr)
  retries := by
    have h1 : Inv10 s' := without_pres h (inv10_reach hr)
    have h1 := h1.2.1
    have h2 := Dev.maxPinRetries_le
    omega

end Verif.Ctap

namespace Verif.Device
open Verif.Ctap
open Verif.Crypto.Sha (SHA256)
variable [B : Board] {P : Oracle → Prop} {s s' : St} {ch : Channel}

theorem configFits : ConfigFits := ⟨B.maxCredCountInList_lt, B.maxLargeBlob_lt, B.maxRpIds_lt, B.firmwareVersion_lt⟩

theorem sha_eq {m : Bytes} (h : m.length ≤ 7609) : Dev.sha256 m = SHA256 m := by
  refine Crypto.Sha.sha256_hash B.wordBits m ?_ (by omega)
  rcases B.wordBits_eq with e | e <;> rw [e] <;> omega

theorem pub_le (sk x y : Bytes) (h : Dev.ecdsaPub sk = some (x, y)) : x.length ≤ 32 ∧ y.length ≤ 32 := by
  have := pub_pair h
  exact ⟨Nat.le_of_eq this.2.2.1, Nat.le_of_eq this.2.2.2.1⟩

/-- An answer of success is one of the command. -/
theorem succeeded {o : Oracle} {msg ans : Bytes} {cmd : Command} (hm : Command.deserialize msg = .ok cmd)
    (h : stepM (.ctap2 ch msg) (s.withOracle o) = (.ok (.ctap2 ans), s')) (h0 : ans.head? = some 0) :
    ∃ r t, processParsed cmd ch (s.withOracle o) = (.ok r, t) := by
  rcases step_answer h with ⟨e, h1, rfl⟩ | ⟨cmd', h1, ⟨e, t, h2, rfl⟩ | ⟨r, t, h2, h3⟩⟩
  · rw [hm] at h1; cases h1
  · rw [hm] at h1; cases h1
    refine absurd (Option.some.inj h0) (Status.toByte_ne fun he => (inferInstance : NF (processParsed cmd ch)).out (s.withOracle o) (by rw [h2, he]))
  · rw [hm] at h1; cases h1
    exact ⟨r, t, h2⟩

theorem mc_response {a : McParams} {r : Response} (h : processParsed (.makeCredential a) ch s = (.ok r, s')) : ∃ m, r = .makeCredential m := by
  obtain ⟨_, h1⟩ := processParsed_ok h (by simp)
  obtain ⟨_, _, _, _, _, _, _, _, _, _, h5⟩ := makeCredential_ok h1
  simp only [mcFinish, bind_ok, pure_ok] at h5
  obtain ⟨_, _, _, _, _, _, _, _, _, _, _, _, _, _, _, _, _, _, e, _⟩ := h5
  exact ⟨_, e.symm⟩

/-- What the answer to a registration gives, in terms of the model. -/
theorem gives {a : McParams} {m : McResponse} {msg ans : Bytes} {o : Oracle} {t : St} {d : AuthData} {c : AttestedCredential} {sk : Bytes}
    {policy : Option Policy} {blob : Option Bytes} (hr : Reach P true s)
    (hmsg : (Command.makeCredential a).Says Dev.wordBits msg) (hl : msg.length ≤ 7609) (hla : ans.length ≤ 7609)
    (h : stepM (.ctap2 ch msg) (s.withOracle o) = (.ok (.ctap2 ans), t))
    (hp : processParsed (.makeCredential a) ch (s.withOracle o) = (.ok (.makeCredential m), s'))
    (hreg : RegisteredAs a m s' d c sk policy blob) :
    ∃ x y, KeyPair sk x y ∧ GivesKey a t.p.attestation ans c.id x y := by
  obtain ⟨x, y, hpub, hshow⟩ := hreg.key
  have hk := pub_pair hpub
  obtain ⟨z1, z2⟩ := mc_sizes hmsg
  have hsaid := C79_format hr configFits h (by omega) (C77_understood hmsg) hp
  have hlen : (m.authData ++ a.clientDataHash).length < 2 ^ 32 := by
    have := registered_len hp pub_le
    rw [List.length_append]; omega
  have hatt : t.p.attestation = s'.p.attestation := by
    have := (step_parsed (C77_understood hmsg) hp).1
    rw [h] at this
    rw [← this]
  refine ⟨x, y, hk, m, d, c, hsaid, hreg.ok, hreg.bytes, ?_, hreg.present, hreg.verified, hreg.credential, rfl, hshow, hk.2.2.1, hk.2.2.2.1, ?_, ?_⟩
  · rw [hreg.rp, sha_eq (by omega)]
  · intro hx
    rcases hreg.signature with ⟨_, hs⟩ | ⟨att, _, h3, _⟩
    · exact signed hs hk hlen
    · rw [hx] at h3; cases h3
  · intro cert hx
    rcases hreg.signature with ⟨h3, _⟩ | ⟨att, h3, h4, hs⟩
    · rw [hx] at h3; cases h3
    · obtain ⟨x', y', hp'⟩ := signed_pair hs
      rw [hx] at h4
      cases h4
      exact ⟨att.sk, x', y', hatt.trans h3, hp', signed hs hp' hlen⟩

/-- The answer determines the id and the key. -/
theorem GivesKey.unique {a : McParams} {att : Option Attestation} {ans id x y id' x' y' : Bytes} (h : GivesKey a att ans id x y)
    (h' : GivesKey a att ans id' x' y') : id = id' ∧ x = x' ∧ y = y' := by
  obtain ⟨m, d, c, a1, a2, a3, _, _, _, a4, rfl, a5, _⟩ := h
  obtain ⟨m', d', c', b1, b2, b3, _, _, _, b4, rfl, b5, _⟩ := h'
  have := C79_one_meaning (r := .makeCredential m) (r' := .makeCredential m') rfl a1 b1
  cases this
  obtain rfl := C80_one_meaning a2 b2 (a3.symm.trans b3)
  rw [a4] at b4
  cases b4
  have := cose_one _ (a2.key _ a4) _ _ a5 b5
  simp only [CoseKey.mk.injEq] at this
  exact ⟨rfl, this.1, this.2.1⟩

theorem proves {a : GaParams} {z : Cred} {g : GaResponse} {msg ans x y : Bytes} {o : Oracle} {t : St} {d : AuthData} {out : Option Bytes}
    (hw : WireOk s) (hmsg : (Command.getAssertion a).Says Dev.wordBits msg) (hl : msg.length ≤ 7609) (hla : ans.length ≤ 7609)
    (h : stepM (.ctap2 ch msg) (s.withOracle o) = (.ok (.ctap2 ans), t))
    (hp : processParsed (.getAssertion a) ch (s.withOracle o) = (.ok (.getAssertion g), s'))
    (ha : AssertedAs a z g s.v.pin s' d out) (hk : KeyPair z.sk x y) : ProvesKey a ans z.id x y := by
  obtain ⟨z1, z2⟩ := ga_sizes hmsg
  have hs := format_of hw configFits h (by omega) (C77_understood hmsg) hp
  have := answer_size hs
  exact ⟨g, d, hs, ha.id, ha.ok, ha.bytes, by rw [ha.rp, sha_eq (by omega)],
    ha.present, ha.verified, ha.credential, signed ha.signature hk (by rw [List.length_append]; omega)⟩

/-- **C83**, registration: if the answer to a message that says a registration begins with the status of success, then it gives
the relying party exactly one id and public key. -/
theorem C83_registration {a : McParams} {msg ans : Bytes} {o : Oracle} {t : St} (hr : Reach P true s)
    (hmsg : (Command.makeCredential a).Says Dev.wordBits msg) (hl : msg.length ≤ 7609)
    (h : stepM (.ctap2 ch msg) (s.withOracle o) = (.ok (.ctap2 ans), t)) (hla : ans.length ≤ 7609) (h0 : ans.head? = some 0) :
    ∃ id x y, GivesKey a t.p.attestation ans id x y ∧
      ∀ id' x' y', GivesKey a t.p.attestation ans id' x' y' → id' = id ∧ x' = x ∧ y' = y := by
  obtain ⟨r, s1, hp⟩ := succeeded (C77_understood hmsg) h h0
  obtain ⟨m, rfl⟩ := mc_response hp
  obtain ⟨d, c, sk, policy, blob, hreg⟩ := C80_registration hr hp (by have := registered_len hp pub_le; omega)
  obtain ⟨x, y, _, hg⟩ := gives hr hmsg hl hla h hp hreg
  exact ⟨c.id, x, y, hg, fun _ _ _ h' => h'.unique hg⟩

/-- **C83**, login with a credential that is not discoverable: after the registration, whatever happens, as long as the device is
not reset, if the answer to a message that says a login with the id of the registration begins with the status of success, it
proves possession of the private key to the public key of the registration. -/
theorem C83_sealed {ac : McParams} {msg ans id x y : Bytes} {o : Oracle} {t : St} (hr : Reach P true s) (ho : P o)
    (hmsg : (Command.makeCredential ac).Says Dev.wordBits msg) (hl : msg.length ≤ 7609)
    (h : stepM (.ctap2 ch msg) (s.withOracle o) = (.ok (.ctap2 ans), t)) (hla : ans.length ≤ 7609) (h0 : ans.head? = some 0)
    (hrk : ac.options.rk = false) (hk : GivesKey ac t.p.attestation ans id x y) {s2 : St} (hw : Without P (· = .reset) t s2)
    {a : GaParams} {ch' : Channel} {msg' ans' : Bytes} {o' : Oracle} {t' : St} (hmsg' : (Command.getAssertion a).Says Dev.wordBits msg')
    (hl' : msg'.length ≤ 7609) (hrp : a.rpId = ac.rp.id) (hal : a.allowList = some [{ id := id }])
    (h' : stepM (.ctap2 ch' msg') (s2.withOracle o') = (.ok (.ctap2 ans'), t')) (hla' : ans'.length ≤ 7609) (h0' : ans'.head? = some 0) :
    ProvesKey a ans' id x y := by
  obtain ⟨r, s1, hp⟩ := succeeded (C77_understood hmsg) h h0
  obtain ⟨m, rfl⟩ := mc_response hp
  obtain ⟨d, c, sk, policy, blob, mk, hreg, hu⟩ := used_wrapped hr ho (C77_understood hmsg) hp hrk (by have := registered_len hp pub_le; omega)
  obtain ⟨x', y', hpair, hg⟩ := gives hr hmsg hl hla h hp hreg
  obtain ⟨rfl, rfl, rfl⟩ := hk.unique hg
  obtain ⟨r', s3, hp'⟩ := succeeded (C77_understood hmsg') h' h0'
  rw [h] at hu
  obtain ⟨g, z, d', out, rfl, hd', e1, e2, _⟩ := hu s2 hw a ch' o' r' s3 hrp hal hp'
  rw [← e1]
  have hr' := Reach.step o ho (.ctap2 ch msg) hr
  rw [h] at hr'
  exact proves (without_wire hr' hw) hmsg' hl' hla' h' hp' hd' (by rw [e2]; exact hpair)

/-- **C83**, login with a discoverable credential: the same, until a request is meant to remove the credential. -/
theorem C83_stored {ac : McParams} {msg ans id x y : Bytes} {o : Oracle} {t : St} (hr : Reach P true s) (ho : P o)
    (hmsg : (Command.makeCredential ac).Says Dev.wordBits msg) (hl : msg.length ≤ 7609)
    (h : stepM (.ctap2 ch msg) (s.withOracle o) = (.ok (.ctap2 ans), t)) (hla : ans.length ≤ 7609) (h0 : ans.head? = some 0)
    (hrk : ac.options.rk = true) (hk : GivesKey ac t.p.attestation ans id x y) {s2 : St}
    (hw : Without P (RemovesKey ac.rp.id ac.user.id id) t s2)
    {a : GaParams} {ch' : Channel} {msg' ans' : Bytes} {o' : Oracle} {t' : St} (hmsg' : (Command.getAssertion a).Says Dev.wordBits msg')
    (hl' : msg'.length ≤ 7609) (hrp : a.rpId = ac.rp.id) (hal : a.allowList = some [{ id := id }])
    (h' : stepM (.ctap2 ch' msg') (s2.withOracle o') = (.ok (.ctap2 ans'), t')) (hla' : ans'.length ≤ 7609) (h0' : ans'.head? = some 0) :
    ProvesKey a ans' id x y := by
  obtain ⟨r, s1, hp⟩ := succeeded (C77_understood hmsg) h h0
  obtain ⟨m, rfl⟩ := mc_response hp
  obtain ⟨d, c, sk, policy, blob, mk, hreg, hu⟩ := used_stored hr ho (C77_understood hmsg) hp hrk (by have := registered_len hp pub_le; omega)
  obtain ⟨x', y', hpair, hg⟩ := gives hr hmsg hl hla h hp hreg
  obtain ⟨rfl, rfl, rfl⟩ := hk.unique hg
  obtain ⟨r', s3, hp'⟩ := succeeded (C77_understood hmsg') h' h0'
  rw [h] at hu
  have hw' : Without P (Unregisters ac m) t s2 := hw.mono fun cmd ⟨q, q1, q2, q3, q4⟩ => by
    have hid : credentialIdIn m.authData = c.id := by rw [hreg.bytes]; exact credentialIdIn_bytes hreg.ok hreg.credential
    rw [hid] at q1
    rw [← q1, ← q2, ← q3]
    cases cmd <;> exact q4
  obtain ⟨g, z, d', out, rfl, hd', e1, e2, _⟩ := hu s2 hw' a ch' o' r' s3 hrp hal hp'
  rw [← e1]
  have hr' := Reach.step o ho (.ctap2 ch msg) hr
  rw [h] at hr'
  exact proves (without_wire hr' hw) hmsg' hl' hla' h' hp' hd' (by rw [e2]; exact hpair)

end Verif.Device
