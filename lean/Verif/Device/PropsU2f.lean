import Verif.Device.U2fSpec
import Verif.Device.PropsUsb
import Verif.Ctap.PropsU2fLive

/-!
# C87 over USB, with the cryptography of the firmware
-/
namespace Verif.Device
open Verif.Ctap hiding Transport
open Verif.Hid (Transport)
open Verif.Usb (Ready Spells Soon own feed channel later)

/-- A U2F message that is answered. -/
theorem u2f_exchange [Dev] {cid msg p : Bytes} {ms : Nat} {rest : List (Nat × Bytes)} {d : Usb.Device} {x : Except Sw Bytes} {s' : St}
    (h : U2fSent cid msg p rest d)
    (hst : stepM (.ctap1 msg) (later (Usb.total ((ms, p) :: rest)) d.st) = (.ok (.ctap1 x), s'))
    (hl : (Usb.content (.ctap1 x)).length ≤ 7609) :
    ∃ outs out d', feed .main ((ms, p) :: rest) d = (outs ++ [.ok out], d') ∧ Spells out cid 0x03 (Usb.content (.ctap1 x)) ∧
      d'.st = s' ∧ Ready .main cid d' := by
  obtain ⟨outs, last, e1, _, _, e2, _, e3⟩ := Usb.C70_exchange h.ready ms p rest h.packets h.spells h.count h.last h.fits h.soon (.inr (.inl ⟨rfl, rfl⟩))
  rcases e2 (by decide) with ⟨k, _⟩ | ⟨_, _, q1, q2, q3⟩
  · cases k
  · rw [hst] at q1 q3
    obtain ⟨out, rfl, q4, _⟩ := q3 _ rfl
    exact ⟨outs, out, _, Prod.ext e1 rfl, q4 hl, q1, e3⟩

/-- The sizes of public keys and signatures. -/
structure Sizes [Dev] : Prop where
  pub : ∀ {sk x y : Bytes}, sk.length = 32 → Dev.ecdsaPub sk = some (x, y) → x.length = 32 ∧ y.length = 32
  sign : ∀ {sk m sig : Bytes}, Dev.ecdsaSign sk m = some sig → sig.length ≤ 72

theorem reach_later' [Dev] {P : Oracle → Prop} {d : Usb.Device} {o : Oracle} (h : Usb.Reach P true d) (ho : P o) (ms : Nat) :
    Ctap.Reach P true (later ms (d.st.withOracle o)) := Reach.step o ho (.wait ms) (Usb.C70_commands h)

/-- **C87** over USB, for any cryptography with keys and signatures of these sizes. An honest U2F registration by a user who touches the device is answered with success (status word 0x9000) and a
signature of the attestation key. Whatever happens afterwards, as long as the device is not reset, an
honest authentication with the key handle is answered: with success and a signature of the key of the registration,
or, if the client only asks whether the handle is known, with the status word 0x6985. -/
theorem C87_usb_any [Dev] {P : Oracle → Prop} (hz : Sizes) {cid msg p c a : Bytes} {ms : Nat} {rest : List (Nat × Bytes)} {o : Oracle} {d : Usb.Device} {ask cert : Bytes}
    (hr : Usb.Reach P true d) (ho : P o) (hs : U2fSent cid msg p rest (d.withOracle o))
    (h : (U2fCommand.register c a).Fair msg (later (Usb.total ((ms, p) :: rest)) (d.st.withOracle o)) o)
    (hk : o.DrawsKeys) (hat : d.st.p.attestation = some ⟨ask, cert⟩) (hsk : CanSign ask) (hcert : cert.length ≤ 7000) :
    ∃ outs out d' x y handle sig sk, feed .main ((ms, p) :: rest) (d.withOracle o) = (outs ++ [.ok out], d') ∧
      Spells out cid 0x03 ([0x05, 0x04] ++ x ++ y ++ [UInt8.ofNat handle.length] ++ handle ++ cert ++ sig ++ [0x90, 0x00]) ∧
      x.length = 32 ∧ y.length = 32 ∧ handle.length = 241 ∧
      Dev.ecdsaPub sk = some (x, y) ∧ Dev.ecdsaSign ask ([0x00] ++ a ++ c ++ handle ++ [0x04] ++ x ++ y) = some sig ∧
      ∀ d2 : Usb.Device, Run P d'.st true d2.st → ¬ HappenedSince d'.st.log Ev.isErased d2.st.log →
      ∀ (cid' msg' p' c' : Bytes) (ms' : Nat) (rest' : List (Nat × Bytes)) (f : U2fFlags) (o' : Oracle), P o' →
        U2fSent cid' msg' p' rest' (d2.withOracle o') →
        (U2fCommand.authenticate c' a handle f).Fair msg' (later (Usb.total ((ms', p') :: rest')) (d2.st.withOracle o')) o' →
        ∃ outs' out' d3, feed .main ((ms', p') :: rest') (d2.withOracle o') = (outs' ++ [.ok out'], d3) ∧
          if f = .checkOnly then Spells out' cid' 0x03 [0x69, 0x85]
          else ∃ n sig', Spells out' cid' 0x03 ([0x01] ++ Verif.Cbor.beBytes 4 n ++ sig' ++ [0x90, 0x00]) ∧
            Dev.ecdsaSign sk (a ++ [0x01] ++ Verif.Cbor.beBytes 4 n ++ c') = some sig' := by
  have hr1 := reach_later' hr ho (Usb.total ((ms, p) :: rest))
  obtain ⟨r, t, sk, x, y, handle, cert', sig, h1, rfl, h2, hsk32, h3, ⟨ask', h4, h5⟩, h6⟩ := C87_registered hr1 ho h hk ⟨_, hat, hsk⟩
  have h4' : d.st.p.attestation = some ⟨ask', cert'⟩ := h4
  rw [hat] at h4'
  cases h4'
  obtain ⟨hx, hy⟩ := hz.pub hsk32 h3
  have hsl := hz.sign h5
  obtain ⟨outs, out, d', g1, g2, g3, _⟩ := u2f_exchange (ms := ms) hs h1 (by simp [Usb.content, hx, hy]; omega)
  refine ⟨outs, out, d', x, y, handle, sig, sk, g1, g2, hx, hy, h2, h3, h5, ?_⟩
  rw [g3]
  intro d2 hrun hn cid' msg' p' c' ms' rest' f o' ho' hs' hf
  have hrun' : Run P t true (later (Usb.total ((ms', p') :: rest')) (d2.st.withOracle o')) :=
    Run.step o' ho' (.wait (Usb.total ((ms', p') :: rest'))) hrun
  obtain ⟨z, t', k1, k2⟩ := h6 _ hrun' hn c' msg' f o' hf
  by_cases hfc : f = .checkOnly
  · rw [if_pos hfc] at k2
    subst k2
    obtain ⟨outs', out', d3, l1, l2, _⟩ := u2f_exchange (ms := ms') hs' k1 (by simp [Usb.content])
    refine ⟨outs', out', d3, l1, ?_⟩
    rw [if_pos hfc]
    exact l2
  · rw [if_neg hfc] at k2
    obtain ⟨n, sig', rfl, k3⟩ := k2
    have hsl' := hz.sign k3
    obtain ⟨outs', out', d3, l1, l2, _⟩ := u2f_exchange (ms := ms') hs' k1 (by simp [Usb.content, Verif.Cbor.beBytes]; omega)
    refine ⟨outs', out', d3, l1, ?_⟩
    rw [if_neg hfc]
    exact ⟨n, sig', l2, k3⟩

section
variable [B : Board] {P : Oracle → Prop}

theorem sign_len {sk msg sig : Bytes} (h : Dev.ecdsaSign sk msg = some sig) : sig.length ≤ 72 := by
  replace h : ecdsaSign B.wordBits _ sk msg = some sig := h
  obtain ⟨k, hk, h⟩ := Option.bind_eq_some_iff.1 h
  obtain ⟨hl, hk⟩ := array32_some.1 hk
  obtain ⟨_, _, h3, _, h5⟩ := P256.C65_secret hl
  have hs := ((h3 k).1 hk).1
  obtain ⟨g, hg, rfl⟩ := Option.map_eq_some_iff.1 h
  obtain ⟨c1, c2, c3⟩ := P256.C61_signature (P256.sha256_ok _) hs (.deterministic _ (P256.sha256_hmac_len _) hg)
  exact (P256.C65_der c1 c2).2

theorem sizes : Sizes := ⟨fun _ h => ⟨(pub_pair h).2.2.1, (pub_pair h).2.2.2.1⟩, sign_len⟩

theorem u2f_lens {c a msg : Bytes} {s : St} {o : Oracle} (h : (U2fCommand.register c a).Fair msg s o) : a.length = 32 ∧ c.length = 32 := by
  obtain ⟨A, _, _, hl⟩ := C53_request.1 h.parsed
  cases hl
  exact ⟨by assumption, by assumption⟩

theorem u2f_lens' {c a k msg : Bytes} {f : U2fFlags} {s : St} {o : Oracle} (h : (U2fCommand.authenticate c a k f).Fair msg s o) :
    a.length = 32 ∧ c.length = 32 := by
  obtain ⟨A, _, _, hl⟩ := C53_request.1 h.parsed
  cases hl
  exact ⟨by assumption, by assumption⟩

/-- **C87** over USB. An honest U2F registration by a user who touches the device is answered with success (status word 0x9000); its
signature verifies under the public key of the attestation key. Whatever happens afterwards, as long as the device is not reset, an
honest authentication with the key handle is answered: with success and a signature that verifies under the public key of the
registration, or, if the client only asks whether the handle is known, with the status word 0x6985. (That a key can sign every
message, `CanSign`, is assumed here as in C72: it says that the search for a nonce ends.) -/
theorem C87_usb {cid msg p c a : Bytes} {ms : Nat} {rest : List (Nat × Bytes)} {o : Oracle} {d : Usb.Device} {ask cert : Bytes}
    (hr : Usb.Reach P true d) (ho : P o) (hs : U2fSent cid msg p rest (d.withOracle o))
    (h : (U2fCommand.register c a).Fair msg (later (Usb.total ((ms, p) :: rest)) (d.st.withOracle o)) o)
    (hk : o.DrawsKeys) (hat : d.st.p.attestation = some ⟨ask, cert⟩) (hsk : CanSign ask) (hcert : cert.length ≤ 7000) :
    ∃ outs out d' x y handle sig x' y', feed .main ((ms, p) :: rest) (d.withOracle o) = (outs ++ [.ok out], d') ∧
      Spells out cid 0x03 ([0x05, 0x04] ++ x ++ y ++ [UInt8.ofNat handle.length] ++ handle ++ cert ++ sig ++ [0x90, 0x00]) ∧
      x.length = 32 ∧ y.length = 32 ∧ handle.length = 241 ∧
      KeyPair ask x' y' ∧ Verifies x' y' ([0x00] ++ a ++ c ++ handle ++ [0x04] ++ x ++ y) sig ∧
      ∀ d2 : Usb.Device, Run P d'.st true d2.st → ¬ HappenedSince d'.st.log Ev.isErased d2.st.log →
      ∀ (cid' msg' p' c' : Bytes) (ms' : Nat) (rest' : List (Nat × Bytes)) (f : U2fFlags) (o' : Oracle), P o' →
        U2fSent cid' msg' p' rest' (d2.withOracle o') →
        (U2fCommand.authenticate c' a handle f).Fair msg' (later (Usb.total ((ms', p') :: rest')) (d2.st.withOracle o')) o' →
        ∃ outs' out' d3, feed .main ((ms', p') :: rest') (d2.withOracle o') = (outs' ++ [.ok out'], d3) ∧
          if f = .checkOnly then Spells out' cid' 0x03 [0x69, 0x85]
          else ∃ n sig', Spells out' cid' 0x03 ([0x01] ++ Verif.Cbor.beBytes 4 n ++ sig' ++ [0x90, 0x00]) ∧
            Verifies x y (a ++ [0x01] ++ Verif.Cbor.beBytes 4 n ++ c') sig' := by
  obtain ⟨ha, hc⟩ := u2f_lens h
  obtain ⟨outs, out, d', x, y, handle, sig, sk, g1, g2, g3, g4, g5, g6, g7, g8⟩ := C87_usb_any sizes hr ho hs h hk hat hsk hcert
  have hp := pub_pair g6
  obtain ⟨x', y', hp'⟩ := signed_pair g7
  refine ⟨outs, out, d', x, y, handle, sig, x', y', g1, g2, g3, g4, g5, hp', signed g7 hp' (by simp [ha, hc, g3, g4]; omega), ?_⟩
  intro d2 hrun hn cid' msg' p' c' ms' rest' f o' ho' hs' hf
  obtain ⟨_, hc'⟩ := u2f_lens' hf
  obtain ⟨outs', out', d3, l1, l2⟩ := g8 d2 hrun hn cid' msg' p' c' ms' rest' f o' ho' hs' hf
  refine ⟨outs', out', d3, l1, ?_⟩
  by_cases hfc : f = .checkOnly
  · rw [if_pos hfc] at l2 ⊢
    exact l2
  · rw [if_neg hfc] at l2 ⊢
    obtain ⟨n, sig', l3, l4⟩ := l2
    exact ⟨n, sig', l3, signed l4 hp (by simp [ha, hc', Verif.Cbor.beBytes])⟩

end
end Verif.Device

/-! ## Example -/
namespace Verif.Device.Toy
open Verif.Ctap hiding Transport
open Verif.Ctap.Toy (good good_calm good_drawsKeys canSign u2fReg u2fBody u2fReg_parsed cdh rpA)
open Verif.Usb (Ready Spells Soon own feed channel later)
open Verif.Usb.Toy (d0 d1 cid initP start ready)
set_option maxRecDepth 100000

theorem packet_u2f [Dev] {p cid payload : Bytes} {d : Usb.Device}
    (h : (d.hid.parsePacket Dev.maxMsgSize d.st.env.now .main p).2 = some ⟨cid, .msg, payload⟩) :
    (Usb.step (.packet .main p) d).2.st = (stepM (.ctap1 payload) d.st).2 := by
  show (Usb.processPacket .main p d).2.st = _
  rw [Usb.processPacket_some h]
  simp only [Usb.processMessage, Usb.mainMessage, stepM, Bind.bind, M.bind, M.pure, Usb.answer]
  rcases processU2f payload d.st with ⟨r | r | _ | _, s⟩ <;> rfl

/-- The two packets of a registration request. -/
def reg0 : Bytes := cid ++ [0x83, 0, 71] ++ (u2fBody u2fReg).take 57
def reg1 : Bytes := cid ++ [0] ++ ((u2fBody u2fReg).drop 57 ++ List.replicate 45 0)

/-- The first request, and the touch. -/
def da : Usb.Device := (Usb.step (.packet .main reg0) (d1.withOracle good)).2
def db : Usb.Device := (Usb.step (.packet .main reg1) (da.withOracle good)).2
def dc : Usb.Device := (Usb.step .touch (db.withOracle good)).2

theorem reg_sent {d : Usb.Device} (h : Ready .main cid d) : U2fSent cid (u2fBody u2fReg) reg0 [(5, reg1)] d where
  ready := h
  packets := by intro x hx; simp at hx; subst hx; decide +kernel
  spells := by
    refine ⟨reg0, [reg1], (u2fBody u2fReg).take 57, [(u2fBody u2fReg).drop 57 ++ List.replicate 45 0], by decide +kernel,
      ⟨0x83, 0, 71, rfl, rfl, by decide +kernel, rfl, by decide +kernel⟩, rfl, ?_, by decide +kernel, by decide +kernel⟩
    intro i h h'
    obtain rfl : i = 0 := by simp at h; omega
    exact ⟨0, rfl, rfl, (by decide +kernel : ((u2fBody u2fReg).drop 57 ++ List.replicate 45 0).length = 59), rfl, by decide⟩
  count := by decide +kernel
  last := by intro x hx; simp at hx; subst hx; decide +kernel
  fits := by decide +kernel
  soon := by simp [Soon]

theorem reach_dc : Usb.Reach (fun _ => True) true dc := by
  have h0 : Usb.Reach (fun _ => True) true d0 := by
    have := Usb.Reach.boot (P := fun _ => True) good trivial (Usb.Reach.factory Ctap.Toy.env0 (some ⟨List.replicate 32 7, [1, 2, 3]⟩) start.hid none)
    rwa [show (Usb.boot _).1.alive = true by decide +kernel] at this
  have h1 : Usb.Reach (fun _ => True) true d1 := by
    have := Usb.Reach.step (P := fun _ => True) good trivial (.packet .main initP) h0
    rwa [show (Usb.step _ _).1.alive = true by decide +kernel] at this
  have h2 : Usb.Reach (fun _ => True) true da := by
    have := Usb.Reach.step (P := fun _ => True) good trivial (.packet .main reg0) h1
    rwa [show (Usb.step _ _).1.alive = true by decide +kernel] at this
  have h3 : Usb.Reach (fun _ => True) true db := by
    have := Usb.Reach.step (P := fun _ => True) good trivial (.packet .main reg1) h2
    rwa [show (Usb.step _ _).1.alive = true by decide +kernel] at this
  exact Usb.Reach.step (P := fun _ => True) good trivial .touch h3

theorem ready_dc : Ready .main cid dc := by
  refine ⟨⟨by decide +kernel, by decide +kernel, Usb.Open.quiet ?_⟩, rfl, by decide, by decide, by decide +kernel⟩
  intro t
  cases t <;> decide +kernel

theorem touched_dc : TouchedFor db.st.env.now (later 5 (dc.st.withOracle good)) := by
  have hb : db.st = (stepM (.ctap1 (u2fBody u2fReg)) (da.st.withOracle good)).2 :=
    packet_u2f (d := da.withOracle good) (cid := cid) (by decide +kernel)
  refine ⟨da.st, db.st, db.st, u2fBody u2fReg, _, good, good, u2fReg_parsed, rfl, ?_, .start, rfl, by decide +kernel, ?_⟩
  · refine Prod.ext ?_ hb.symm
    have : (match (stepM (.ctap1 (u2fBody u2fReg)) (da.st.withOracle good)).1 with
      | .ok (.ctap1 (.error .condUseNotSatisfied)) => true | _ => false) = true := by decide +kernel
    show (stepM (.ctap1 (u2fBody u2fReg)) (da.st.withOracle good)).1 = _
    revert this
    split
    · intro _; assumption
    · intro h; cases h
  · exact .step .start good (.wait 5) trivial rfl

/-- C87 over USB: a channel is given out, a registration is sent in two packets, the user touches the device, and the registration is
sent again: it succeeds. -/
example : ∃ outs out d' payload, feed .main [(0, reg0), (5, reg1)] (dc.withOracle good) = (outs ++ [.ok out], d') ∧
    Spells out cid 0x03 ([0x05, 0x04] ++ payload ++ [0x90, 0x00]) := by
  have hz : Sizes := by
    refine ⟨fun {sk x y} hl h => ?_, fun {sk m sig} h => ?_⟩
    · cases h
      exact ⟨hl, hl⟩
    · cases h
      have := Dev.sha256_len m
      have h2 : (Ctap.Toy.hash m).length = 32 := this
      simp [Ctap.Toy.xor, h2]
  obtain ⟨outs, out, d', x, y, handle, sig, sk, g1, g2, _⟩ := C87_usb_any (P := fun _ => True) (ms := 0) hz reach_dc trivial (reg_sent (d := dc.withOracle good) ready_dc)
    ⟨u2fReg_parsed, good_calm, by decide +kernel, fun _ => ⟨_, touched_dc, by decide +kernel⟩⟩ good_drawsKeys
    (ask := List.replicate 32 7) (cert := [1, 2, 3]) (by decide +kernel) (canSign _) (by decide)
  exact ⟨outs, out, d', x ++ y ++ [UInt8.ofNat handle.length] ++ handle ++ [1, 2, 3] ++ sig, g1, by simpa using g2⟩

end Verif.Device.Toy
