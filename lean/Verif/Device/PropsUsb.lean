import Verif.Device.UsbSpec
import Verif.Device.PropsLogin
import Verif.Usb.Props

/-!
# C83 over USB
-/
namespace Verif.Usb
open Verif.Ctap hiding Transport
open Verif.Hid (Transport IsInit IsCont)

theorem isInit_data {p c c' : Bytes} {cmd cmd' len len' : Nat} {data data' : Bytes} (h : IsInit p c cmd len data)
    (h' : IsInit p c' cmd' len' data') : len = len' ∧ data = data' := by
  obtain ⟨b0, b1, b2, rfl, h1, h2, h3, rfl⟩ := h
  obtain ⟨b0', b1', b2', e, h1', h2', h3', rfl⟩ := h'
  obtain ⟨e1, e2⟩ := List.append_inj' e (h2.trans h2'.symm)
  obtain ⟨_, e3⟩ := List.append_inj' e1 rfl
  simp only [List.cons.injEq, and_true] at e3
  obtain ⟨_, rfl, rfl⟩ := e3
  exact ⟨rfl, e2⟩

theorem isCont_data {p c c' : Bytes} {n n' : Nat} {data data' : Bytes} (h : IsCont p c n data) (h' : IsCont p c' n' data') : data = data' := by
  obtain ⟨b, rfl, h1, h2, _⟩ := h
  obtain ⟨b', e, h1', h2', _⟩ := h'
  exact (List.append_inj' e (h2.trans h2'.symm)).2

/-- Packets spell one message only. -/
theorem spells_one {ps : List Bytes} {cid cid' m m' : Bytes} {cmd cmd' : Nat} (h : Spells ps cid cmd m) (h' : Spells ps cid' cmd' m') : m = m' := by
  obtain ⟨p0, rest, data0, datas, rfl, i1, l1, c1, _, e1⟩ := h
  obtain ⟨_, _, data0', datas', e, i2, l2, c2, _, e2⟩ := h'
  cases e
  obtain ⟨hl, rfl⟩ := isInit_data i1 i2
  have : datas = datas' := by
    refine List.ext_getElem (l1.trans l2.symm) fun i h h' => ?_
    exact isCont_data (c1 i (by omega) h) (c2 i (by omega) h')
  subst this
  rw [e1, e2, ← hl]

end Verif.Usb

namespace Verif.Device
open Verif.Ctap hiding Transport
open Verif.Hid (Transport)
open Verif.Usb (Ready Spells Soon own feed channel later)

theorem processCommand_ok [Dev] (ch : Channel) (msg : Bytes) (s : St) (h : (processCommand ch msg s).1.alive = true) :
    ∃ b s', processCommand ch msg s = (.ok b, s') := by
  unfold processCommand at *
  cases hd : Command.deserialize msg with
  | error e => exact ⟨_, _, rfl⟩
  | ok cmd =>
    rw [hd] at h
    simp only [errorByte] at *
    rcases hq : (do let r ← processParsed cmd ch; respond r : M Bytes) s with ⟨r | e | _ | _, s'⟩ <;> rw [hq] at h
    · exact ⟨_, _, rfl⟩
    · exact ⟨_, _, rfl⟩
    · cases h
    · cases h

/-- An exchange is an execution of the message, if the answer is one of success. -/
theorem exchanged [Dev] {t : Transport} {cid msg ans : Bytes} {d d' : Usb.Device} (h : Exchanged t cid msg ans d d') (h0 : ans.head? = some 0) :
    ∃ ms, stepM (.ctap2 (channel t cid) msg) (later ms d.st) = (.ok (.ctap2 ans), d'.st) ∧ msg.length ≤ 7609 ∧ ans.length ≤ 7609 := by
  obtain ⟨ms, p, rest, outs, out, hr, h64, hs, hn, hlast, hl, hsoon, hf, hans⟩ := h
  obtain ⟨outs', last, e1, _, _, e2, _, _⟩ := Usb.C70_exchange hr ms p rest h64 hs hn hlast hl hsoon (.inl rfl)
  rw [hf] at e1 e2
  obtain ⟨_, e3⟩ := List.append_inj' e1 rfl
  simp only [List.cons.injEq, and_true] at e3
  subst e3
  rcases e2 (by decide) with ⟨_, k1, k2, k3⟩ | ⟨k, _⟩
  · generalize hq : later (Usb.total ((ms, p) :: rest)) d.st = q at k1 k2 k3
    have hst : stepM (.ctap2 (channel t cid) msg) q = (match processCommand (channel t cid) msg q with
        | (.ok b, s') => (.ok (.ctap2 b), s') | (.err e, s') => (.err e, s') | (.panic, s') => (.panic, s') | (.crash, s') => (.crash, s')) := by
      simp only [stepM, Bind.bind, M.bind, M.pure]
      rcases processCommand (channel t cid) msg q with ⟨r | e | _ | _, s'⟩ <;> rfl
    obtain ⟨b, s', hb⟩ := processCommand_ok (channel t cid) msg q (by
      rw [hst] at k2
      rcases hx : processCommand (channel t cid) msg q with ⟨r | e | _ | _, s'⟩ <;> rw [hx] at k2 <;> first | rfl | cases k2)
    rw [hb] at hst
    rw [hst] at k1 k3
    obtain ⟨out', e4, e5, e6⟩ := k3 _ rfl
    cases e4
    refine ⟨Usb.total ((ms, p) :: rest), ?_, Nat.le_trans hl Dev.maxMsgSize_le, ?_⟩
    · rw [hq, hst]
      have : b = ans := by
        by_cases hb : b.length ≤ 7609
        · exact Usb.spells_one (e5 hb) hans
        · have := Usb.spells_one (e6 (by simp only [Usb.content]; omega)) hans
          subst this
          exact absurd h0 (by decide)
      rw [this, k1]
    · by_cases hb : b.length ≤ 7609
      · rw [← Usb.spells_one (e5 hb) hans]; exact hb
      · rw [← Usb.spells_one (e6 (by simp only [Usb.content]; omega)) hans]; decide
  · cases k

theorem soon_zero (cid : Bytes) (l : List Bytes) : Soon cid 0 (l.map fun p => (0, p)) := by
  induction l with
  | nil => trivial
  | cons p l ih => exact ⟨by simp, by simpa using ih⟩

/-- Every message that the device may be sent can be exchanged, and afterwards the interface is ready again. -/
theorem can_exchange [Dev] {t : Transport} {cid msg ans : Bytes} {d : Usb.Device} {s' : St} (hr : Ready t cid d) (hl : msg.length ≤ Dev.maxMsgSize)
    (h : stepM (.ctap2 (channel t cid) msg) d.st = (.ok (.ctap2 ans), s')) (hla : ans.length ≤ 7609) :
    ∃ d', Exchanged t cid msg ans d d' ∧ d'.st = s' ∧ Ready t cid d' := by
  obtain ⟨p0, ps, data0, h1, h2, h3, _, _, h4⟩ := (Hid.C06_split_shape ⟨cid, .cbor, msg⟩ hr.2.1).2 (Nat.le_trans hl Dev.maxMsgSize_le)
  have hs := Usb.split_spells (m := ⟨cid, .cbor, msg⟩) hr.2.1 h1
  have hown : ∀ p ∈ ps, p.length = 64 ∧ own cid (0, p) = true := by
    intro p hp
    obtain ⟨i, hi, rfl⟩ := List.getElem_of_mem hp
    obtain ⟨data, ⟨b, e, e1, e2, _⟩, _⟩ := h4 i hi
    dsimp only at e e1
    refine ⟨by rw [e]; simp [e1, e2], ?_⟩
    unfold own
    rw [e, List.append_assoc, List.take_left' e1]
    simp
  have hf : (ps.map fun p => ((0 : Nat), p)).filter (own cid) = ps.map fun p => (0, p) := by
    rw [List.filter_eq_self]
    intro x hx
    obtain ⟨p, hp, rfl⟩ := List.mem_map.1 hx
    exact (hown p hp).2
  have k1 : ∀ x ∈ ps.map fun p => ((0 : Nat), p), x.2.length = 64 := by
    intro x hx
    obtain ⟨p, hp, rfl⟩ := List.mem_map.1 hx
    exact (hown p hp).1
  have k2 : Spells (p0 :: ((ps.map fun p => ((0 : Nat), p)).filter (own cid)).map (·.2)) cid 0x10 msg := by
    rw [hf, List.map_map]
    have : (fun x : Nat × Bytes => x.2) ∘ (fun p : Bytes => ((0 : Nat), p)) = id := rfl
    rw [this, List.map_id]
    exact hs
  have k3 : ((ps.map fun p => ((0 : Nat), p)).filter (own cid)).length = (msg.length - 57 + 58) / 59 := by
    rw [hf, List.length_map]; exact h3
  have k4 : ∀ x, (ps.map fun p => ((0 : Nat), p)).getLast? = some x → own cid x = true := by
    intro x hx
    obtain ⟨p, hp, rfl⟩ := List.mem_map.1 (List.mem_of_getLast? hx)
    exact (hown p hp).2
  obtain ⟨outs, last, e1, _, _, e2, _, e3⟩ := Usb.C70_exchange hr 0 p0 (ps.map fun p => (0, p)) k1 k2 k3 k4 hl (soon_zero cid ps) (.inl rfl)
  rcases e2 (by decide) with ⟨_, q1, q2, q3⟩ | ⟨k, _⟩
  · have ht : Usb.total ((0, p0) :: ps.map fun p => (0, p)) = 0 := by
      simp [Usb.total, Function.comp_def]
    have hz : later (Usb.total ((0, p0) :: ps.map fun p => (0, p))) d.st = d.st := by rw [ht]; rfl
    rw [hz] at q1 q2 q3
    rw [h] at q1 q3
    obtain ⟨out, rfl, q4, _⟩ := q3 _ rfl
    refine ⟨_, ⟨0, p0, _, outs, out, hr, k1, k2, k3, k4, hl, soon_zero cid ps, ?_, q4 hla⟩, q1, e3⟩
    rw [← e1]
  · cases k

section
variable [B : Board] {P : Oracle → Prop}

theorem reach_later {d : Usb.Device} {o : Oracle} (h : Usb.Reach P true d) (ho : P o) (ms : Nat) : Ctap.Reach P true (later ms (d.st.withOracle o)) :=
  Reach.step o ho (.wait ms) (Usb.C70_commands h)

theorem without_later {k : Command → Prop} {s s' : St} {o : Oracle} (h : Without P k s s') (ho : P o) (ms : Nat) :
    Without P k s (later ms (s'.withOracle o)) :=
  Without.step (i := .wait ms) h ho (by simp)

/-- **C83** over USB, registration. -/
theorem C83_usb_registration {a : McParams} {t : Transport} {cid msg ans : Bytes} {o : Oracle} {d d' : Usb.Device} (hr : Usb.Reach P true d)
    (ho : P o) (hmsg : (Command.makeCredential a).Says Dev.wordBits msg) (h : Exchanged t cid msg ans (d.withOracle o) d')
    (h0 : ans.head? = some 0) :
    ∃ id x y, GivesKey a d'.st.p.attestation ans id x y ∧
      ∀ id' x' y', GivesKey a d'.st.p.attestation ans id' x' y' → id' = id ∧ x' = x ∧ y' = y := by
  obtain ⟨ms, h1, h2, h3⟩ := exchanged h h0
  exact C83_registration (o := o) (reach_later hr ho ms) hmsg h2 h1 h3 h0

/-- **C83** over USB, login with a credential that is not discoverable. -/
theorem C83_usb_sealed {ac : McParams} {t : Transport} {cid msg ans id x y : Bytes} {o : Oracle} {d d1 : Usb.Device} (hr : Usb.Reach P true d)
    (ho : P o) (hmsg : (Command.makeCredential ac).Says Dev.wordBits msg) (h : Exchanged t cid msg ans (d.withOracle o) d1)
    (h0 : ans.head? = some 0) (hrk : ac.options.rk = false) (hk : GivesKey ac d1.st.p.attestation ans id x y)
    {d2 d3 : Usb.Device} (hw : Without P (· = .reset) d1.st d2.st)
    {a : GaParams} {t' : Transport} {cid' msg' ans' : Bytes} {o' : Oracle} (ho' : P o') (hmsg' : (Command.getAssertion a).Says Dev.wordBits msg')
    (hrp : a.rpId = ac.rp.id) (hal : a.allowList = some [{ id := id }])
    (h' : Exchanged t' cid' msg' ans' (d2.withOracle o') d3) (h0' : ans'.head? = some 0) : ProvesKey a ans' id x y := by
  obtain ⟨ms, h1, h2, h3⟩ := exchanged h h0
  obtain ⟨ms', h1', h2', h3'⟩ := exchanged h' h0'
  exact C83_sealed (o := o) (o' := o') (reach_later hr ho ms) ho hmsg h2 h1 h3 h0 hrk hk (without_later hw ho' ms') hmsg' h2' hrp hal h1' h3' h0'

/-- **C83** over USB, login with a discoverable credential. -/
theorem C83_usb_stored {ac : McParams} {t : Transport} {cid msg ans id x y : Bytes} {o : Oracle} {d d1 : Usb.Device} (hr : Usb.Reach P true d)
    (ho : P o) (hmsg : (Command.makeCredential ac).Says Dev.wordBits msg) (h : Exchanged t cid msg ans (d.withOracle o) d1)
    (h0 : ans.head? = some 0) (hrk : ac.options.rk = true) (hk : GivesKey ac d1.st.p.attestation ans id x y)
    {d2 d3 : Usb.Device} (hw : Without P (RemovesKey ac.rp.id ac.user.id id) d1.st d2.st)
    {a : GaParams} {t' : Transport} {cid' msg' ans' : Bytes} {o' : Oracle} (ho' : P o') (hmsg' : (Command.getAssertion a).Says Dev.wordBits msg')
    (hrp : a.rpId = ac.rp.id) (hal : a.allowList = some [{ id := id }])
    (h' : Exchanged t' cid' msg' ans' (d2.withOracle o') d3) (h0' : ans'.head? = some 0) : ProvesKey a ans' id x y := by
  obtain ⟨ms, h1, h2, h3⟩ := exchanged h h0
  obtain ⟨ms', h1', h2', h3'⟩ := exchanged h' h0'
  exact C83_stored (o := o) (o' := o') (reach_later hr ho ms) ho hmsg h2 h1 h3 h0 hrk hk (without_later hw ho' ms') hmsg' h2' hrp hal h1' h3' h0'

end
end Verif.Device
