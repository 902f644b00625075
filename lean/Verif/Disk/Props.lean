import Verif.Disk.ReadLemmas
import Verif.Ctap.Toy

/-!
# C76: the data is kept in the entries of the store

Theorems about the storage functions on the bytes of the flash memory. Everything the commands do with the data
(`Verif/Ctap/Storage.lean`) is what the functions on the store do, for every history of calls, with power lost at any interaction with
the flash.
-/
namespace Verif.Disk
open Verif.Ctap (Dev Cred Status Res Persist Attestation)
open Verif.Store (Format KV Contains Reopen Held Op)
section
variable [Dev] {F : Format} {α : Type}

/-- **C76**, the beginning: a new store holds no data. -/
theorem C76_new (hF : F.supported) {x : St} (h : Reopen F Store.blankFlash x.st) : Keeps F x {} := by
  refine ⟨.new h, _, Store.C44_new hF h, ⟨?_, fun _ hb => (nomatch hb), fun _ _ _ h => absurd rfl h⟩, ?_, ?_⟩
  · exact List.nodup_nil
  · exact ⟨0, Nat.zero_le _, fun p _ => ⟨fun h => absurd rfl h, fun h => absurd h (Nat.not_lt_zero _)⟩, rfl⟩
  · constructor <;> first | rfl | exact .inl ⟨rfl, rfl⟩ | exact fun _ h => nomatch h

/-- **C76**, reads: no read of the store fails, reads leave the store as it is, and they give the data.
(Listing the credentials draws the master keys first if there are none, which is not a read: that case is in `C76_call`.) -/
theorem C76_reads (hF : F.supported) {x : St} {p : Persist} (h : Keeps F x p) :
    pinHash F x = (.ok (p.pin.map (·.1)), x) ∧
    pinCodePointLength F x = (.ok (p.pin.map (·.2)), x) ∧
    pinRetries F x = (.ok (p.pinRetries.getD Dev.maxPinRetries), x) ∧
    minPinLength F x = (.ok (p.minPinLength.getD Dev.defaultMinPinLength), x) ∧
    minPinLengthRpIds F x = (.ok (p.minPinRpIds.getD Dev.defaultMinPinRpIds), x) ∧
    signatureCounter F x = (.ok (p.counter.getD 1), x) ∧
    hasForcePinChange F x = (.ok p.forcePinChange, x) ∧
    enterpriseAttestation F x = (.ok p.enterprise, x) ∧
    hasAlwaysUv F x = (.ok (Dev.enforceAlwaysUv || p.alwaysUv), x) ∧
    attestationGet F x = (.ok p.attestation, x) ∧
    countCredentials F x = (.ok p.creds.length, x) ∧
    (∀ b offset count, p.largeBlob = some b → getLargeBlobArray F offset count x = (.ok ((b.drop offset).take count), x)) ∧
    (p.master ≠ none → ∃ l, iterCredentials F x = (.ok l, x) ∧ l.Perm p.creds) := by
  obtain ⟨h1, m, h2, h3⟩ := h
  have hr := h3.rest
  refine ⟨?_, ?_, byte_eq h2 _ _ hr.pinRetries hr.retriesSize, byte_eq h2 _ _ hr.minPinLength hr.minPinSize, rpIds_eq h2 h3,
    counter_eq h2 hr.counter hr.counterSize, flag_eq h2 _ hr.forcePinChange, flag_eq h2 _ hr.enterprise, ?_, attestation_eq h2 h3,
    count_eq hF h1 h2 h3, fun b offset count hb => blob_eq hF h1 h2 h3 hb offset count, fun hm => (Option.ne_none_iff_exists'.1 hm).elim fun _ hm => iter_eq hF h1 h2 h3 hm⟩
  · unfold pinHash
    rw [bind_eq, pin_eq h2 h3]
    rfl
  · unfold pinCodePointLength
    rw [bind_eq, pin_eq h2 h3]
    rfl
  · unfold hasAlwaysUv
    cases Dev.enforceAlwaysUv
    · exact flag_eq h2 _ hr.alwaysUv
    · rfl

/-- **C76**, a call: it does not panic, and what it returns and leaves is what the function on the data returns and leaves, in some
environment. -/
theorem C76_call (hF : F.supported) (hT : TypedConfig) {x x' : St} {t : Ctap.St} (hx : Keeps F x t.p) (c : Call α) (hc : c.Typed) {r : Res α}
    (h : c.onDisk F x = (r, x')) (hr : r ≠ .crash) :
    r ≠ .panic ∧ ∃ o, (c.onData (t.withOracle o)).1 = r ∧ Keeps F x' (c.onData (t.withOracle o)).2.p := by
  obtain ⟨h1, h2, _, h4⟩ := sim_call hF hT c hc x (t.withOracle calm) hx trivial
  cases r with
  | ok a =>
    obtain ⟨o, b, t', e1, e2, e3⟩ := h1 a x' h
    refine ⟨(fun h => nomatch h), o, ?_⟩
    have e4 : c.onData (t.withOracle o) = (.ok b, t') := e1
    cases e3
    rw [e4]
    exact ⟨rfl, e2⟩
  | err e =>
    obtain ⟨o, t', e1, e2⟩ := h2 e x' h
    refine ⟨(fun h => nomatch h), o, ?_⟩
    have e4 : c.onData (t.withOracle o) = (.err e, t') := e1
    rw [e4]
    exact ⟨rfl, e2⟩
  | panic => exact absurd h (h4 x')
  | crash => exact absurd rfl hr

/-- **C76**, loss of power: if power is lost at any point of a call and the store is opened again, then it holds the data that the
function has made in some environment, which may stop it at any interaction. -/
theorem C76_lost (hF : F.supported) (hT : TypedConfig) {x x' y : St} {t : Ctap.St} (hx : Keeps F x t.p) (c : Call α) (hc : c.Typed)
    (h : c.onDisk F x = (.crash, x')) (ho : Reopen F x'.st.fl y.st) : ∃ o, Keeps F y (c.onData (t.withOracle o)).2.p :=
  (sim_call hF hT c hc x (t.withOracle calm) hx trivial).2.2.1 x' y h ho

/-- A device with this data, before power-up. -/
def off (p : Persist) : Ctap.St := { env := { o := calm, k := 0, now := 0 }, p := p, v := Ctap.Vol.off, log := [] }

/-- **C76**: whatever calls are made one after the other, and whenever power is lost, the results are those of the calls on the data,
and in the end the store holds the data. -/
theorem C76_history (hF : F.supported) (hT : TypedConfig) {x x' : St} {l : List Entry} (h : OnDisk F x l x') :
    ∀ {p : Persist}, Keeps F x p → ∃ p', OnData p l p' ∧ Keeps F x' p' := by
  induction h with
  | nil => exact fun hp => ⟨_, .nil, hp⟩
  | call c r hc hr h _ ih =>
    intro p hp
    obtain ⟨_, o, h1, h2⟩ := C76_call hF hT (t := off p) hp c hc h hr
    obtain ⟨p', h3, h4⟩ := ih h2
    exact ⟨p', .call c r _ o rfl h1 h3, h4⟩
  | lost c hc h ho _ ih =>
    intro p hp
    obtain ⟨o, h1⟩ := C76_lost hF hT (t := off p) hp c hc h ho
    obtain ⟨p', h3, h4⟩ := ih h1
    exact ⟨p', .lost c _ o rfl h3, h4⟩
  | cycle ho _ ih =>
    intro p hp
    exact ih (hp.reopen hF ho)

end

/-! ## Examples

A store of six pages of 64 words, with the toy cryptography of `Verif/Ctap/Toy.lean`. -/
section
open Verif.Ctap.Toy

def demoFormat : Format := ⟨64, 6, 10⟩

theorem demoFormat_supported : demoFormat.supported := by simp only [Format.supported, demoFormat]; decide

theorem demoConfig : TypedConfig := ⟨fun _ h => (nomatch h), by decide⟩

/-- A new store. -/
def demoNew (o : Nat → Option Store.Flash) : St where
  st := (Store.opened demoFormat Store.blankFlash 0 o).2
  rnd k i := UInt8.ofNat (k * 7 + i + 1)
  n := 0

def demoCred : Cred :=
  { id := [1, 2, 3], sk := List.replicate 32 9, rpId := [97, 46, 98], userHandle := [5], userDisplayName := none, policy := none, order := 1
    userName := some [65, 108], userIcon := none, credBlob := some [7], largeBlobKey := none }

theorem demoCred_is : IsCred demoCred where
  id := by simp only [IsBytes]; decide
  sk := by decide
  rpId := by simp only [IsString]; decide +kernel
  userHandle := by simp only [IsBytes]; decide
  userDisplayName := fun _ h => nomatch h
  order := by decide
  userName := fun b h => by cases h; simp only [IsString]; decide +kernel
  userIcon := fun _ h => nomatch h
  credBlob := fun b h => by cases h; simp only [IsBytes]; decide
  largeBlobKey := fun _ h => nomatch h

theorem demoNew_keeps (o : Nat → Option Store.Flash) (h : (Store.opened demoFormat Store.blankFlash 0 o).1 = .ok ()) : Keeps demoFormat (demoNew o) {} :=
  C76_new demoFormat_supported (.done (k := 0) (o := o) (Prod.ext h rfl))

/-- After one call. -/
def after {α : Type} (c : Call α) (x : St) : St := (c.onDisk demoFormat x).2

theorem after_eq {α : Type} (c : Call α) (x : St) {r : Res α} (h : (c.onDisk demoFormat x).1 = r) : c.onDisk demoFormat x = (r, after c x) :=
  Prod.ext h rfl

/-- A credential and a PIN are stored. -/
def demoStored (o : Nat → Option Store.Flash) : St :=
  after (.setPin (List.replicate 16 3) 4) (after (.storeCredential demoCred) (demoNew o))

/-- C76_reads, C76_call, C76_history: the calls succeed, and what was stored is read. -/
example : ((Call.storeCredential demoCred).onDisk demoFormat (demoNew Store.powered)).1 = .ok () ∧
    (iterCredentials demoFormat (demoStored Store.powered)).1 = .ok [(1700, demoCred)] ∧
    (pinHash demoFormat (demoStored Store.powered)).1 = .ok (some (List.replicate 16 3)) ∧
    (pinCodePointLength demoFormat (demoStored Store.powered)).1 = .ok (some 4) ∧
    (signatureCounter demoFormat (after (.incrSignatureCounter 4294967300) (demoStored Store.powered))).1 = .ok 5 ∧
    (iterCredentials demoFormat (after .reset (demoStored Store.powered))).1 = .ok [] ∧
    (pinHash demoFormat (after .reset (demoStored Store.powered))).1 = .ok none := by decide +kernel

/-- The private key is not in the entry of the credential as it is. -/
example : (match (find demoFormat 1700 (demoStored Store.powered)).1 with
    | .ok (some b) => b.length == 76 && (List.range 45).all fun i => (b.drop i).take 32 != demoCred.sk
    | _ => false) = true := by decide +kernel

/-- Opening the store again. -/
def demoAgain (x : St) : St := { x with st := (Store.opened demoFormat x.st.fl 0 Store.powered).2 }

theorem demoAgain_reopen (x : St) (h : (Store.opened demoFormat x.st.fl 0 Store.powered).1 = .ok ()) :
    Reopen demoFormat x.st.fl (demoAgain x).st := .done (k := 0) (o := Store.powered) (Prod.ext h rfl)

/-- C76_lost: power is lost at each interaction with the flash during `setPin`. In the end, there is no PIN or the new PIN. -/
example : ((List.range 6).map fun i =>
      let c := Call.setPin (List.replicate 16 3) 4
      let r := c.onDisk demoFormat (after (.storeCredential demoCred) (demoNew (Store.lostAt (5 + i))))
      (r.1 == .crash, (pinHash demoFormat (demoAgain r.2)).1, (iterCredentials demoFormat (demoAgain r.2)).1 == .ok [(1700, demoCred)])) =
    [(true, .ok none, true), (true, .ok none, true), (true, .ok none, true), (true, .ok none, true),
     (true, .ok (some (List.replicate 16 3)), true), (true, .ok (some (List.replicate 16 3)), true)] := by decide +kernel

/-- A call, a call during which power is lost, and a call. -/
theorem demoThree {α β γ : Type} (c : Call α) (d : Call β) (e : Call γ) (hc : c.Typed) (hd : d.Typed) (he : e.Typed) (x : St) (a : α) (b : γ)
    (h1 : (c.onDisk demoFormat x).1 = .ok a) (h2 : (d.onDisk demoFormat (after c x)).1 = .crash)
    (h3 : (Store.opened demoFormat (after d (after c x)).st.fl 0 Store.powered).1 = .ok ())
    (h4 : (e.onDisk demoFormat (demoAgain (after d (after c x)))).1 = .ok b) :
    OnDisk demoFormat x [⟨α, c, some (.ok a)⟩, ⟨β, d, none⟩, ⟨γ, e, some (.ok b)⟩] (after e (demoAgain (after d (after c x)))) :=
  .call c _ hc (fun h => nomatch h) (after_eq _ _ h1) (.lost d hd (after_eq _ _ h2) (demoAgain_reopen _ h3)
    (.call e _ he (fun h => nomatch h) (after_eq _ _ h4) .nil))

/-- C76_history: a credential is stored, power is lost while the PIN is stored, and then the PIN is read. -/
example : ∃ x p, OnDisk demoFormat (demoNew (Store.lostAt 9)) [⟨Unit, .storeCredential demoCred, some (.ok ())⟩,
      ⟨Unit, .setPin (List.replicate 16 3) 4, none⟩, ⟨Option Bytes, .pinHash, some (.ok (some (List.replicate 16 3)))⟩] x ∧
    OnData {} [⟨Unit, .storeCredential demoCred, some (.ok ())⟩, ⟨Unit, .setPin (List.replicate 16 3) 4, none⟩,
      ⟨Option Bytes, .pinHash, some (.ok (some (List.replicate 16 3)))⟩] p ∧ Keeps demoFormat x p := by
  have h := demoThree (.storeCredential demoCred) (.setPin (List.replicate 16 3) 4) .pinHash demoCred_is ⟨List.length_replicate, by decide⟩ trivial
    (demoNew (Store.lostAt 9)) () (some (List.replicate 16 3)) (by decide +kernel) (by decide +kernel) (by decide +kernel) (by decide +kernel)
  obtain ⟨p, h6, h7⟩ := C76_history demoFormat_supported demoConfig h (demoNew_keeps _ (by decide +kernel))
  exact ⟨_, p, h, h6, h7⟩

end

end Verif.Disk
