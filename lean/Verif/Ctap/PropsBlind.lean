import Verif.Ctap.BlindLemmas
import Verif.Ctap.Toy

/-!
# C88: clients learn nothing about credentials that are hidden from them
-/
namespace Verif.Ctap
variable [Dev]

/-- **C88**: on two devices that differ only in hidden credentials, an input that does not ask about hidden credentials
gets the same answer, and the devices again differ only in hidden credentials. -/
theorem C88_step {hidden : Cred → Prop} {s1 s2 : St} (h : Alike hidden s1 s2) (o : Oracle) {i : Input} (hi : i.Blind hidden) :
    SameAnswer i (stepM i (s1.withOracle o)).1 (stepM i (s2.withOracle o)).1 ∧
    Alike hidden (stepM i (s1.withOracle o)).2 (stepM i (s2.withOracle o)).2 := by
  obtain ⟨K, hr⟩ := h.rel
  obtain ⟨h1, h2⟩ := step_alike hi (hr.oracle o)
  exact ⟨h1, h2.alike⟩

theorem C88_boot {hidden : Cred → Prop} {s1 s2 : St} (h : Alike hidden s1 s2) (o : Oracle) :
    Alike hidden (bootM (s1.withOracle o)).2 (bootM (s2.withOracle o)).2 := by
  obtain ⟨K, hr⟩ := h.rel
  exact ((inferInstance : Same hidden K bootM).out _ _ (hr.oracle o)).2.alike

/-- **C88**: the same for a history of inputs and power losses. -/
theorem C88_session {hidden : Cred → Prop} : ∀ (l : List (Oracle × Option Input)) {s1 s2 : St}, Alike hidden s1 s2 →
    (∀ o i, (o, some i) ∈ l → i.Blind hidden) → AllSame (session l s1) (session l s2)
  | [], _, _, _, _ => trivial
  | (o, none) :: l, _, _, h, hl => C88_session l (C88_boot h o) fun o i hi => hl o i (by simp [hi])
  | (o, some i) :: l, _, _, h, hl =>
    have h1 := C88_step h o (hl o i (by simp))
    ⟨rfl, h1.1, C88_session l h1.2 fun o i hi => hl o i (by simp [hi])⟩

theorem AllSame.eq : ∀ {l l' : List (Input × Res Reply)}, AllSame l l' → (∀ e ∈ l, ¬ e.1.AsksInfo) → l = l'
  | [], [], _, _ => rfl
  | (i, r) :: l, (i', r') :: l', ⟨h1, h2, h3⟩, hn => by
    subst h1
    have := AllSame.eq h3 fun e he => hn e (by simp [he])
    subst this
    cases h2 with
    | same => rfl
    | info _ _ _ _ _ _ hi => exact absurd hi (hn _ List.mem_cons_self)

theorem session_inputs : ∀ {l : List (Oracle × Option Input)} {s : St} {e : Input × Res Reply}, e ∈ session l s →
    ∃ o, (o, some e.1) ∈ l
  | [], _, _, h => absurd h (by simp [session])
  | (o, none) :: l, s, e, h => by
    obtain ⟨o', h1⟩ := session_inputs (l := l) (by simpa [session] using h)
    exact ⟨o', by simp [h1]⟩
  | (o, some i) :: l, s, e, h => by
    simp only [session, List.mem_cons] at h
    rcases h with rfl | h
    · exact ⟨o, by simp⟩
    · obtain ⟨o', h1⟩ := session_inputs h
      exact ⟨o', by simp [h1]⟩

/-- **C88**: the answers are equal to the last bit for a client that does not ask for the number of free slots. -/
theorem C88_equal {hidden : Cred → Prop} (l : List (Oracle × Option Input)) {s1 s2 : St} (h : Alike hidden s1 s2)
    (hl : ∀ o i, (o, some i) ∈ l → i.Blind hidden) (hn : ∀ o i, (o, some i) ∈ l → ¬ i.AsksInfo) :
    session l s1 = session l s2 :=
  (C88_session l h hl).eq fun e he => by
    obtain ⟨o, h1⟩ := session_inputs he
    exact hn o e.1 h1

/-- **C88**, relying parties: a client that speaks for one relying party learns nothing about the accounts of the user
with others. -/
theorem C88_other_parties (rp : Bytes) (l : List (Oracle × Option Input)) {s1 s2 : St}
    (h : Alike (fun c => c.rpId ≠ rp) s1 s2) (hl : ∀ o i, (o, some i) ∈ l → i.OnlyFor rp) :
    AllSame (session l s1) (session l s2) := by
  refine C88_session l h fun o i hi => ?_
  have hi := hl o i hi
  cases i with
  | ctap2 ch msg =>
    intro cmd hm
    obtain ⟨h1, h2, h3⟩ := hi cmd hm
    cases cmd with
    | makeCredential a =>
      obtain ⟨h4, h5⟩ := h1 a rfl
      exact ⟨h5, fun c hc hs => hc (hs.1.trans h4)⟩
    | getAssertion a => exact fun c hc hs => hc (hs.1.trans (h2 a rfl))
    | credMgmt a => exact h3 a rfl
    | _ => trivial
  | _ => trivial

/-- **C88**, protected credentials: a client without user verification learns nothing about credentials with the policy
`userVerificationRequired`, even if it knows their ids. -/
theorem C88_protected (l : List (Oracle × Option Input)) {s1 s2 : St}
    (h : Alike (fun c => c.policy = some .required) s1 s2) (hl : ∀ o i, (o, some i) ∈ l → i.WithoutUv) :
    AllSame (session l s1) (session l s2) := by
  refine C88_session l h fun o i hi => ?_
  have hi := hl o i hi
  cases i with
  | ctap2 ch msg =>
    intro cmd hm
    obtain ⟨h1, h2, h3⟩ := hi cmd hm
    cases cmd with
    | makeCredential a =>
      obtain ⟨h4, h5⟩ := h1 a rfl
      refine ⟨h5, fun c (hc : c.policy = _) hs => ?_⟩
      have := hs.2.2
      simp [VisibleById, h4, hc] at this
    | getAssertion a =>
      intro c (hc : c.policy = _) hs
      have := hs.2
      have h4 := h2 a rfl
      cases ha : a.allowList <;> simp [ha, VisibleById, VisibleByRp, h4, hc] at this
    | credMgmt a => exact h3 a rfl
    | _ => trivial
  | _ => trivial

/-- **C88**, credentials to be named: a client without user verification that sends no ids learns nothing about
credentials with the policy `userVerificationOptionalWithCredentialIDList` either. -/
theorem C88_unlisted (l : List (Oracle × Option Input)) {s1 s2 : St}
    (h : Alike (fun c => c.policy = some .required ∨ c.policy = some .optionalWithList) s1 s2)
    (hl : ∀ o i, (o, some i) ∈ l → i.WithoutUv ∧ i.WithoutIds) : AllSame (session l s1) (session l s2) := by
  refine C88_session l h fun o i hi => ?_
  obtain ⟨hi, hi'⟩ := hl o i hi
  cases i with
  | ctap2 ch msg =>
    intro cmd hm
    obtain ⟨h1, h2, h3⟩ := hi cmd hm
    obtain ⟨g1, g2⟩ := hi' cmd hm
    cases cmd with
    | makeCredential a =>
      refine ⟨(h1 a rfl).2, fun c hc hs => ?_⟩
      obtain ⟨d, hd, _⟩ := hs.2.1
      rw [g1 a rfl] at hd
      simp at hd
    | getAssertion a =>
      intro c hc hs
      have := hs.2
      rw [g2 a rfl, h2 a rfl] at this
      rcases hc with hc | hc <;> simp [VisibleByRp, hc] at this
    | credMgmt a => exact h3 a rfl
    | _ => trivial
  | _ => trivial

end Verif.Ctap

namespace Verif.Ctap.Toy

/-- A device with a credential for `rpA`, and the same device with another one for `rpB`. -/
def one : St := step good (register rpA [1] true none) booted
def another : Cred := { id := [9], sk := List.replicate 32 3, rpId := b! "b.com", userHandle := [7], userDisplayName := none
                        policy := none, order := 9, userName := none, userIcon := none, credBlob := none, largeBlobKey := none }
def both : St := { one with p := { one.p with creds := (1701, another) :: one.p.creds } }

theorem alike_parties : Alike (fun c => c.rpId ≠ rpA) one both where
  env := rfl
  volatile := rfl
  data := rfl
  visible k c h := by
    have ha : another.rpId ≠ rpA := by decide
    have : (k, c) ∈ (1701, another) :: one.p.creds ↔ (k, c) ∈ one.p.creds := by
      rw [List.mem_cons, Prod.mk.injEq]
      constructor
      · rintro (⟨_, rfl⟩ | h1)
        · exact absurd ha h
        · exact h1
      · exact .inr
    exact this.symm
  orderly1 := ⟨by decide +kernel, by decide +kernel, by decide +kernel, by decide +kernel⟩
  orderly2 := ⟨by decide +kernel, by decide +kernel, by decide +kernel, by decide +kernel⟩
  login inp keys h := by
    have : one.v.sp.cmd = some .reset := by decide +kernel
    rw [h] at this
    cases this

/-- A relying party logs in on both devices and gets the same answers; the other relying party sees a difference. -/
example : AllSame (session [(good, some (assert rpA none none)), (good, none), (good, some (assert rpA none none))] one)
      (session [(good, some (assert rpA none none)), (good, none), (good, some (assert rpA none none))] both) ∧
    (bytes good (assert rpA none none) one).map (·.take 1) = some [0x00] ∧
    bytes good (assert (b! "b.com") none none) one ≠ bytes good (assert (b! "b.com") none none) both := by
  refine ⟨C88_other_parties rpA _ alike_parties ?_, by decide +kernel, by decide +kernel⟩
  have hm : (Command.deserialize (msg 0x02 (map [(.unsigned 1, .text rpA), (.unsigned 2, .bytes cdh)]))).toOption =
    some (.getAssertion { rpId := rpA, clientDataHash := cdh }) := by decide +kernel
  intro o i hi
  have : i = assert rpA none none := by
    simp only [List.mem_cons, Prod.mk.injEq, Option.some.injEq, reduceCtorEq, and_false, List.not_mem_nil, or_false, false_or] at hi
    rcases hi with hi | hi <;> exact hi.2
  subst this
  intro cmd hc
  have hc' : Command.deserialize (msg 0x02 (map [(.unsigned 1, .text rpA), (.unsigned 2, .bytes cdh)])) = .ok cmd := hc
  rw [hc'] at hm
  simp only [Except.toOption, Option.some.injEq] at hm
  subst hm
  exact ⟨fun a h => (by cases h), fun a h => (by cases h; rfl), fun a h => (by cases h)⟩

/-- A device with a credential that requires user verification, and one without. -/
def empty : St := { withProtected 3 with p := { (withProtected 3).p with creds := [] } }

theorem alike_protected : Alike (fun c => c.policy = some .required) (withProtected 3) empty where
  env := rfl
  volatile := rfl
  data := rfl
  visible k c h := by
    have ha : ((withProtected 3).p.creds.all fun e => e.2.policy == some .required) = true := by decide +kernel
    rw [List.all_eq_true] at ha
    constructor
    · intro h1
      exact absurd (by simpa using ha _ h1) h
    · intro h1
      cases h1
  orderly1 := ⟨by decide +kernel, by decide +kernel, by decide +kernel, by decide +kernel⟩
  orderly2 := ⟨by decide +kernel, by decide +kernel, by decide +kernel, by decide +kernel⟩
  login inp keys h := by
    have : (withProtected 3).v.sp.cmd = some .reset := by decide +kernel
    rw [h] at this
    cases this

/-- A client without user verification that knows the id gets the same answers, while a credential without protection
shows. -/
example : (withProtected 3).stored.length = 1 ∧ empty.stored = [] ∧
    SameAnswer (assert rpA (some [protectedId 3]) none) (reply good (assert rpA (some [protectedId 3]) none) (withProtected 3))
      (reply good (assert rpA (some [protectedId 3]) none) empty) ∧
    bytes good (assert rpA (some [protectedId 1]) none) (withProtected 1) ≠
      bytes good (assert rpA (some [protectedId 1]) none) { withProtected 1 with p := { (withProtected 1).p with creds := [] } } := by
  refine ⟨by decide +kernel, by decide +kernel, (C88_step alike_protected good ?_).1, by decide +kernel⟩
  have hm : (Command.deserialize (msg 0x02 (map [(.unsigned 1, .text rpA), (.unsigned 2, .bytes cdh), (.unsigned 3, .array [map
      [(.text (b! "id"), .bytes (protectedId 3)), (.text (b! "type"), .text (b! "public-key"))]])]))).toOption =
    some (.getAssertion { rpId := rpA, clientDataHash := cdh, allowList := some [{ id := protectedId 3 }] }) := by decide +kernel
  intro cmd hc
  have hc' : Command.deserialize (msg 0x02 (map [(.unsigned 1, .text rpA), (.unsigned 2, .bytes cdh), (.unsigned 3, .array [map
      [(.text (b! "id"), .bytes (protectedId 3)), (.text (b! "type"), .text (b! "public-key"))]])])) = .ok cmd := hc
  rw [hc'] at hm
  simp only [Except.toOption, Option.some.injEq] at hm
  subst hm
  intro c (hc : c.policy = _) hs
  have := hs.2.2
  simp [VisibleById, hc] at this

end Verif.Ctap.Toy
