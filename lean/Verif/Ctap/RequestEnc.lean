import Verif.Ctap.RequestLemmas
import Verif.Ctap.MapLemmas

/-!
# Every request can be made, and only requests of the types are accepted
-/
namespace Verif.Ctap
open Verif.Cbor (Value)
variable [Dev] {α β : Type}

/-- There is a value that stands for `a`, nested at most `n` deep. -/
def Enc (n : Nat) (R : Value → α → Prop) (a : α) : Prop := ∃ v, v.WF Dev.wordBits ∧ v.depth ≤ n ∧ R v a

/-- A value that may be absent, nested at most `n` deep. -/
def Good (n : Nat) (o : Option Value) : Prop := ∀ v, o = some v → v.WF Dev.wordBits ∧ v.depth ≤ n

/-- The value stands for the parameter, and is absent if that is. -/
def Stands (R : Value → α → Prop) (o : Option Value) (a : Option α) : Prop :=
  (o = none ∧ a = none) ∨ ∃ v x, o = some v ∧ a = some x ∧ R v x

theorem Enc.mono {n n' : Nat} {R : Value → α → Prop} {a : α} (h : Enc n R a) (hn : n ≤ n') : Enc n' R a :=
  h.elim fun v h => ⟨v, h.1, Nat.le_trans h.2.1 hn, h.2.2⟩

theorem enc_opt {n : Nat} {R : Value → α → Prop} {o : Option α} (h : IsOpt (Enc n R) o) : ∃ x, Good n x ∧ Stands R x o := by
  cases o with
  | none => exact ⟨none, fun _ h => (nomatch h), .inl ⟨rfl, rfl⟩⟩
  | some a =>
    obtain ⟨v, h1, h2, h3⟩ := h a rfl
    exact ⟨some v, fun _ e => by cases e; exact ⟨h1, h2⟩, .inr ⟨v, a, rfl, rfl, h3⟩⟩

theorem good_some {n : Nat} {v : Value} (h1 : v.WF Dev.wordBits) (h2 : v.depth ≤ n) : Good n (some v) := by
  intro _ e
  cases e
  exact ⟨h1, h2⟩

omit [Dev] in
theorem may_of {R : Value → α → Prop} {m : Entries} {k : Value} {o : Option Value} {a : Option α} (h : Finds m k o) (hs : Stands R o a) :
    May R m k a := by
  rcases hs with ⟨rfl, rfl⟩ | ⟨v, x, rfl, rfl, hr⟩
  · exact .inl ⟨rfl, finds_none h⟩
  · exact .inr ⟨x, rfl, v, (h v).1 rfl, hr⟩

omit [Dev] in
theorem must_of {R : Value → α → Prop} {m : Entries} {k v : Value} {a : α} (h : Finds m k (some v)) (hr : R v a) : Must R m k a :=
  ⟨v, (h v).1 rfl, hr⟩

/-- A map is built from its fields. -/
theorem build (es : List (Value × Option Value)) (n : Nat) (hk : (es.map (·.1)).all keyOk = true)
    (hs : (es.map (·.1)).Pairwise fun a b => a.cmp b = .lt) (hl : es.length < 2 ^ 64) (hv : ∀ e ∈ es, Good n e.2) :
    ∃ m, (Value.map m).WF Dev.wordBits ∧ (Value.map m).depth ≤ n + 1 ∧ ∀ i (hi : i < es.length), Finds m es[i].1 es[i].2 := by
  have hkw : ∀ e ∈ es, e.1.WF Dev.wordBits := fun e he => keyOk_wf (List.all_eq_true.1 hk _ (List.mem_map_of_mem he))
  have hkd : ∀ e ∈ es, e.1.depth = 0 := fun e he => by
    have := List.all_eq_true.1 hk _ (List.mem_map_of_mem (f := (·.1)) he)
    cases hx : e.1 <;> first | rfl | (rw [hx] at this; cases this)
  obtain ⟨m, _, h2, h3, h4⟩ := mapOptions_parts hl hkw (fun e he v h => (hv e he v h).1) hs
  refine ⟨m, h2, ?_, fun i hi => ?_⟩
  · simp only [Value.depth]
    refine depthMap_lt fun e he => ?_
    have := (h3 e.1 e.2).1 he
    exact ⟨by rw [hkd _ this]; omega, by have := (hv _ this e.2 rfl).2; omega⟩
  · have := finds h2 hk hs i (by simpa using hi)
    rw [h4] at this
    simpa [List.getD_eq_getElem?_getD, hi] using this

theorem enc_array {n : Nat} {R : Value → α → Prop} {l : List α} (hl : l.length < 2 ^ 64) (h : ∀ a ∈ l, Enc n R a) : Enc (n + 1) (ArrayOf R) l := by
  have : ∃ vs : List Value, vs.length = l.length ∧ (∀ v ∈ vs, v.WF Dev.wordBits ∧ v.depth ≤ n) ∧ Each R vs l := by
    clear hl
    induction l with
    | nil => exact ⟨[], rfl, by simp, trivial⟩
    | cons a l ih =>
      obtain ⟨v, h1, h2, h3⟩ := h a (List.mem_cons_self ..)
      obtain ⟨vs, h4, h5, h6⟩ := ih fun b hb => h b (List.mem_cons_of_mem _ hb)
      refine ⟨v :: vs, by simp [h4], fun x hx => ?_, h3, h6⟩
      rcases List.mem_cons.1 hx with rfl | hx
      · exact ⟨h1, h2⟩
      · exact h5 x hx
  obtain ⟨vs, h1, h2, h3⟩ := this
  refine ⟨.array vs, ⟨by omega, Verif.Cbor.WFList_iff.2 fun v hv => (h2 v hv).1⟩, ?_, vs, rfl, h3⟩
  simp only [Value.depth]
  exact depthList_lt fun v hv => by have := (h2 v hv).2; omega

/-! ## Scalars -/

theorem enc_bytes {b : Bytes} (h : IsBytes Dev.wordBits b) (n : Nat) : Enc n SaysBytes b := ⟨.bytes b, h, by simp [Value.depth], rfl⟩
theorem enc_text {b : Bytes} (h : IsText Dev.wordBits b) (n : Nat) : Enc n SaysText b := ⟨.text b, h, by simp [Value.depth], rfl⟩
theorem enc_bool (b : Bool) (n : Nat) : Enc n SaysBool b := ⟨.simple _, by simp only [Value.WF], by simp [Value.depth], rfl⟩
theorem enc_nat {k : Nat} (h : k < 2 ^ 64) (n : Nat) : Enc n SaysNat k := ⟨.unsigned k, h, by simp [Value.depth], rfl⟩
theorem enc_int {i : Int} (h : -2 ^ 63 ≤ i) (h' : i < 2 ^ 63) (n : Nat) : Enc n SaysInt i := by
  by_cases h0 : 0 ≤ i
  · exact ⟨.unsigned i.toNat, by simp only [Value.WF]; omega, by simp [Value.depth], .inl ⟨i.toNat, by omega, by omega, rfl⟩⟩
  · exact ⟨.negative i, ⟨h, by omega⟩, by simp [Value.depth], .inr rfl⟩
theorem enc_type (b : Bool) (n : Nat) : Enc n SaysType b := by
  cases b
  · exact ⟨.text [], keyOk_wf (by decide +kernel), by simp [Value.depth], [], rfl, by simp⟩
  · exact ⟨.text (b! "public-key"), keyOk_wf (by decide +kernel), by simp [Value.depth], _, rfl, by simp⟩
theorem enc_alg (b : Bool) (n : Nat) : Enc n SaysAlg b := by
  cases b
  · obtain ⟨v, h1, h2, h3⟩ := enc_int (i := 0) (by decide) (by decide) n
    exact ⟨v, h1, h2, 0, h3, by simp⟩
  · obtain ⟨v, h1, h2, h3⟩ := enc_int (i := -7) (by decide) (by decide) n
    exact ⟨v, h1, h2, -7, h3, by simp⟩
theorem enc_transport (t : Transport) (n : Nat) : Enc n Transport.Says t := by
  cases t <;> exact ⟨_, keyOk_wf (by decide +kernel), by simp [Value.depth], rfl⟩
theorem enc_policy (p : Policy) (n : Nat) : Enc n Policy.Says p := by
  cases p <;> exact ⟨_, keyOk_wf (by decide +kernel), by simp [Value.depth], rfl⟩
theorem enc_proto (p : Proto) (n : Nat) : Enc n Proto.Says p := by
  cases p <;> exact ⟨_, keyOk_wf (by decide +kernel), by simp [Value.depth], rfl⟩
theorem enc_pinSub (p : PinSub) (n : Nat) : Enc n (fun v s => SaysNat v (PinSub.number s)) p := enc_nat (by cases p <;> decide) n
theorem enc_configSub (p : ConfigSub) (n : Nat) : Enc n (fun v s => SaysNat v (ConfigSub.number s)) p := enc_nat (by cases p <;> decide) n
theorem enc_cmSub (p : CmSub) (n : Nat) : Enc n (fun v s => SaysNat v (CmSub.number s)) p := enc_nat (by cases p <;> decide) n
theorem enc_bits (b : UInt8) (n : Nat) : Enc n SaysBits b :=
  ⟨.unsigned b.toNat, by have := b.toNat_lt; simp only [Value.WF]; omega, by simp [Value.depth], b.toNat, rfl, by
    have := b.toNat_lt
    rw [Nat.mod_eq_of_lt (by omega)]
    simp⟩
theorem enc_word {k : Nat} (h : k < 2 ^ Dev.wordBits) (n : Nat) : Enc n (SaysWord Dev.wordBits false) k :=
  ⟨.unsigned k, Nat.lt_of_lt_of_le h (Nat.pow_le_pow_right (by decide) w_le), by simp [Value.depth], k, rfl, (Nat.mod_eq_of_lt h).symm, fun _ => h⟩

/-! ## Structures -/

theorem enc_rp {a : RpEntity} (h : a.Typed Dev.wordBits) : Enc 1 RpEntity.Says a := by
  obtain ⟨h1, h2, h3⟩ := h
  obtain ⟨v0, w0, d0, r0⟩ := enc_text h1 0
  obtain ⟨o1, g1, r1⟩ := enc_opt (n := 0) (fun x hx => enc_text (h3 x hx) _)
  obtain ⟨o2, g2, r2⟩ := enc_opt (n := 0) (fun x hx => enc_text (h2 x hx) _)
  obtain ⟨m, hm, hd, hf⟩ := build [(.text (b! "id"), some v0), (.text (b! "icon"), o1), (.text (b! "name"), o2)] 0 (by simp only [List.map_cons, List.map_nil]; decide +kernel) (by simp only [List.map_cons, List.map_nil]; decide) (by simp) (by
    simp only [List.forall_mem_cons]
    exact ⟨good_some w0 d0, g1, g2, by simp⟩)
  exact ⟨.map m, hm, hd, m, rfl, must_of (hf 0 (by simp)) r0, may_of (hf 2 (by simp)) r2, may_of (hf 1 (by simp)) r1⟩

theorem enc_user {a : UserEntity} (h : a.Typed Dev.wordBits) : Enc 1 UserEntity.Says a := by
  obtain ⟨h1, h2, h3, h4⟩ := h
  obtain ⟨v0, w0, d0, r0⟩ := enc_bytes h1 0
  obtain ⟨o1, g1, r1⟩ := enc_opt (n := 0) (fun x hx => enc_text (h4 x hx) _)
  obtain ⟨o2, g2, r2⟩ := enc_opt (n := 0) (fun x hx => enc_text (h2 x hx) _)
  obtain ⟨o3, g3, r3⟩ := enc_opt (n := 0) (fun x hx => enc_text (h3 x hx) _)
  obtain ⟨m, hm, hd, hf⟩ := build [(.text (b! "id"), some v0), (.text (b! "icon"), o1), (.text (b! "name"), o2), (.text (b! "displayName"), o3)] 0 (by simp only [List.map_cons, List.map_nil]; decide +kernel) (by simp only [List.map_cons, List.map_nil]; decide) (by simp) (by
    simp only [List.forall_mem_cons]
    exact ⟨good_some w0 d0, g1, g2, g3, by simp⟩)
  exact ⟨.map m, hm, hd, m, rfl, must_of (hf 0 (by simp)) r0, may_of (hf 2 (by simp)) r2, may_of (hf 3 (by simp)) r3, may_of (hf 1 (by simp)) r1⟩

theorem enc_param {a : CredParam}  : Enc 1 CredParam.Says a := by
  obtain ⟨v0, w0, d0, r0⟩ := enc_alg a.es256 0
  obtain ⟨v1, w1, d1, r1⟩ := enc_type a.publicKey 0
  obtain ⟨m, hm, hd, hf⟩ := build [(.text (b! "alg"), some v0), (.text (b! "type"), some v1)] 0 (by simp only [List.map_cons, List.map_nil]; decide +kernel) (by simp only [List.map_cons, List.map_nil]; decide) (by simp) (by
    simp only [List.forall_mem_cons]
    exact ⟨good_some w0 d0, good_some w1 d1, by simp⟩)
  exact ⟨.map m, hm, hd, m, rfl, must_of (hf 1 (by simp)) r1, must_of (hf 0 (by simp)) r0⟩

theorem enc_descriptor {a : Descriptor} (h : a.Typed Dev.wordBits) : Enc 2 Descriptor.Says a := by
  obtain ⟨h1, h2⟩ := h
  obtain ⟨v0, w0, d0, r0⟩ := enc_bytes h1 1
  obtain ⟨v1, w1, d1, r1⟩ := enc_type a.publicKey 1
  obtain ⟨o2, g2, r2⟩ := enc_opt (n := 1) (fun x hx => enc_array (h2 x hx) fun t _ => enc_transport t 0)
  obtain ⟨m, hm, hd, hf⟩ := build [(.text (b! "id"), some v0), (.text (b! "type"), some v1), (.text (b! "transports"), o2)] 1 (by simp only [List.map_cons, List.map_nil]; decide +kernel) (by simp only [List.map_cons, List.map_nil]; decide) (by simp) (by
    simp only [List.forall_mem_cons]
    exact ⟨good_some w0 d0, good_some w1 d1, g2, by simp⟩)
  exact ⟨.map m, hm, hd, m, rfl, must_of (hf 1 (by simp)) r1, must_of (hf 0 (by simp)) r0, may_of (hf 2 (by simp)) r2⟩

theorem enc_mcExt {a : McExt} (h : a.Typed Dev.wordBits) : Enc 1 McExt.Says a := by
  obtain ⟨h1, h2⟩ := h
  obtain ⟨o0, g0, r0⟩ := enc_opt (n := 0) (fun x hx => enc_bytes (h1 x hx) _)
  obtain ⟨o1, g1, r1⟩ := enc_opt (n := 0) (fun x _ => enc_policy x 0)
  obtain ⟨v2, w2, d2, r2⟩ := enc_bool a.hmacSecret 0
  obtain ⟨o3, g3, r3⟩ := enc_opt (n := 0) (fun x _ => enc_bool x 0)
  obtain ⟨v4, w4, d4, r4⟩ := enc_bool a.minPinLength 0
  obtain ⟨m, hm, hd, hf⟩ := build [(.text (b! "credBlob"), o0), (.text (b! "credProtect"), o1), (.text (b! "hmac-secret"), some v2), (.text (b! "largeBlobKey"), o3), (.text (b! "minPinLength"), some v4)] 0 (by simp only [List.map_cons, List.map_nil]; decide +kernel) (by simp only [List.map_cons, List.map_nil]; decide) (by simp) (by
    simp only [List.forall_mem_cons]
    exact ⟨g0, g1, good_some w2 d2, g3, good_some w4 d4, by simp⟩)
  exact ⟨.map m, hm, hd, m, rfl, .inr (must_of (hf 2 (by simp)) r2), may_of (hf 1 (by simp)) r1, .inr (must_of (hf 4 (by simp)) r4), may_of (hf 0 (by simp)) r0, may_of (hf 3 (by simp)) r3, h2⟩

theorem enc_cose {a : CoseKey} (h : a.Typed) : Enc 1 CoseKey.Says a := by
  obtain ⟨h1, h2, h3, h4, h5⟩ := h
  obtain ⟨v0, w0, d0, r0⟩ := enc_int (i := a.kty) (by omega) (by omega) 0
  obtain ⟨v1, w1, d1, r1⟩ := enc_int (i := a.alg) (by omega) (by omega) 0
  obtain ⟨v2, w2, d2, r2⟩ := enc_int (i := a.crv) (by omega) (by omega) 0
  obtain ⟨v3, w3, d3, r3⟩ := enc_bytes (b := a.x) (by simp only [IsBytes]; have := pow_w; omega) 0
  obtain ⟨v4, w4, d4, r4⟩ := enc_bytes (b := a.y) (by simp only [IsBytes]; have := pow_w; omega) 0
  obtain ⟨m, hm, hd, hf⟩ := build [(.unsigned 1, some v0), (.unsigned 3, some v1), (.negative (-1), some v2), (.negative (-2), some v3), (.negative (-3), some v4)] 0 (by simp only [List.map_cons, List.map_nil]; decide +kernel) (by simp only [List.map_cons, List.map_nil]; decide) (by simp) (by
    simp only [List.forall_mem_cons]
    exact ⟨good_some w0 d0, good_some w1 d1, good_some w2 d2, good_some w3 d3, good_some w4 d4, by simp⟩)
  exact ⟨.map m, hm, hd, m, rfl, must_of (hf 0 (by simp)) r0, must_of (hf 1 (by simp)) r1, must_of (hf 2 (by simp)) r2, must_of (hf 3 (by simp)) r3, must_of (hf 4 (by simp)) r4, h1, h2, h3, h4, h5⟩

theorem enc_hmacSecret {a : HmacSecretInput} (h : a.Typed Dev.wordBits) : Enc 2 HmacSecretInput.Says a := by
  obtain ⟨h1, h2, h3⟩ := h
  obtain ⟨v0, w0, d0, r0⟩ := enc_cose h1
  obtain ⟨v1, w1, d1, r1⟩ := enc_bytes h2 1
  obtain ⟨v2, w2, d2, r2⟩ := enc_bytes h3 1
  obtain ⟨v3, w3, d3, r3⟩ := enc_proto a.proto 1
  obtain ⟨m, hm, hd, hf⟩ := build [(.unsigned 1, some v0), (.unsigned 2, some v1), (.unsigned 3, some v2), (.unsigned 4, some v3)] 1 (by simp only [List.map_cons, List.map_nil]; decide +kernel) (by simp only [List.map_cons, List.map_nil]; decide) (by simp) (by
    simp only [List.forall_mem_cons]
    exact ⟨good_some w0 d0, good_some w1 d1, good_some w2 d2, good_some w3 d3, by simp⟩)
  exact ⟨.map m, hm, hd, m, rfl, must_of (hf 0 (by simp)) r0, must_of (hf 1 (by simp)) r1, must_of (hf 2 (by simp)) r2, .inr (must_of (hf 3 (by simp)) r3)⟩

theorem enc_gaExt {a : GaExt} (h : a.Typed Dev.wordBits) : Enc 3 GaExt.Says a := by
  obtain ⟨h1, h2⟩ := h
  obtain ⟨v0, w0, d0, r0⟩ := enc_bool a.credBlob 2
  obtain ⟨o1, g1, r1⟩ := enc_opt (n := 2) (fun x hx => enc_hmacSecret (h1 x hx))
  obtain ⟨o2, g2, r2⟩ := enc_opt (n := 2) (fun x _ => enc_bool x 2)
  obtain ⟨m, hm, hd, hf⟩ := build [(.text (b! "credBlob"), some v0), (.text (b! "hmac-secret"), o1), (.text (b! "largeBlobKey"), o2)] 2 (by simp only [List.map_cons, List.map_nil]; decide +kernel) (by simp only [List.map_cons, List.map_nil]; decide) (by simp) (by
    simp only [List.forall_mem_cons]
    exact ⟨good_some w0 d0, g1, g2, by simp⟩)
  exact ⟨.map m, hm, hd, m, rfl, may_of (hf 1 (by simp)) r1, .inr (must_of (hf 0 (by simp)) r0), may_of (hf 2 (by simp)) r2, h2⟩

theorem enc_mcOptions (a : McOptions) : Enc 1 McOptions.Says a := by
  obtain ⟨v0, w0, d0, r0⟩ := enc_bool a.rk 0
  obtain ⟨v1, w1, d1, r1⟩ := enc_bool a.uv 0
  obtain ⟨m, hm, hd, hf⟩ := build [(.text (b! "rk"), some v0), (.text (b! "up"), none), (.text (b! "uv"), some v1)] 0 (by simp only [List.map_cons, List.map_nil]; decide +kernel)
    (by simp only [List.map_cons, List.map_nil]; decide) (by simp) (by
    simp only [List.forall_mem_cons]
    exact ⟨good_some w0 d0, fun _ h => (nomatch h), good_some w1 d1, by simp⟩)
  exact ⟨.map m, hm, hd, m, rfl, .inr (must_of (hf 0 (by simp)) r0), .inl ⟨rfl, finds_none (hf 1 (by simp))⟩, .inr (must_of (hf 2 (by simp)) r1)⟩

theorem enc_gaOptions (a : GaOptions) : Enc 1 GaOptions.Says a := by
  obtain ⟨v0, w0, d0, r0⟩ := enc_bool a.up 0
  obtain ⟨v1, w1, d1, r1⟩ := enc_bool a.uv 0
  obtain ⟨m, hm, hd, hf⟩ := build [(.text (b! "rk"), none), (.text (b! "up"), some v0), (.text (b! "uv"), some v1)] 0 (by simp only [List.map_cons, List.map_nil]; decide +kernel)
    (by simp only [List.map_cons, List.map_nil]; decide) (by simp) (by
    simp only [List.forall_mem_cons]
    exact ⟨fun _ h => (nomatch h), good_some w0 d0, good_some w1 d1, by simp⟩)
  exact ⟨.map m, hm, hd, m, rfl, finds_none (hf 0 (by simp)), .inr (must_of (hf 1 (by simp)) r0), .inr (must_of (hf 2 (by simp)) r1)⟩

/-! ## Parameters -/

theorem enc_mc {a : McParams} (h : a.Typed Dev.wordBits) : Enc 4 McParams.Says a := by
  obtain ⟨h1, h2, h3, h4, h5, h6, h7, h8⟩ := h
  obtain ⟨v0, w0, d0, r0⟩ := enc_bytes h1 3
  obtain ⟨v1, w1, d1, r1⟩ := (enc_rp h2).mono (by decide : 1 ≤ 3)
  obtain ⟨v2, w2, d2, r2⟩ := (enc_user h3).mono (by decide : 1 ≤ 3)
  obtain ⟨v3, w3, d3, r3⟩ := (enc_array h4 fun c _ => enc_param).mono (by decide : 2 ≤ 3)
  obtain ⟨o4, g4, r4⟩ := enc_opt (n := 3) (fun x hx => enc_array (h5 x hx).1 fun d hd => enc_descriptor ((h5 x hx).2 d hd))
  obtain ⟨v5, w5, d5, r5⟩ := (enc_mcExt h6).mono (by decide : 1 ≤ 3)
  obtain ⟨v6, w6, d6, r6⟩ := (enc_mcOptions a.options).mono (by decide : 1 ≤ 3)
  obtain ⟨o7, g7, r7⟩ := enc_opt (n := 3) (fun x hx => enc_bytes (h7 x hx) _)
  obtain ⟨o8, g8, r8⟩ := enc_opt (n := 3) (fun x _ => enc_proto x 3)
  obtain ⟨o9, g9, r9⟩ := enc_opt (n := 3) (fun x hx => enc_nat (h8 x hx) 3)
  obtain ⟨m, hm, hd, hf⟩ := build [(.unsigned 1, some v0), (.unsigned 2, some v1), (.unsigned 3, some v2), (.unsigned 4, some v3), (.unsigned 5, o4), (.unsigned 6, some v5), (.unsigned 7, some v6), (.unsigned 8, o7), (.unsigned 9, o8), (.unsigned 10, o9)] 3 (by simp only [List.map_cons, List.map_nil]; decide +kernel) (by simp only [List.map_cons, List.map_nil]; decide) (by simp) (by
    simp only [List.forall_mem_cons]
    exact ⟨good_some w0 d0, good_some w1 d1, good_some w2 d2, good_some w3 d3, g4, good_some w5 d5, good_some w6 d6, g7, g8, g9, by simp⟩)
  exact ⟨.map m, hm, hd, m, rfl, must_of (hf 0 (by simp)) r0, must_of (hf 1 (by simp)) r1, must_of (hf 2 (by simp)) r2, must_of (hf 3 (by simp)) r3, may_of (hf 4 (by simp)) r4, .inr (must_of (hf 5 (by simp)) r5), .inr (must_of (hf 6 (by simp)) r6), may_of (hf 7 (by simp)) r7, may_of (hf 8 (by simp)) r8, may_of (hf 9 (by simp)) r9⟩

theorem enc_ga {a : GaParams} (h : a.Typed Dev.wordBits) : Enc 4 GaParams.Says a := by
  obtain ⟨h1, h2, h3, h4, h5⟩ := h
  obtain ⟨v0, w0, d0, r0⟩ := enc_text h1 3
  obtain ⟨v1, w1, d1, r1⟩ := enc_bytes h2 3
  obtain ⟨o2, g2, r2⟩ := enc_opt (n := 3) (fun x hx => enc_array (h3 x hx).1 fun d hd => enc_descriptor ((h3 x hx).2 d hd))
  obtain ⟨v3, w3, d3, r3⟩ := enc_gaExt h4
  obtain ⟨v4, w4, d4, r4⟩ := (enc_gaOptions a.options).mono (by decide : 1 ≤ 3)
  obtain ⟨o5, g5, r5⟩ := enc_opt (n := 3) (fun x hx => enc_bytes (h5 x hx) _)
  obtain ⟨o6, g6, r6⟩ := enc_opt (n := 3) (fun x _ => enc_proto x 3)
  obtain ⟨m, hm, hd, hf⟩ := build [(.unsigned 1, some v0), (.unsigned 2, some v1), (.unsigned 3, o2), (.unsigned 4, some v3), (.unsigned 5, some v4), (.unsigned 6, o5), (.unsigned 7, o6)] 3 (by simp only [List.map_cons, List.map_nil]; decide +kernel) (by simp only [List.map_cons, List.map_nil]; decide) (by simp) (by
    simp only [List.forall_mem_cons]
    exact ⟨good_some w0 d0, good_some w1 d1, g2, good_some w3 d3, good_some w4 d4, g5, g6, by simp⟩)
  exact ⟨.map m, hm, hd, m, rfl, must_of (hf 0 (by simp)) r0, must_of (hf 1 (by simp)) r1, may_of (hf 2 (by simp)) r2, .inr (must_of (hf 3 (by simp)) r3), .inr (must_of (hf 4 (by simp)) r4), may_of (hf 5 (by simp)) r5, may_of (hf 6 (by simp)) r6⟩

theorem enc_pin {a : PinParams} (h : a.Typed Dev.wordBits) : Enc 2 PinParams.Says a := by
  obtain ⟨h1, h2, h3, h4, h5⟩ := h
  obtain ⟨v0, w0, d0, r0⟩ := enc_proto a.proto 1
  obtain ⟨v1, w1, d1, r1⟩ := enc_pinSub a.sub 1
  obtain ⟨o2, g2, r2⟩ := enc_opt (n := 1) (fun x hx => enc_cose (h1 x hx))
  obtain ⟨o3, g3, r3⟩ := enc_opt (n := 1) (fun x hx => enc_bytes (h2 x hx) _)
  obtain ⟨o4, g4, r4⟩ := enc_opt (n := 1) (fun x hx => enc_bytes (h3 x hx) _)
  obtain ⟨o5, g5, r5⟩ := enc_opt (n := 1) (fun x hx => enc_bytes (h4 x hx) _)
  obtain ⟨o6, g6, r6⟩ := enc_opt (n := 1) (fun x _ => enc_bits x 1)
  obtain ⟨o7, g7, r7⟩ := enc_opt (n := 1) (fun x hx => enc_text (h5 x hx) _)
  obtain ⟨m, hm, hd, hf⟩ := build [(.unsigned 1, some v0), (.unsigned 2, some v1), (.unsigned 3, o2), (.unsigned 4, o3), (.unsigned 5, o4), (.unsigned 6, o5), (.unsigned 9, o6), (.unsigned 10, o7)] 1 (by simp only [List.map_cons, List.map_nil]; decide +kernel) (by simp only [List.map_cons, List.map_nil]; decide) (by simp) (by
    simp only [List.forall_mem_cons]
    exact ⟨good_some w0 d0, good_some w1 d1, g2, g3, g4, g5, g6, g7, by simp⟩)
  exact ⟨.map m, hm, hd, m, rfl, must_of (hf 0 (by simp)) r0, must_of (hf 1 (by simp)) r1, may_of (hf 2 (by simp)) r2, may_of (hf 3 (by simp)) r3, may_of (hf 4 (by simp)) r4, may_of (hf 5 (by simp)) r5, may_of (hf 6 (by simp)) r6, may_of (hf 7 (by simp)) r7⟩

theorem enc_lb {a : LbParams} (h : a.Typed Dev.wordBits) : Enc 1 (LbParams.Says Dev.wordBits false) a := by
  obtain ⟨h1, h2, h3, h4, h5, h6⟩ := h
  obtain ⟨o0, g0, r0⟩ := enc_opt (n := 0) (fun x hx => enc_word (h2 x hx) 0)
  obtain ⟨o1, g1, r1⟩ := enc_opt (n := 0) (fun x hx => enc_bytes (h3 x hx) _)
  obtain ⟨v2, w2, d2, r2⟩ := enc_word h4 0
  obtain ⟨o3, g3, r3⟩ := enc_opt (n := 0) (fun x hx => enc_word (h5 x hx) 0)
  obtain ⟨o4, g4, r4⟩ := enc_opt (n := 0) (fun x hx => enc_bytes (h6 x hx) _)
  obtain ⟨o5, g5, r5⟩ := enc_opt (n := 0) (fun x _ => enc_proto x 0)
  obtain ⟨m, hm, hd, hf⟩ := build [(.unsigned 1, o0), (.unsigned 2, o1), (.unsigned 3, some v2), (.unsigned 4, o3), (.unsigned 5, o4), (.unsigned 6, o5)] 0 (by simp only [List.map_cons, List.map_nil]; decide +kernel) (by simp only [List.map_cons, List.map_nil]; decide) (by simp) (by
    simp only [List.forall_mem_cons]
    exact ⟨g0, g1, good_some w2 d2, g3, g4, g5, by simp⟩)
  exact ⟨.map m, hm, hd, h1, m, rfl, may_of (hf 0 (by simp)) r0, may_of (hf 1 (by simp)) r1, must_of (hf 2 (by simp)) r2, may_of (hf 3 (by simp)) r3, may_of (hf 4 (by simp)) r4, may_of (hf 5 (by simp)) r5⟩

theorem enc_minPin {a : MinPinParams} (h : a.Typed Dev.wordBits) : Enc 2 MinPinParams.Says a := by
  obtain ⟨h1, h2⟩ := h
  obtain ⟨o0, g0, r0⟩ := enc_opt (n := 1) (fun x hx => enc_nat (Nat.lt_trans (h1 x hx) (by decide)) 1)
  obtain ⟨o1, g1, r1⟩ := enc_opt (n := 1) (fun x hx => enc_array (h2 x hx).1 fun b hb => enc_text ((h2 x hx).2 b hb) 0)
  obtain ⟨o2, g2, r2⟩ := enc_opt (n := 1) (fun x _ => enc_bool x 1)
  obtain ⟨m, hm, hd, hf⟩ := build [(.unsigned 1, o0), (.unsigned 2, o1), (.unsigned 3, o2)] 1 (by simp only [List.map_cons, List.map_nil]; decide +kernel) (by simp only [List.map_cons, List.map_nil]; decide) (by simp) (by
    simp only [List.forall_mem_cons]
    exact ⟨g0, g1, g2, by simp⟩)
  exact ⟨.map m, hm, hd, h1, m, rfl, may_of (hf 0 (by simp)) r0, may_of (hf 1 (by simp)) r1, may_of (hf 2 (by simp)) r2⟩

theorem enc_config {a : ConfigParams} (h : a.Typed Dev.wordBits) : Enc 3 ConfigParams.Says a := by
  obtain ⟨h1, h2, h3⟩ := h
  obtain ⟨v0, w0, d0, r0⟩ := enc_configSub a.sub 2
  obtain ⟨o1, g1, r1⟩ := enc_opt (n := 2) (fun x hx => enc_minPin (h2 x hx))
  obtain ⟨o2, g2, r2⟩ := enc_opt (n := 2) (fun x _ => enc_proto x 2)
  obtain ⟨o3, g3, r3⟩ := enc_opt (n := 2) (fun x hx => enc_bytes (h3 x hx) _)
  obtain ⟨m, hm, hd, hf⟩ := build [(.unsigned 1, some v0), (.unsigned 2, o1), (.unsigned 3, o2), (.unsigned 4, o3)] 2 (by simp only [List.map_cons, List.map_nil]; decide +kernel) (by simp only [List.map_cons, List.map_nil]; decide) (by simp) (by
    simp only [List.forall_mem_cons]
    exact ⟨good_some w0 d0, g1, g2, g3, by simp⟩)
  refine ⟨.map m, hm, hd, m, rfl, must_of (hf 0 (by simp)) r0, fun hs => ?_, fun hs => ?_, may_of (hf 2 (by simp)) r2, may_of (hf 3 (by simp)) r3⟩
  · rcases may_of (hf 1 (by simp)) r1 with ⟨hn, _⟩ | hq
    · rw [h1.2 hs |> Option.isSome_iff_exists.1 |>.choose_spec] at hn
      cases hn
    · exact hq
  · cases hp : a.params with
    | none => rfl
    | some q => exact absurd (h1.1 (by rw [hp]; rfl)) hs

theorem enc_cmSubParams {a : CmSubParams} (h : a.Typed Dev.wordBits) : Enc 3 CmSubParams.Says a := by
  obtain ⟨h1, h2, h3⟩ := h
  obtain ⟨o0, g0, r0⟩ := enc_opt (n := 2) (fun x hx => enc_bytes (h1 x hx) _)
  obtain ⟨o1, g1, r1⟩ := enc_opt (n := 2) (fun x hx => enc_descriptor (h2 x hx))
  obtain ⟨o2, g2, r2⟩ := enc_opt (n := 2) (fun x hx => (enc_user (h3 x hx)).mono (by decide))
  obtain ⟨m, hm, hd, hf⟩ := build [(.unsigned 1, o0), (.unsigned 2, o1), (.unsigned 3, o2)] 2 (by simp only [List.map_cons, List.map_nil]; decide +kernel) (by simp only [List.map_cons, List.map_nil]; decide) (by simp) (by
    simp only [List.forall_mem_cons]
    exact ⟨g0, g1, g2, by simp⟩)
  exact ⟨.map m, hm, hd, m, rfl, may_of (hf 0 (by simp)) r0, may_of (hf 1 (by simp)) r1, may_of (hf 2 (by simp)) r2⟩

theorem enc_cm {a : CmParams} (h : a.Typed Dev.wordBits) : Enc 4 CmParams.Says a := by
  obtain ⟨h1, h2⟩ := h
  obtain ⟨v0, w0, d0, r0⟩ := enc_cmSub a.sub 3
  obtain ⟨o1, g1, r1⟩ := enc_opt (n := 3) (fun x hx => enc_cmSubParams (h1 x hx))
  obtain ⟨o2, g2, r2⟩ := enc_opt (n := 3) (fun x _ => enc_proto x 3)
  obtain ⟨o3, g3, r3⟩ := enc_opt (n := 3) (fun x hx => enc_bytes (h2 x hx) _)
  obtain ⟨m, hm, hd, hf⟩ := build [(.unsigned 1, some v0), (.unsigned 2, o1), (.unsigned 3, o2), (.unsigned 4, o3)] 3 (by simp only [List.map_cons, List.map_nil]; decide +kernel) (by simp only [List.map_cons, List.map_nil]; decide) (by simp) (by
    simp only [List.forall_mem_cons]
    exact ⟨good_some w0 d0, g1, g2, g3, by simp⟩)
  exact ⟨.map m, hm, hd, m, rfl, must_of (hf 0 (by simp)) r0, may_of (hf 1 (by simp)) r1, may_of (hf 2 (by simp)) r2, may_of (hf 3 (by simp)) r3⟩

/-- Every command of the types has a message. -/
theorem command_says {cmd : Command} (h : cmd.Typed Dev.wordBits) : ∃ msg, cmd.Says Dev.wordBits msg := by
  have key : ∀ {β : Type} {R : Value → β → Prop} {p : β} {n : Nat} (c : UInt8), Enc n R p → n ≤ 4 → (∀ v, R v p → cmd.Carries Dev.wordBits false c v) →
      ∃ msg, cmd.Says Dev.wordBits msg := by
    rintro β R p n c ⟨v, h1, h2, h3⟩ hn hc
    exact ⟨_, c, _, rfl, .inr ⟨v, ⟨h1, Nat.le_trans h2 hn⟩, rfl, hc v h3⟩⟩
  cases cmd with
  | makeCredential p => exact key 0x01 (enc_mc h) (by decide) fun v hv => ⟨rfl, hv⟩
  | getAssertion p => exact key 0x02 (enc_ga h) (by decide) fun v hv => ⟨rfl, hv⟩
  | clientPin p => exact key 0x06 (enc_pin h) (by decide) fun v hv => ⟨rfl, hv⟩
  | credMgmt p => exact key 0x0A (enc_cm h) (by decide) fun v hv => ⟨.inl rfl, hv⟩
  | largeBlobs p => exact key 0x0C (enc_lb h) (by decide) fun v hv => ⟨rfl, hv⟩
  | config p => exact key 0x0D (enc_config h) (by decide) fun v hv => ⟨rfl, hv⟩
  | getInfo => exact ⟨[0x04], _, _, rfl, .inl rfl⟩
  | reset => exact ⟨[0x07], _, _, rfl, .inl rfl⟩
  | getNextAssertion => exact ⟨[0x08], _, _, rfl, .inl rfl⟩
  | selection => exact ⟨[0x0B], _, _, rfl, .inl rfl⟩

/-! ## Only requests of the types are accepted -/

/-- Values of the type stand for parameters of the type. -/
def Gives (R : Value → α → Prop) (P : α → Prop) : Prop := ∀ v, v.WF Dev.wordBits → ∀ a, R v a → P a

theorem must_gives {R : Value → α → Prop} {P : α → Prop} (h : Gives R P) {m : Entries} (hm : (Value.map m).WF Dev.wordBits) {k : Value} {a : α}
    (hk : Must R m k a) : P a := by
  obtain ⟨v, h1, h2⟩ := hk
  exact h v (Verif.Cbor.WFMap_iff.1 hm.2.1 _ h1).2 a h2

theorem may_gives {R : Value → α → Prop} {P : α → Prop} (h : Gives R P) {m : Entries} (hm : (Value.map m).WF Dev.wordBits) {k : Value}
    {o : Option α} (hk : May R m k o) : IsOpt P o := by
  rintro a rfl
  rcases hk with ⟨h1, _⟩ | ⟨b, h1, h2⟩
  · cases h1
  · cases h1
    exact must_gives h hm h2

theorem else_gives {R : Value → α → Prop} {P : α → Prop} (h : Gives R P) {m : Entries} (hm : (Value.map m).WF Dev.wordBits) {k : Value}
    {d a : α} (hd : P d) (hk : Else d R m k a) : P a := by
  rcases hk with ⟨rfl, _⟩ | hk
  · exact hd
  · exact must_gives h hm hk

theorem gives_array {R : Value → α → Prop} {P : α → Prop} (h : Gives R P) : Gives (ArrayOf R) (IsList P) := by
  rintro _ hv l ⟨vs, rfl, he⟩
  have hw := Verif.Cbor.WFList_iff.1 hv.2
  have key : ∀ (vs : List Value) (l : List α), (∀ v ∈ vs, v.WF Dev.wordBits) → Each R vs l → l.length = vs.length ∧ ∀ a ∈ l, P a := by
    intro vs
    induction vs with
    | nil =>
      intro l _ he
      cases l with
      | nil => exact ⟨rfl, fun _ h => (nomatch h)⟩
      | cons => cases he
    | cons v vs ih =>
      intro l hw he
      cases l with
      | nil => cases he
      | cons a l =>
        obtain ⟨h1, h2⟩ := ih l (fun x hx => hw x (List.mem_cons_of_mem _ hx)) he.2
        refine ⟨by simp [h1], fun b hb => ?_⟩
        rcases List.mem_cons.1 hb with rfl | hb
        · exact h v (hw v (List.mem_cons_self ..)) _ he.1
        · exact h2 b hb
  obtain ⟨h1, h2⟩ := key vs l hw he
  exact ⟨by rw [h1]; exact hv.1, h2⟩

theorem Gives.imp {R : Value → α → Prop} {P Q : α → Prop} (h : Gives R P) (hi : ∀ a, P a → Q a) : Gives R Q := fun v hv a ha => hi a (h v hv a ha)

theorem gives_true {R : Value → α → Prop} : Gives R fun _ => True := fun _ _ _ _ => trivial
theorem gives_bytes : Gives SaysBytes (IsBytes Dev.wordBits) := by rintro _ hv a rfl; exact hv
theorem gives_text : Gives SaysText (IsText Dev.wordBits) := by rintro _ hv a rfl; exact hv
theorem gives_nat : Gives SaysNat (· < 2 ^ 64) := by rintro _ hv a rfl; exact hv
theorem gives_word {b : Bool} : Gives (SaysWord Dev.wordBits b) (· < 2 ^ Dev.wordBits) := by
  rintro _ hv a ⟨k, rfl, rfl, _⟩
  exact Nat.mod_lt _ (Nat.pow_pos (by decide))

theorem gives_rp : Gives RpEntity.Says (RpEntity.Typed Dev.wordBits) := by
  rintro _ hv a ⟨m, rfl, h1, h2, h3⟩
  exact ⟨must_gives gives_text hv h1, may_gives gives_text hv h2, may_gives gives_text hv h3⟩

theorem gives_user : Gives UserEntity.Says (UserEntity.Typed Dev.wordBits) := by
  rintro _ hv a ⟨m, rfl, h1, h2, h3, h4⟩
  exact ⟨must_gives gives_bytes hv h1, may_gives gives_text hv h2, may_gives gives_text hv h3, may_gives gives_text hv h4⟩

theorem gives_descriptor : Gives Descriptor.Says (Descriptor.Typed Dev.wordBits) := by
  rintro _ hv a ⟨m, rfl, _, h1, h2⟩
  exact ⟨must_gives gives_bytes hv h1, may_gives ((gives_array gives_true).imp fun _ h => h.1) hv h2⟩

theorem gives_mcExt : Gives McExt.Says (McExt.Typed Dev.wordBits) := by
  rintro _ hv a ⟨m, rfl, _, _, _, h1, _, h2⟩
  exact ⟨may_gives gives_bytes hv h1, h2⟩

theorem gives_cose : Gives CoseKey.Says CoseKey.Typed := by
  rintro _ hv a ⟨m, rfl, _, _, _, _, _, h⟩
  exact h

theorem gives_hmacSecret : Gives HmacSecretInput.Says (HmacSecretInput.Typed Dev.wordBits) := by
  rintro _ hv a ⟨m, rfl, h1, h2, h3, _⟩
  exact ⟨must_gives gives_cose hv h1, must_gives gives_bytes hv h2, must_gives gives_bytes hv h3⟩

theorem gives_gaExt : Gives GaExt.Says (GaExt.Typed Dev.wordBits) := by
  rintro _ hv a ⟨m, rfl, h1, _, _, h2⟩
  exact ⟨may_gives gives_hmacSecret hv h1, h2⟩

theorem gives_mc : Gives McParams.Says (McParams.Typed Dev.wordBits) := by
  rintro _ hv a ⟨m, rfl, h1, h2, h3, h4, h5, h6, _, h8, _, h10⟩
  exact ⟨must_gives gives_bytes hv h1, must_gives gives_rp hv h2, must_gives gives_user hv h3, (must_gives (gives_array gives_true) hv h4).1,
    may_gives (gives_array gives_descriptor) hv h5, else_gives gives_mcExt hv (by constructor <;> simp [IsOpt]) h6,
    may_gives gives_bytes hv h8, may_gives gives_nat hv h10⟩

theorem gives_ga : Gives GaParams.Says (GaParams.Typed Dev.wordBits) := by
  rintro _ hv a ⟨m, rfl, h1, h2, h3, h4, _, h6, _⟩
  exact ⟨must_gives gives_text hv h1, must_gives gives_bytes hv h2, may_gives (gives_array gives_descriptor) hv h3,
    else_gives gives_gaExt hv (by constructor <;> simp [IsOpt]) h4, may_gives gives_bytes hv h6⟩

theorem gives_pin : Gives PinParams.Says (PinParams.Typed Dev.wordBits) := by
  rintro _ hv a ⟨m, rfl, _, _, h3, h4, h5, h6, _, h8⟩
  exact ⟨may_gives gives_cose hv h3, may_gives gives_bytes hv h4, may_gives gives_bytes hv h5, may_gives gives_bytes hv h6,
    may_gives gives_text hv h8⟩

theorem gives_lb {b : Bool} : Gives (LbParams.Says Dev.wordBits b) (LbParams.Typed Dev.wordBits) := by
  rintro _ hv a ⟨h0, m, rfl, h1, h2, h3, h4, h5, _⟩
  exact ⟨h0, may_gives gives_word hv h1, may_gives gives_bytes hv h2, must_gives gives_word hv h3, may_gives gives_word hv h4,
    may_gives gives_bytes hv h5⟩

theorem gives_minPin : Gives MinPinParams.Says (MinPinParams.Typed Dev.wordBits) := by
  rintro _ hv a ⟨h0, m, rfl, _, h2, _⟩
  exact ⟨h0, may_gives (gives_array gives_text) hv h2⟩

theorem gives_config : Gives ConfigParams.Says (ConfigParams.Typed Dev.wordBits) := by
  rintro _ hv a ⟨m, rfl, _, h2, h3, _, h5⟩
  refine ⟨⟨fun h => ?_, fun h => ?_⟩, fun q hq => ?_, may_gives gives_bytes hv h5⟩
  · by_cases hs : a.sub = .setMinPinLength
    · exact hs
    · rw [h3 hs] at h
      cases h
  · obtain ⟨q, hq, _⟩ := h2 h
    rw [hq]
    rfl
  · by_cases hs : a.sub = .setMinPinLength
    · obtain ⟨q', hq', h⟩ := h2 hs
      rw [hq] at hq'
      cases hq'
      exact must_gives gives_minPin hv h
    · rw [h3 hs] at hq
      cases hq

theorem gives_cmSubParams : Gives CmSubParams.Says (CmSubParams.Typed Dev.wordBits) := by
  rintro _ hv a ⟨m, rfl, h1, h2, h3⟩
  exact ⟨may_gives gives_bytes hv h1, may_gives gives_descriptor hv h2, may_gives gives_user hv h3⟩

theorem gives_cm : Gives CmParams.Says (CmParams.Typed Dev.wordBits) := by
  rintro _ hv a ⟨m, rfl, _, h2, _, h4⟩
  exact ⟨may_gives gives_cmSubParams hv h2, may_gives gives_bytes hv h4⟩

theorem carries_typed {b : Bool} {c : UInt8} {v : Value} {cmd : Command} (hv : v.WF Dev.wordBits) (h : cmd.Carries Dev.wordBits b c v) :
    cmd.Typed Dev.wordBits := by
  cases cmd with
  | makeCredential p => exact gives_mc v hv p h.2
  | getAssertion p => exact gives_ga v hv p h.2
  | clientPin p => exact gives_pin v hv p h.2
  | credMgmt p => exact gives_cm v hv p h.2
  | largeBlobs p => exact gives_lb v hv p h.2
  | config p => exact gives_config v hv p h.2
  | _ => trivial

/-! ## Word sizes -/

omit [Dev] in
theorem may_imp {R R' : Value → α → Prop} {m : Entries} (h : ∀ k v a, (k, v) ∈ m → R v a → R' v a) {k : Value} {o : Option α} (hk : May R m k o) :
    May R' m k o := by
  rcases hk with hk | ⟨a, h1, v, h2, h3⟩
  · exact .inl hk
  · exact .inr ⟨a, h1, v, h2, h k v a h2 h3⟩

omit [Dev] in
theorem must_imp {R R' : Value → α → Prop} {m : Entries} (h : ∀ k v a, (k, v) ∈ m → R v a → R' v a) {k : Value} {a : α} (hk : Must R m k a) :
    Must R' m k a := by
  obtain ⟨v, h2, h3⟩ := hk
  exact ⟨v, h2, h k v a h2 h3⟩

/-- If the words of the target hold what is read there is no difference. -/
theorem carries_imp {b b' : Bool} {c : UInt8} {v : Value} {cmd : Command} (hw : ∀ v n, v.WF Dev.wordBits → SaysWord Dev.wordBits b v n →
    SaysWord Dev.wordBits b' v n) (hv : v.WF Dev.wordBits) (h : cmd.Carries Dev.wordBits b c v) : cmd.Carries Dev.wordBits b' c v := by
  cases cmd with
  | largeBlobs p =>
    obtain ⟨h0, h1, m, rfl, h2, h3, h4, h5, h6⟩ := h
    have hw' : ∀ k v n, (k, v) ∈ m → SaysWord Dev.wordBits b v n → SaysWord Dev.wordBits b' v n :=
      fun k v n hm hs => hw v n (Verif.Cbor.WFMap_iff.1 hv.2.1 _ hm).2 hs
    exact ⟨h0, h1, m, rfl, may_imp hw' h2, h3, must_imp hw' h4, may_imp hw' h5, h6⟩
  | _ => exact h

end Verif.Ctap
