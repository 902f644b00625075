import Verif.Ctap.AnswerSpec
import Verif.Ctap.RequestEnc
import Verif.Ctap.InfoLemmas

/-!
# The responses are encoded as the tables say
-/
namespace Verif.Ctap
open Verif.Cbor (Value)
variable {α β : Type}

theorem keyOk_cmp [Dev] {k : Value} (h : keyOk k = true) : k.cmp k = .eq := by
  have hw : k.WF Dev.wordBits := keyOk_wf h
  exact (Verif.Cbor.cmp_eq_iff w_le hw hw).2 rfl

/-- The entries of a map that is built. -/
theorem built_finds [Dev] {es : List (Value × Option Value)} {v : Value} (h : cborMapOptions es = some v)
    (hk : (es.map (·.1)).all keyOk = true) (hs : (es.map (·.1)).Pairwise fun a b => a.cmp b ≠ .eq) :
    ∃ m, v = .map m ∧ (∀ i (hi : i < es.length), Finds m es[i].1 es[i].2) ∧ OnlyKeys m (es.map (·.1)) := by
  obtain ⟨m, rfl, hp⟩ := mkMap_perm h
  have hmem : ∀ k v, (k, v) ∈ m ↔ (k, some v) ∈ es := by
    intro k v
    rw [hp.mem_iff]
    simp only [List.mem_filterMap, Option.map_eq_some_iff, Prod.mk.injEq]
    constructor
    · rintro ⟨⟨k', o⟩, h1, v', h2, rfl, rfl⟩
      dsimp only at h2
      subst h2
      exact h1
    · exact fun h => ⟨_, h, v, rfl, rfl, rfl⟩
  refine ⟨m, rfl, fun i hi x => ?_, fun e he => ?_⟩
  · rw [hmem]
    constructor
    · intro he
      have := List.getElem_mem hi
      rw [show es[i] = (es[i].1, es[i].2) from rfl, he] at this
      exact this
    · intro hm
      obtain ⟨j, hj, he⟩ := List.getElem_of_mem hm
      have hsame : es[j].1 = es[i].1 := by rw [he]
      have hii : es[i].1.cmp es[i].1 = .eq := keyOk_cmp (List.all_eq_true.1 hk _ (List.mem_map_of_mem (List.getElem_mem hi)))
      have : j = i := by
        rw [List.pairwise_map, List.pairwise_iff_getElem] at hs
        rcases Nat.lt_trichotomy j i with hji | hji | hji
        · exact absurd (hsame ▸ hii) (hs j i hj hi hji)
        · exact hji
        · exact absurd (by rw [hsame]; exact hii) (hs i j hi hj hji)
      subst this
      rw [he]
  · exact List.mem_map.2 ⟨_, (hmem e.1 e.2).1 he, rfl⟩

theorem stands_map {R : Value → α → Prop} {f : α → Value} (h : ∀ a, R (f a) a) (o : Option α) : Stands R (o.map f) o := by
  cases o with
  | none => exact .inl ⟨rfl, rfl⟩
  | some a => exact .inr ⟨_, a, rfl, rfl, h a⟩

theorem stands_bytes (o : Option Bytes) : Stands SaysBytes (o.map .bytes) o := stands_map (R := SaysBytes) (f := .bytes) (fun _ => rfl) o
theorem stands_text (o : Option Bytes) : Stands SaysText (o.map .text) o := stands_map (R := SaysText) (f := .text) (fun _ => rfl) o
theorem stands_nat (o : Option Nat) : Stands SaysNat (o.map .unsigned) o := stands_map (R := SaysNat) (f := .unsigned) (fun _ => rfl) o

theorem stands_optP {R : Value → α → Prop} {f : α → Option Value} (h : ∀ a v, f a = some v → R v a) {o : Option α} {x : Option Value}
    (hx : optP f o = some x) : Stands R x o := by
  cases o with
  | none => cases hx; exact .inl ⟨rfl, rfl⟩
  | some a =>
    obtain ⟨v, hv, rfl⟩ := Option.map_eq_some_iff.1 hx
    exact .inr ⟨v, a, rfl, rfl, h a v hv⟩

theorem says_int {i : Int} (h : i < 2 ^ 63) : SaysInt (cborInt i) i := by
  unfold cborInt
  split
  · exact .inl ⟨i.toNat, by omega, by omega, rfl⟩
  · exact .inr rfl

theorem says_integer (i : Int) : SaysInteger (cborInt i) i := by
  unfold cborInt
  split
  · exact .inl ⟨i.toNat, by omega, rfl⟩
  · exact .inr ⟨by omega, rfl⟩

theorem says_bool (b : Bool) : SaysBool (cborBool b) b := rfl

theorem says_array {R : Value → α → Prop} {f : α → Value} (h : ∀ a, R (f a) a) (l : List α) : ArrayOf R (.array (l.map f)) l := by
  refine ⟨_, rfl, ?_⟩
  induction l with
  | nil => trivial
  | cons a l ih => exact ⟨h a, ih⟩

theorem says_type (b : Bool) : SaysType (credTypeToCbor b) b := by
  cases b
  · exact ⟨_, rfl, by decide⟩
  · exact ⟨_, rfl, by decide⟩

theorem says_policy (p : Policy) : Policy.Says p.toCbor p := by cases p <;> rfl

variable [Dev]

theorem statement_says {sig : Bytes} {x5c : Option Bytes} {v : Value} (h : attStmtCbor sig x5c = some v) : SaysStatement v (sig, x5c) := by
  obtain ⟨m, rfl, hf, hk⟩ := built_finds h (by simp only [List.map_cons, List.map_nil]; decide +kernel) (by simp only [List.map_cons, List.map_nil]; decide)
  refine ⟨m, rfl, must_of (hf 0 (by simp)) (says_integer _), must_of (hf 1 (by simp)) rfl, may_of (hf 2 (by simp)) ?_, hk⟩
  cases x5c with
  | none => exact .inl ⟨rfl, rfl⟩
  | some c => exact .inr ⟨_, _, rfl, rfl, _, rfl, rfl, trivial⟩

theorem mcResponse_says {r : McResponse} {v : Value} (h : r.toCbor = some v) : McResponse.Says v r := by
  simp only [McResponse.toCbor, Option.bind_eq_bind, Option.bind_eq_some_iff] at h
  obtain ⟨st, h1, h⟩ := h
  obtain ⟨m, rfl, hf, hk⟩ := built_finds h (by simp only [List.map_cons, List.map_nil]; decide +kernel) (by simp only [List.map_cons, List.map_nil]; decide)
  exact ⟨m, rfl, must_of (hf 0 (by simp)) rfl, must_of (hf 1 (by simp)) rfl, must_of (hf 2 (by simp)) (statement_says h1),
    may_of (hf 3 (by simp)) (stands_map says_bool _), may_of (hf 4 (by simp)) (by first | exact stands_bytes _ | exact stands_text _ | exact stands_nat _), hk⟩

theorem rp_says {r : RpEntity} {v : Value} (h : r.toCbor = some v) : RpEntity.Says v r := by
  obtain ⟨m, rfl, hf, hk⟩ := built_finds h (by simp only [List.map_cons, List.map_nil]; decide +kernel) (by simp only [List.map_cons, List.map_nil]; decide)
  exact ⟨m, rfl, must_of (hf 0 (by simp)) rfl, may_of (hf 2 (by simp)) (by first | exact stands_bytes _ | exact stands_text _ | exact stands_nat _), may_of (hf 1 (by simp)) (by first | exact stands_bytes _ | exact stands_text _ | exact stands_nat _)⟩

theorem user_says {u : UserEntity} {v : Value} (h : u.toCbor = some v) : UserEntity.Says v u := by
  obtain ⟨m, rfl, hf, hk⟩ := built_finds h (by simp only [List.map_cons, List.map_nil]; decide +kernel) (by simp only [List.map_cons, List.map_nil]; decide)
  exact ⟨m, rfl, must_of (hf 0 (by simp)) rfl, may_of (hf 2 (by simp)) (by first | exact stands_bytes _ | exact stands_text _ | exact stands_nat _), may_of (hf 3 (by simp)) (by first | exact stands_bytes _ | exact stands_text _ | exact stands_nat _),
    may_of (hf 1 (by simp)) (by first | exact stands_bytes _ | exact stands_text _ | exact stands_nat _)⟩

theorem descriptor_says {d : Descriptor} {v : Value} (h : d.toCbor = some v) : Descriptor.Says v d := by
  obtain ⟨m, rfl, hf, hk⟩ := built_finds h (by simp only [List.map_cons, List.map_nil]; decide +kernel) (by simp only [List.map_cons, List.map_nil]; decide)
  exact ⟨m, rfl, must_of (hf 1 (by simp)) (says_type _), must_of (hf 0 (by simp)) rfl,
    may_of (hf 2 (by simp)) (stands_map (fun l => says_array (fun t => by cases t <;> rfl) l) _)⟩

theorem gaResponse_says {r : GaResponse} {v : Value} (h : r.toCbor = some v) : GaResponse.Says v r := by
  simp only [GaResponse.toCbor, Option.bind_eq_bind, Option.bind_eq_some_iff] at h
  obtain ⟨d, h1, u, h2, h⟩ := h
  obtain ⟨m, rfl, hf, hk⟩ := built_finds h (by simp only [List.map_cons, List.map_nil]; decide +kernel) (by simp only [List.map_cons, List.map_nil]; decide)
  exact ⟨m, rfl, must_of (hf 0 (by simp)) (descriptor_says h1), must_of (hf 1 (by simp)) rfl, must_of (hf 2 (by simp)) rfl,
    may_of (hf 3 (by simp)) (stands_optP (fun _ _ => user_says) h2), may_of (hf 4 (by simp)) (by first | exact stands_bytes _ | exact stands_text _ | exact stands_nat _),
    may_of (hf 5 (by simp)) (by first | exact stands_bytes _ | exact stands_text _ | exact stands_nat _), hk⟩

theorem cose_shows {k : CoseKey} {v : Value} (h : k.toCbor = some v) : CoseKey.Shows v k := by
  obtain ⟨m, rfl, hf, hk⟩ := built_finds h (by simp only [List.map_cons, List.map_nil]; decide +kernel) (by simp only [List.map_cons, List.map_nil]; decide)
  exact ⟨m, rfl, must_of (hf 0 (by simp)) (says_integer _), must_of (hf 1 (by simp)) (says_integer _), must_of (hf 2 (by simp)) (says_integer _),
    must_of (hf 3 (by simp)) rfl, must_of (hf 4 (by simp)) rfl, hk⟩

theorem pinResponse_says {r : PinResponse} {v : Value} (h : r.toCbor = some v) : PinResponse.Says v r := by
  simp only [PinResponse.toCbor, Option.bind_eq_bind, Option.bind_eq_some_iff] at h
  obtain ⟨k, h1, h⟩ := h
  obtain ⟨m, rfl, hf, hk⟩ := built_finds h (by simp only [List.map_cons, List.map_nil]; decide +kernel) (by simp only [List.map_cons, List.map_nil]; decide)
  refine ⟨m, rfl, may_of (hf 0 (by simp)) (stands_optP (fun _ _ => cose_shows) h1), may_of (hf 1 (by simp)) (by first | exact stands_bytes _ | exact stands_text _ | exact stands_nat _), may_of (hf 2 (by simp)) (by first | exact stands_bytes _ | exact stands_text _ | exact stands_nat _),
    may_of (hf 3 (by simp)) (stands_map says_bool _), hk⟩

theorem cmResponse_says {r : CmResponse} {v : Value} (h : r.toCbor = some v) : CmResponse.Says v r := by
  simp only [CmResponse.toCbor, Option.bind_eq_bind, Option.bind_eq_some_iff] at h
  obtain ⟨rp, h1, u, h2, d, h3, k, h4, h⟩ := h
  obtain ⟨m, rfl, hf, hk⟩ := built_finds h (by simp only [List.map_cons, List.map_nil]; decide +kernel) (by simp only [List.map_cons, List.map_nil]; decide)
  refine ⟨m, rfl, may_of (hf 0 (by simp)) (by first | exact stands_bytes _ | exact stands_text _ | exact stands_nat _), may_of (hf 1 (by simp)) (by first | exact stands_bytes _ | exact stands_text _ | exact stands_nat _),
    may_of (hf 2 (by simp)) (stands_optP (fun _ _ => rp_says) h1), may_of (hf 3 (by simp)) (by first | exact stands_bytes _ | exact stands_text _ | exact stands_nat _),
    may_of (hf 4 (by simp)) (by first | exact stands_bytes _ | exact stands_text _ | exact stands_nat _), may_of (hf 5 (by simp)) (stands_optP (fun _ _ => user_says) h2),
    may_of (hf 6 (by simp)) (stands_optP (fun _ _ => descriptor_says) h3), may_of (hf 7 (by simp)) (stands_optP (fun _ _ => cose_shows) h4),
    may_of (hf 8 (by simp)) (by first | exact stands_bytes _ | exact stands_text _ | exact stands_nat _), may_of (hf 9 (by simp)) (stands_map says_policy _),
    may_of (hf 10 (by simp)) (by first | exact stands_bytes _ | exact stands_text _ | exact stands_nat _), hk⟩

theorem blob_says {b : Bytes} {v : Value} (h : cborMapOptions [(.unsigned 1, some (.bytes b))] = some v) : SaysBlob v b := by
  obtain ⟨m, rfl, hf, hk⟩ := built_finds h (by simp only [List.map_cons, List.map_nil]; decide +kernel) (by simp only [List.map_cons, List.map_nil]; decide)
  exact ⟨m, rfl, must_of (hf 0 (by simp)) rfl, hk⟩

omit [Dev] in
theorem options_says {r : InfoResponse} {v : Value} (h : Verif.Cbor.mkMap (r.options.map fun e => (.text e.1, cborBool e.2)) = some v) :
    InfoResponse.SaysOptions v r := by
  obtain ⟨m, rfl, hp⟩ := mkMap_perm h
  have hm : ∀ k b, (k, b) ∈ r.options → Must SaysBool m (.text k) b := fun k b hb =>
    ⟨cborBool b, hp.mem_iff.2 (List.mem_map.2 ⟨(k, b), hb, rfl⟩), rfl⟩
  refine ⟨m, rfl, ?_, hm _ _ ?_, hm _ _ ?_, hm _ _ ?_, ?_⟩
  · simp only [List.forall_mem_cons]
    refine ⟨?_, ?_, ?_, ?_, ?_, ?_, ?_, by simp⟩ <;> exact hm _ _ (List.mem_append_right _ (by simp))
  · exact List.mem_append_right _ (by simp)
  · exact List.mem_append_right _ (by simp)
  · exact List.mem_append_right _ (by simp)
  · cases he : r.ep with
    | none =>
      refine .inl ⟨rfl, fun x hx => ?_⟩
      have := hp.mem_iff.1 hx
      simp only [InfoResponse.options, he] at this
      obtain ⟨e, h1, h2⟩ := List.mem_map.1 this
      have h3 : e.1 = b! "ep" := Value.text.inj (congrArg Prod.fst h2)
      have : ∀ e ∈ [(b! "rk", true), (b! "up", true), (b! "alwaysUv", r.alwaysUv), (b! "credMgmt", true), (b! "authnrCfg", true),
        (b! "clientPin", r.clientPin), (b! "largeBlobs", true), (b! "pinUvAuthToken", true),
        (b! "setMinPINLength", true), (b! "makeCredUvNotRqd", !r.alwaysUv)], e.1 ≠ b! "ep" := by
        simp only [List.forall_mem_cons]
        decide
      exact this e h1 h3
    | some b =>
      refine .inr ⟨b, rfl, hm _ _ ?_⟩
      simp only [InfoResponse.options, he]
      exact List.mem_append_left _ (by simp)

theorem info_says {r : InfoResponse} {v : Value} (h : r.toCbor = some v) : InfoResponse.Says v r := by
  simp only [InfoResponse.toCbor, Option.bind_eq_bind, Option.bind_eq_some_iff] at h
  obtain ⟨o, h1, al, h2, h⟩ := h
  obtain ⟨m, rfl, hf, hk⟩ := built_finds h (by simp only [List.map_cons, List.map_nil]; decide +kernel) (by simp only [List.map_cons, List.map_nil]; decide)
  have hal : SaysAlgorithm al ⟨true, true⟩ := by
    obtain ⟨m', rfl, hf', _⟩ := built_finds h2 (by simp only [List.map_cons, List.map_nil]; decide +kernel) (by simp only [List.map_cons, List.map_nil]; decide)
    exact ⟨⟨m', rfl, must_of (hf' 1 (by simp)) ⟨_, rfl, by decide⟩, must_of (hf' 0 (by simp)) ⟨-7, says_int (by decide), by decide⟩⟩, rfl⟩
  refine ⟨m, rfl, must_of (hf 0 (by simp)) (says_array (f := .text) (fun _ => rfl) _), must_of (hf 1 (by simp)) ⟨_, rfl, rfl, rfl, rfl, rfl, rfl, trivial⟩,
    must_of (hf 2 (by simp)) rfl, must_of (hf 3 (by simp)) (options_says h1), must_of (hf 4 (by simp)) rfl, must_of (hf 5 (by simp)) ?_,
    may_of (hf 6 (by simp)) (by first | exact stands_bytes _ | exact stands_text _ | exact stands_nat _), must_of (hf 7 (by simp)) rfl, must_of (hf 8 (by simp)) ⟨_, rfl, rfl, trivial⟩,
    must_of (hf 9 (by simp)) ⟨_, rfl, hal, trivial⟩, must_of (hf 10 (by simp)) rfl, must_of (hf 11 (by simp)) rfl, must_of (hf 12 (by simp)) rfl,
    may_of (hf 13 (by simp)) (by first | exact stands_bytes _ | exact stands_text _ | exact stands_nat _), must_of (hf 14 (by simp)) rfl, must_of (hf 15 (by simp)) rfl, must_of (hf 16 (by simp)) rfl, hk⟩
  refine ⟨_, rfl, rfl, ?_⟩
  cases Dev.allowsPinV1
  · trivial
  · exact ⟨rfl, trivial⟩

/-- The data of a response is encoded as the tables say. -/
theorem response_carried {r : Response} {v : Value} (h : r.toCbor = some (some v)) : r.Carried v := by
  cases r <;> simp only [Response.toCbor, Option.map_eq_some_iff, Option.some.injEq, reduceCtorEq] at h
  case makeCredential r => obtain ⟨_, h, rfl⟩ := h; exact mcResponse_says h
  case getAssertion r => obtain ⟨_, h, rfl⟩ := h; exact gaResponse_says h
  case getNextAssertion r => obtain ⟨_, h, rfl⟩ := h; exact gaResponse_says h
  case getInfo r => obtain ⟨_, h, rfl⟩ := h; exact info_says h
  case clientPin r =>
    cases r with
    | none => cases h
    | some r => simp only [optP, Option.map_eq_some_iff] at h; obtain ⟨_, h, he⟩ := h; cases he; exact pinResponse_says h
  case credMgmt r =>
    cases r with
    | none => cases h
    | some r => simp only [optP, Option.map_eq_some_iff] at h; obtain ⟨_, h, he⟩ := h; cases he; exact cmResponse_says h
  case largeBlobs r =>
    cases r with
    | none => cases h
    | some r => simp only [optP, Option.map_eq_some_iff] at h; obtain ⟨_, h, he⟩ := h; cases he; exact blob_says h

theorem response_empty {r : Response} (h : r.toCbor = some none) : r.Empty := by
  cases r <;> simp only [Response.toCbor, Option.map_eq_some_iff, reduceCtorEq, and_false, exists_false] at h
  case clientPin r =>
    cases r with
    | none => trivial
    | some r => simp [optP] at h
  case credMgmt r =>
    cases r with
    | none => trivial
    | some r => simp [optP] at h
  case largeBlobs r =>
    cases r with
    | none => trivial
    | some r => simp [optP] at h
  all_goals trivial

/-! ## No value says two responses of a kind -/

omit [Dev]

/-- No value stands for two things. -/
def OneMeaning (R : Value → α → Prop) : Prop := ∀ v, v.WF 64 → ∀ a b, R v a → R v b → a = b

theorem pairwise_unique {m : Entries} (hp : m.Pairwise fun a b => Verif.Cbor.LexLt a.1.enc b.1.enc) {k v v' : Value} (h : (k, v) ∈ m)
    (h' : (k, v') ∈ m) : v = v' := by
  induction m with
  | nil => cases h
  | cons e l ih =>
    obtain ⟨h1, h2⟩ := List.pairwise_cons.1 hp
    rcases List.mem_cons.1 h with he | h
    · rw [← he] at h1 h'
      rcases List.mem_cons.1 h' with h' | h'
      · cases h'; rfl
      · exact absurd (h1 _ h') (Verif.Cbor.LexLt.irrefl _)
    · rcases List.mem_cons.1 h' with he | h'
      · rw [← he] at h1
        exact absurd (h1 _ h) (Verif.Cbor.LexLt.irrefl _)
      · exact ih h2 h h'

theorem wf_unique {m : Entries} (hm : (Value.map m).WF 64) {k v v' : Value} (h : (k, v) ∈ m) (h' : (k, v') ∈ m) : v = v' :=
  pairwise_unique hm.2.2 h h'

theorem wf_value {m : Entries} (hm : (Value.map m).WF 64) {k v : Value} (h : (k, v) ∈ m) : v.WF 64 :=
  ((Verif.Cbor.WFMap_iff.1 hm.2.1) _ h).2

theorem must_one {R : Value → α → Prop} (hR : OneMeaning R) {m : Entries} (hm : (Value.map m).WF 64) {k : Value} {a b : α}
    (h : Must R m k a) (h' : Must R m k b) : a = b := by
  obtain ⟨v, h1, h2⟩ := h
  obtain ⟨v', h3, h4⟩ := h'
  have := wf_unique hm h1 h3
  subst this
  exact hR v (wf_value hm h1) a b h2 h4

theorem may_one {R : Value → α → Prop} (hR : OneMeaning R) {m : Entries} (hm : (Value.map m).WF 64) {k : Value} {a b : Option α}
    (h : May R m k a) (h' : May R m k b) : a = b := by
  rcases h with ⟨rfl, h1⟩ | ⟨x, rfl, h1⟩ <;> rcases h' with ⟨rfl, h2⟩ | ⟨y, rfl, h2⟩
  · rfl
  · obtain ⟨v, h2, _⟩ := h2; exact absurd h2 (h1 v)
  · obtain ⟨v, h1, _⟩ := h1; exact absurd h1 (h2 v)
  · rw [must_one hR hm h1 h2]

theorem array_one {R : Value → α → Prop} (hR : OneMeaning R) : OneMeaning (ArrayOf R) := by
  rintro v hv a b ⟨vs, rfl, h1⟩ ⟨vs', he, h2⟩
  cases he
  have hw := Verif.Cbor.WFList_iff.1 hv.2
  clear hv
  induction vs generalizing a b with
  | nil =>
    cases a with
    | cons _ _ => cases h1
    | nil =>
      cases b with
      | cons _ _ => cases h2
      | nil => rfl
  | cons v vs ih =>
    cases a with
    | nil => cases h1
    | cons x a =>
      cases b with
      | nil => cases h2
      | cons y b =>
        rw [hR v (hw v (List.mem_cons_self ..)) x y h1.1 h2.1, ih a b h1.2 h2.2 fun e he => hw e (List.mem_cons_of_mem _ he)]

theorem bytes_one : OneMeaning SaysBytes := by rintro v _ a b rfl h; cases h; rfl
theorem text_one : OneMeaning SaysText := by rintro v _ a b rfl h; cases h; rfl
theorem nat_one : OneMeaning SaysNat := by rintro v _ a b rfl h; cases h; rfl
theorem bool_one : OneMeaning SaysBool := by
  intro v _ a b h h'
  unfold SaysBool at h h'
  subst h
  cases a <;> cases b <;> first | rfl | cases h'
theorem integer_one : OneMeaning SaysInteger := by
  rintro v _ a b (⟨n, rfl, rfl⟩ | ⟨h, rfl⟩) (⟨n', rfl, h'⟩ | ⟨_, h'⟩) <;> cases h' <;> rfl
theorem type_one : OneMeaning SaysType := by
  rintro v _ a b ⟨t, rfl, h⟩ ⟨t', h', h2⟩
  cases h'
  cases a <;> cases b <;> simp_all
theorem policy_one : OneMeaning Policy.Says := by
  intro v _ a b h h'
  cases a <;> cases b <;> simp only [Policy.Says] at h h' <;> subst h <;> first | rfl | cases h'
theorem transport_one : OneMeaning Transport.Says := by
  intro v _ a b h h'
  cases a <;> cases b <;> simp only [Transport.Says] at h h' <;> subst h <;> first | rfl | (injection h' with h'; revert h'; decide)

theorem rp_one : OneMeaning RpEntity.Says := by
  rintro v hv ⟨_, _, _⟩ ⟨_, _, _⟩ ⟨m, rfl, h1, h2, h3⟩ ⟨_, he, g1, g2, g3⟩
  cases he
  rw [RpEntity.mk.injEq]
  exact ⟨must_one text_one hv h1 g1, may_one text_one hv h2 g2, may_one text_one hv h3 g3⟩
theorem user_one : OneMeaning UserEntity.Says := by
  rintro v hv ⟨_, _, _, _⟩ ⟨_, _, _, _⟩ ⟨m, rfl, h1, h2, h3, h4⟩ ⟨_, he, g1, g2, g3, g4⟩
  cases he
  rw [UserEntity.mk.injEq]
  exact ⟨must_one bytes_one hv h1 g1, may_one text_one hv h2 g2, may_one text_one hv h3 g3, may_one text_one hv h4 g4⟩
theorem descriptor_one : OneMeaning Descriptor.Says := by
  rintro v hv ⟨_, _, _⟩ ⟨_, _, _⟩ ⟨m, rfl, h1, h2, h3⟩ ⟨_, he, g1, g2, g3⟩
  cases he
  rw [Descriptor.mk.injEq]
  exact ⟨must_one type_one hv h1 g1, must_one bytes_one hv h2 g2, may_one (array_one transport_one) hv h3 g3⟩
theorem cose_one : OneMeaning CoseKey.Shows := by
  rintro v hv ⟨_, _, _, _, _⟩ ⟨_, _, _, _, _⟩ ⟨m, rfl, h1, h2, h3, h4, h5, _⟩ ⟨_, he, g1, g2, g3, g4, g5, _⟩
  cases he
  rw [CoseKey.mk.injEq]
  exact ⟨must_one bytes_one hv h4 g4, must_one bytes_one hv h5 g5, must_one integer_one hv h2 g2, must_one integer_one hv h1 g1, must_one integer_one hv h3 g3⟩
theorem statement_one : OneMeaning SaysStatement := by
  rintro v hv ⟨s, x⟩ ⟨s', x'⟩ ⟨m, rfl, _, h2, h3, _⟩ ⟨_, he, _, g2, g3, _⟩
  cases he
  have h4 := may_one (array_one bytes_one) hv h3 g3
  have h5 := must_one bytes_one hv h2 g2
  dsimp only at h4 h5
  subst h5
  cases x <;> cases x' <;> simp_all
theorem mcResponse_one : OneMeaning McResponse.Says := by
  rintro v hv ⟨_, _, _, _, _⟩ ⟨_, _, _, _, _⟩ ⟨m, rfl, _, h2, h3, h4, h5, _⟩ ⟨_, he, _, g2, g3, g4, g5, _⟩
  cases he
  have h6 := must_one statement_one hv h3 g3
  rw [Prod.mk.injEq] at h6
  rw [McResponse.mk.injEq]
  exact ⟨must_one bytes_one hv h2 g2, h6.1, h6.2, may_one bool_one hv h4 g4, may_one bytes_one hv h5 g5⟩
theorem gaResponse_one : OneMeaning GaResponse.Says := by
  rintro v hv ⟨_, _, _, _, _, _⟩ ⟨_, _, _, _, _, _⟩ ⟨m, rfl, h1, h2, h3, h4, h5, h6, _⟩ ⟨_, he, g1, g2, g3, g4, g5, g6, _⟩
  cases he
  rw [GaResponse.mk.injEq]
  exact ⟨must_one descriptor_one hv h1 g1, must_one bytes_one hv h2 g2, must_one bytes_one hv h3 g3, may_one user_one hv h4 g4,
    may_one nat_one hv h5 g5, may_one bytes_one hv h6 g6⟩
theorem pinResponse_one : OneMeaning PinResponse.Says := by
  rintro v hv ⟨_, _, _, _⟩ ⟨_, _, _, _⟩ ⟨m, rfl, h1, h2, h3, h4, _⟩ ⟨_, he, g1, g2, g3, g4, _⟩
  cases he
  rw [PinResponse.mk.injEq]
  exact ⟨may_one cose_one hv h1 g1, may_one bytes_one hv h2 g2, may_one nat_one hv h3 g3, may_one bool_one hv h4 g4⟩
theorem cmResponse_one : OneMeaning CmResponse.Says := by
  rintro v hv ⟨_, _, _, _, _, _, _, _, _, _, _⟩ ⟨_, _, _, _, _, _, _, _, _, _, _⟩ ⟨m, rfl, h1, h2, h3, h4, h5, h6, h7, h8, h9, h10, h11, _⟩
    ⟨_, he, g1, g2, g3, g4, g5, g6, g7, g8, g9, g10, g11, _⟩
  cases he
  rw [CmResponse.mk.injEq]
  exact ⟨may_one nat_one hv h1 g1, may_one nat_one hv h2 g2, may_one rp_one hv h3 g3, may_one bytes_one hv h4 g4, may_one nat_one hv h5 g5,
    may_one user_one hv h6 g6, may_one descriptor_one hv h7 g7, may_one cose_one hv h8 g8, may_one nat_one hv h9 g9,
    may_one policy_one hv h10 g10, may_one bytes_one hv h11 g11⟩
theorem blob_one : OneMeaning SaysBlob := by
  rintro v hv a b ⟨m, rfl, h, _⟩ ⟨_, he, g, _⟩
  cases he
  exact must_one bytes_one hv h g
theorem options_one {v : Value} (hv : v.WF 64) {r r' : InfoResponse} (h : InfoResponse.SaysOptions v r) (h' : InfoResponse.SaysOptions v r') :
    r.alwaysUv = r'.alwaysUv ∧ r.clientPin = r'.clientPin ∧ r.ep = r'.ep := by
  obtain ⟨m, rfl, _, h1, _, h2, h3⟩ := h
  obtain ⟨_, he, _, g1, _, g2, g3⟩ := h'
  cases he
  exact ⟨must_one bool_one hv h1 g1, must_one bool_one hv h2 g2, may_one bool_one hv h3 g3⟩
theorem info_one [Dev] : OneMeaning InfoResponse.Says := by
  intro v hv r r' h h'
  obtain ⟨m, rfl, _, _, _, ⟨o, h1, h2⟩, _, _, _, _, _, _, _, h3, h4, _, _, _, h5, _⟩ := h
  obtain ⟨_, he, _, _, _, ⟨o', g1, g2⟩, _, _, _, _, _, _, _, g3, g4, _, _, _, g5, _⟩ := h'
  cases he
  have := wf_unique hv h1 g1
  subst this
  obtain ⟨e1, e2, e3⟩ := options_one (wf_value hv h1) h2 g2
  have e4 := must_one bool_one hv h3 g3
  have e5 := must_one nat_one hv h4 g4
  have e6 := must_one nat_one hv h5 g5
  obtain ⟨_, _, _, _, _, _⟩ := r
  obtain ⟨_, _, _, _, _, _⟩ := r'
  dsimp only at e1 e2 e3 e4 e5 e6
  rw [e1, e2, e3, e4, e5, e6]

/-- The commands that the responses answer. -/
def Response.kind : Response → Nat
  | .makeCredential _ => 1 | .getAssertion _ => 2 | .getInfo _ => 4 | .clientPin _ => 6 | .reset => 7 | .getNextAssertion _ => 8
  | .credMgmt _ => 10 | .selection => 11 | .largeBlobs _ => 12 | .config => 13

theorem carried_one [Dev] {v : Value} (hv : v.WF 64) {r r' : Response} (hk : r.kind = r'.kind) (h : r.Carried v) (h' : r'.Carried v) : r = r' := by
  cases r <;> cases r' <;> simp only [Response.kind] at hk <;> try (exact absurd hk (by decide))
  case makeCredential => rw [mcResponse_one v hv _ _ h h']
  case getAssertion => rw [gaResponse_one v hv _ _ h h']
  case getNextAssertion => rw [gaResponse_one v hv _ _ h h']
  case getInfo => rw [info_one v hv _ _ h h']
  case clientPin a b =>
    cases a <;> cases b <;> first | exact absurd h id | exact absurd h' id | skip
    rw [pinResponse_one v hv _ _ h h']
  case credMgmt a b =>
    cases a <;> cases b <;> first | exact absurd h id | exact absurd h' id | skip
    rw [cmResponse_one v hv _ _ h h']
  case largeBlobs a b =>
    cases a <;> cases b <;> first | exact absurd h id | exact absurd h' id | skip
    rw [blob_one v hv _ _ h h']
  all_goals exact absurd h id

theorem empty_one {r r' : Response} (hk : r.kind = r'.kind) (h : r.Empty) (h' : r'.Empty) : r = r' := by
  cases r <;> cases r' <;> simp only [Response.kind] at hk <;> first
    | exact absurd hk (by decide)
    | rfl
    | (rename_i a b; cases a <;> cases b <;> first | rfl | exact absurd h id | exact absurd h' id)
    | exact absurd h id

end Verif.Ctap
