import Verif.Ctap.RequestSpec
import Verif.Ctap.KeyLemmas

/-!
# The functions that parse, against what a request says
-/
namespace Verif.Ctap
open Verif.Cbor (Value)
variable [Dev] {α β : Type}

/-- The `i`-th value found is the value of the key. -/
def Finds (m : Entries) (k : Value) (o : Option Value) : Prop := ∀ x, o = some x ↔ (k, x) ∈ m

/-- The parser accepts exactly the values that stand for something, with what they stand for. -/
def Parses (g : Value → Except Status α) (R : Value → α → Prop) : Prop := ∀ v, v.WF Dev.wordBits → ∀ a, g v = .ok a ↔ R v a

omit [Dev] in
theorem bindE_ok {x : Except Status α} {f : α → Except Status β} {b : β} : (x >>= f) = .ok b ↔ ∃ a, x = .ok a ∧ f a = .ok b := by
  cases x <;> simp [bind, Except.bind]

omit [Dev] in
theorem fields_bind {keys : List Value} {v : Value} {g : (Nat → Option Value) → Except Status α} {r : α} :
    (fields keys v >>= g) = .ok r ↔ ∃ m, v = .map m ∧ g (fun i => (Verif.Cbor.destructure keys m).getD i none) = .ok r := by
  unfold fields
  cases v <;> simp [extractMap, bind, Except.bind]

theorem fields_finds {keys : List Value} {m : Entries} (hm : (Value.map m).WF Dev.wordBits) (hk : ∀ k ∈ keys, k.WF Dev.wordBits)
    (hs : keys.Pairwise fun a b => a.cmp b = .lt) (i : Nat) (hi : i < keys.length) :
    Finds m keys[i] ((Verif.Cbor.destructure keys m).getD i none) := by
  obtain ⟨h1, h2⟩ := Verif.Cbor.C05_destructure w_le m keys hm hk hs
  intro x
  rw [← h2 i hi x, List.getD_eq_getElem?_getD]
  rw [← h1] at hi
  rw [List.getElem?_eq_getElem hi]
  simp

theorem must_iff {g : Value → Except Status α} {R : Value → α → Prop} (hg : Parses g R) {m : Entries} (hm : (Value.map m).WF Dev.wordBits)
    {k : Value} {o : Option Value} (ho : Finds m k o) {a : α} : (okOrMissing o >>= g) = .ok a ↔ Must R m k a := by
  have hw : ∀ x, (k, x) ∈ m → x.WF Dev.wordBits := fun x hx => (Verif.Cbor.WFMap_iff.1 hm.2.1 _ hx).2
  cases o with
  | none =>
    simp only [okOrMissing, bind, Except.bind]
    refine ⟨(nomatch ·), fun ⟨v, h1, _⟩ => ?_⟩
    cases (ho v).2 h1
  | some x =>
    have hx := (ho x).1 rfl
    simp only [okOrMissing, bind, Except.bind]
    rw [hg x (hw x hx)]
    refine ⟨fun h => ⟨x, hx, h⟩, fun ⟨v, h1, h2⟩ => ?_⟩
    cases (ho v).2 h1
    exact h2

omit [Dev] in
theorem finds_none {m : Entries} {k : Value} (ho : Finds m k none) : Absent m k := fun v h => nomatch (ho v).2 h

omit [Dev] in
theorem finds_some {m : Entries} {k x : Value} (ho : Finds m k (some x)) : ¬ Absent m k := fun h => h x ((ho x).1 rfl)

theorem may_iff {g : Value → Except Status α} {R : Value → α → Prop} (hg : Parses g R) {m : Entries} (hm : (Value.map m).WF Dev.wordBits)
    {k : Value} {o : Option Value} (ho : Finds m k o) {a : Option α} : optE g o = .ok a ↔ May R m k a := by
  have h1 := fun b => must_iff hg hm ho (a := b)
  cases o with
  | none =>
    refine ⟨fun h => ?_, fun h => ?_⟩
    · cases h
      exact .inl ⟨rfl, finds_none ho⟩
    · rcases h with ⟨rfl, _⟩ | ⟨b, _, v, h2, _⟩
      · rfl
      · exact absurd h2 (finds_none ho v)
  | some x =>
    have h2 : ∀ b, g x = .ok b ↔ Must R m k b := h1
    simp only [optE]
    cases hx : g x with
    | error e =>
      refine ⟨(nomatch ·), fun h => ?_⟩
      rcases h with ⟨_, h⟩ | ⟨b, _, h⟩
      · exact absurd h (finds_some ho)
      · have := (h2 b).2 h
        rw [hx] at this
        cases this
    | ok b =>
      refine ⟨fun h => ?_, fun h => ?_⟩
      · cases h
        exact .inr ⟨b, rfl, (h2 b).1 hx⟩
      · rcases h with ⟨_, h⟩ | ⟨c, rfl, h⟩
        · exact absurd h (finds_some ho)
        · have := (h2 c).2 h
          rw [hx] at this
          cases this
          rfl

theorem else_iff {g : Value → Except Status α} {R : Value → α → Prop} (hg : Parses g R) {m : Entries} (hm : (Value.map m).WF Dev.wordBits)
    {k : Value} {o : Option Value} (ho : Finds m k o) {d a : α} : orDefault d g o = .ok a ↔ Else d R m k a := by
  have h1 := fun b => must_iff hg hm ho (a := b)
  cases o with
  | none =>
    simp only [orDefault, Except.ok.injEq]
    refine ⟨fun h => .inl ⟨h.symm, finds_none ho⟩, fun h => ?_⟩
    rcases h with ⟨rfl, _⟩ | ⟨v, h2, _⟩
    · rfl
    · exact absurd h2 (finds_none ho v)
  | some x =>
    have h2 : g x = .ok a ↔ Must R m k a := h1 a
    simp only [orDefault]
    rw [h2]
    refine ⟨.inr, fun h => ?_⟩
    rcases h with ⟨_, h⟩ | h
    · exact absurd h (finds_some ho)
    · exact h

theorem parses_array {g : Value → Except Status α} {R : Value → α → Prop} (hg : Parses g R) : Parses (arrayOf g) (ArrayOf R) := by
  intro v hv l
  have key : ∀ vs, (∀ x ∈ vs, x.WF Dev.wordBits) → ∀ l, mapE g vs = .ok l ↔ Each R vs l := by
    intro vs
    induction vs with
    | nil => intro _ l; cases l <;> simp [mapE, Each]
    | cons x vs ih =>
      intro hw l
      simp only [mapE, bindE_ok, hg x (hw x (List.mem_cons_self ..)), ih fun y hy => hw y (List.mem_cons_of_mem _ hy), Except.ok.injEq]
      cases l with
      | nil => simp [Each]
      | cons a l =>
        simp only [Each, List.cons.injEq]
        exact ⟨fun ⟨_, h1, _, h2, h3, h4⟩ => ⟨h3 ▸ h1, h4 ▸ h2⟩, fun ⟨h1, h2⟩ => ⟨_, h1, _, h2, rfl, rfl⟩⟩
  unfold arrayOf ArrayOf
  cases v with
  | array vs =>
    simp only [extractArray, bind, Except.bind, Value.array.injEq, exists_eq_left']
    exact key vs (Verif.Cbor.WFList_iff.1 hv.2) l
  | _ => simp [extractArray, bind, Except.bind]

/-! ## Scalars -/

theorem parses_bytes : Parses extractBytes SaysBytes := by
  intro v _ a; cases v <;> simp [extractBytes, SaysBytes]
theorem parses_text : Parses extractText SaysText := by
  intro v _ a; cases v <;> simp [extractText, SaysText]
theorem parses_nat : Parses extractUnsigned SaysNat := by
  intro v _ a; cases v <;> simp [extractUnsigned, SaysNat]
theorem parses_bool : Parses extractBool SaysBool := by
  intro v _ a
  cases v with
  | simple x => cases x <;> cases a <;> simp [extractBool, SaysBool]
  | _ => simp [extractBool, SaysBool]
theorem parses_int : Parses extractInteger SaysInt := by
  intro v _ a
  cases v with
  | unsigned n =>
    simp only [extractInteger, SaysInt, Value.unsigned.injEq, reduceCtorEq, or_false]
    split
    · next h =>
      rw [Except.ok.injEq]
      exact ⟨fun e => ⟨n, h, e.symm, rfl⟩, fun ⟨k, _, e, e'⟩ => by rw [e, e']⟩
    · next h => exact ⟨(nomatch ·), fun ⟨k, hk, _, e⟩ => absurd (e ▸ hk) h⟩
  | negative i => simp [extractInteger, SaysInt, eq_comm]
  | _ => simp [extractInteger, SaysInt]
theorem parses_type : Parses credTypeOfCbor SaysType := by
  intro v hv a
  unfold credTypeOfCbor
  rw [bindE_ok]
  simp only [parses_text v hv, SaysText, SaysType, Except.ok.injEq]
  refine exists_congr fun t => and_congr_right fun _ => ?_
  cases a <;> simp
theorem parses_transport : Parses Transport.ofCbor Transport.Says := by
  intro v hv a
  unfold Transport.ofCbor
  rw [bindE_ok]
  simp only [parses_text v hv, SaysText]
  refine ⟨fun ⟨t, h1, h2⟩ => ?_, fun h => ?_⟩
  · subst h1
    split at h2
    · next h => cases h2; rw [h]; rfl
    split at h2
    · next h => cases h2; rw [h]; rfl
    split at h2
    · next h => cases h2; rw [h]; rfl
    split at h2
    · next h => cases h2; rw [h]; rfl
    · cases h2
  · cases a <;> exact ⟨_, h, by simp⟩
theorem parses_policy : Parses Policy.ofCbor Policy.Says := by
  intro v _ a
  cases v with
  | unsigned n =>
    by_cases h1 : n = 1
    · subst h1; cases a <;> simp [Policy.ofCbor, extractInteger, Policy.Says]
    by_cases h2 : n = 2
    · subst h2; cases a <;> simp [Policy.ofCbor, extractInteger, Policy.Says]
    by_cases h3 : n = 3
    · subst h3; cases a <;> simp [Policy.ofCbor, extractInteger, Policy.Says]
    have : ¬ Policy.Says (.unsigned n) a := by cases a <;> simp [Policy.Says, h1, h2, h3]
    simp only [this, iff_false]
    unfold Policy.ofCbor
    simp only [extractInteger]
    split
    · simp
    · next h => split at h <;> simp at h; omega
    · next h => split at h <;> simp at h; omega
    · next h => split at h <;> simp at h; omega
    · simp
  | negative i =>
    have hv : i < 0 := by simp_all [Value.WF]
    have : ¬ Policy.Says (.negative i) a := by cases a <;> simp [Policy.Says]
    simp only [this, iff_false]
    unfold Policy.ofCbor
    simp only [extractInteger]
    split <;> simp_all
  | _ => cases a <;> simp [Policy.ofCbor, extractInteger, Policy.Says]
theorem parses_proto : Parses Proto.ofCbor Proto.Says := by
  intro v hv a
  unfold Proto.ofCbor
  rw [bindE_ok]
  simp only [parses_nat v hv, SaysNat]
  refine ⟨fun ⟨n, h1, h2⟩ => ?_, fun h => ?_⟩
  · subst h1
    split at h2
    · next h => cases h2; rw [h]; rfl
    split at h2
    · next h => cases h2; rw [h]; rfl
    · cases h2
  · cases a <;> exact ⟨_, h, rfl⟩
theorem parses_pinSub : Parses PinSub.ofCbor (fun v s => SaysNat v (PinSub.number s)) := by
  intro v hv a
  unfold PinSub.ofCbor
  rw [bindE_ok]
  simp only [parses_nat v hv, SaysNat]
  refine ⟨fun ⟨n, h1, h2⟩ => ?_, fun h => ?_⟩
  · subst h1
    split at h2 <;> cases h2 <;> rfl
  · cases a <;> exact ⟨_, h, rfl⟩
theorem parses_configSub : Parses ConfigSub.ofCbor (fun v s => SaysNat v (ConfigSub.number s)) := by
  intro v hv a
  unfold ConfigSub.ofCbor
  rw [bindE_ok]
  simp only [parses_nat v hv, SaysNat]
  refine ⟨fun ⟨n, h1, h2⟩ => ?_, fun h => ?_⟩
  · subst h1
    split at h2 <;> cases h2 <;> rfl
  · cases a <;> exact ⟨_, h, rfl⟩
theorem parses_cmSub : Parses CmSub.ofCbor (fun v s => SaysNat v (CmSub.number s)) := by
  intro v hv a
  unfold CmSub.ofCbor
  rw [bindE_ok]
  simp only [parses_nat v hv, SaysNat]
  refine ⟨fun ⟨n, h1, h2⟩ => ?_, fun h => ?_⟩
  · subst h1
    split at h2 <;> cases h2 <;> rfl
  · cases a <;> exact ⟨_, h, rfl⟩

/-! ## Entities, extensions and options -/

/-- The keys of the fields are values of the type. -/
def keyOk : Value → Bool
  | .unsigned n => decide (n < 2 ^ 64)
  | .negative i => decide (-2 ^ 63 ≤ i ∧ i < 0)
  | .text b => decide (b.length < 2 ^ 32) && Utf8.valid b
  | _ => false

theorem keyOk_wf {k : Value} (h : keyOk k = true) : k.WF Dev.wordBits := by
  cases k with
  | unsigned n => simpa [keyOk, Value.WF] using h
  | negative i => simpa [keyOk, Value.WF] using h
  | text b =>
    simp only [keyOk, Bool.and_eq_true, decide_eq_true_eq] at h
    simp only [Value.WF]
    exact ⟨Nat.lt_of_lt_of_le h.1 pow_w, (Utf8.valid_iff b).1 h.2⟩
  | _ => cases h

/-- The field of each key. -/
theorem finds {keys : List Value} {m : Entries} (hm : (Value.map m).WF Dev.wordBits) (hk : keys.all keyOk = true)
    (hs : keys.Pairwise fun a b => a.cmp b = .lt) (i : Nat) (hi : i < keys.length) :
    Finds m keys[i] ((Verif.Cbor.destructure keys m).getD i none) :=
  fields_finds hm (fun k h => keyOk_wf (List.all_eq_true.1 hk k h)) hs i hi

theorem parses_rp : Parses RpEntity.ofCbor RpEntity.Says := by
  intro v hv a
  unfold RpEntity.ofCbor RpEntity.Says
  rw [fields_bind]
  refine exists_congr fun m => and_congr_right fun hm => ?_
  subst hm
  have hf := finds hv (keys := [.text (b! "id"), .text (b! "icon"), .text (b! "name")]) (by decide +kernel) (by decide)
  have e0 := fun a => must_iff parses_text hv (hf 0 (by decide)) (a := a)
  have e1 := fun a => may_iff parses_text hv (hf 2 (by decide)) (a := a)
  have e2 := fun a => may_iff parses_text hv (hf 1 (by decide)) (a := a)
  constructor
  · intro h
    obtain ⟨_, h0, h⟩ := bindE_ok.1 h
    obtain ⟨_, h1, h⟩ := bindE_ok.1 h
    obtain ⟨_, h2, h⟩ := bindE_ok.1 h
    cases h
    exact ⟨(e0 _).1 h0, (e1 _).1 h1, (e2 _).1 h2⟩
  · rintro ⟨h0, h1, h2⟩
    exact bindE_ok.2 ⟨_, (e0 _).2 h0, bindE_ok.2 ⟨_, (e1 _).2 h1, bindE_ok.2 ⟨_, (e2 _).2 h2, rfl⟩⟩⟩

theorem parses_user : Parses UserEntity.ofCbor UserEntity.Says := by
  intro v hv a
  unfold UserEntity.ofCbor UserEntity.Says
  rw [fields_bind]
  refine exists_congr fun m => and_congr_right fun hm => ?_
  subst hm
  have hf := finds hv (keys := [.text (b! "id"), .text (b! "icon"), .text (b! "name"), .text (b! "displayName")]) (by decide +kernel) (by decide)
  have e0 := fun a => must_iff parses_bytes hv (hf 0 (by decide)) (a := a)
  have e1 := fun a => may_iff parses_text hv (hf 2 (by decide)) (a := a)
  have e2 := fun a => may_iff parses_text hv (hf 3 (by decide)) (a := a)
  have e3 := fun a => may_iff parses_text hv (hf 1 (by decide)) (a := a)
  constructor
  · intro h
    obtain ⟨_, h0, h⟩ := bindE_ok.1 h
    obtain ⟨_, h1, h⟩ := bindE_ok.1 h
    obtain ⟨_, h2, h⟩ := bindE_ok.1 h
    obtain ⟨_, h3, h⟩ := bindE_ok.1 h
    cases h
    exact ⟨(e0 _).1 h0, (e1 _).1 h1, (e2 _).1 h2, (e3 _).1 h3⟩
  · rintro ⟨h0, h1, h2, h3⟩
    exact bindE_ok.2 ⟨_, (e0 _).2 h0, bindE_ok.2 ⟨_, (e1 _).2 h1, bindE_ok.2 ⟨_, (e2 _).2 h2, bindE_ok.2 ⟨_, (e3 _).2 h3, rfl⟩⟩⟩⟩

theorem parses_descriptor : Parses Descriptor.ofCbor Descriptor.Says := by
  intro v hv a
  unfold Descriptor.ofCbor Descriptor.Says
  rw [fields_bind]
  refine exists_congr fun m => and_congr_right fun hm => ?_
  subst hm
  have hf := finds hv (keys := [.text (b! "id"), .text (b! "type"), .text (b! "transports")]) (by decide +kernel) (by decide)
  have e0 := fun a => must_iff parses_type hv (hf 1 (by decide)) (a := a)
  have e1 := fun a => must_iff parses_bytes hv (hf 0 (by decide)) (a := a)
  have e2 := fun a => may_iff (parses_array parses_transport) hv (hf 2 (by decide)) (a := a)
  constructor
  · intro h
    obtain ⟨_, h0, h⟩ := bindE_ok.1 h
    obtain ⟨_, h1, h⟩ := bindE_ok.1 h
    obtain ⟨_, h2, h⟩ := bindE_ok.1 h
    cases h
    exact ⟨(e0 _).1 h0, (e1 _).1 h1, (e2 _).1 h2⟩
  · rintro ⟨h0, h1, h2⟩
    exact bindE_ok.2 ⟨_, (e0 _).2 h0, bindE_ok.2 ⟨_, (e1 _).2 h1, bindE_ok.2 ⟨_, (e2 _).2 h2, rfl⟩⟩⟩

theorem parses_param : Parses CredParam.ofCbor CredParam.Says := by
  intro v hv a
  unfold CredParam.ofCbor CredParam.Says
  rw [fields_bind]
  refine exists_congr fun m => and_congr_right fun hm => ?_
  subst hm
  have hf := finds hv (keys := [.text (b! "alg"), .text (b! "type")]) (by decide +kernel) (by decide)
  have e0 := fun a => must_iff parses_type hv (hf 1 (by decide)) (a := a)
  have e1 := fun a => must_iff parses_int hv (hf 0 (by decide)) (a := a)
  constructor
  · intro h
    obtain ⟨_, h0, h⟩ := bindE_ok.1 h
    obtain ⟨i, h1, h⟩ := bindE_ok.1 h
    cases h
    obtain ⟨w, h2, h3⟩ := (e1 _).1 h1
    exact ⟨(e0 _).1 h0, w, h2, i, h3, by simp [es256]⟩
  · rintro ⟨h0, w, h2, i, h3, h4⟩
    refine bindE_ok.2 ⟨_, (e0 _).2 h0, bindE_ok.2 ⟨_, (e1 _).2 ⟨w, h2, h3⟩, ?_⟩⟩
    have : a.es256 = (i == es256) := by
      rw [Bool.eq_iff_iff, h4]
      simp [es256]
    rw [← this]

omit [Dev] in
theorem checkLargeBlobKey_ok {o : Option Bool} {u : Unit} : checkLargeBlobKey o = .ok u ↔ o ≠ some false := by
  unfold checkLargeBlobKey
  split <;> simp_all

theorem parses_mcExt : Parses McExt.ofCbor McExt.Says := by
  intro v hv a
  unfold McExt.ofCbor McExt.Says
  rw [fields_bind]
  refine exists_congr fun m => and_congr_right fun hm => ?_
  subst hm
  have hf := finds hv (keys := [.text (b! "credBlob"), .text (b! "credProtect"), .text (b! "hmac-secret"), .text (b! "largeBlobKey"),
    .text (b! "minPinLength")]) (by decide +kernel) (by decide)
  have e0 := fun a => else_iff parses_bool hv (hf 2 (by decide)) (d := false) (a := a)
  have e1 := fun a => may_iff parses_policy hv (hf 1 (by decide)) (a := a)
  have e2 := fun a => else_iff parses_bool hv (hf 4 (by decide)) (d := false) (a := a)
  have e3 := fun a => may_iff parses_bytes hv (hf 0 (by decide)) (a := a)
  have e4 := fun a => may_iff parses_bool hv (hf 3 (by decide)) (a := a)
  constructor
  · intro h
    obtain ⟨_, h0, h⟩ := bindE_ok.1 h
    obtain ⟨_, h1, h⟩ := bindE_ok.1 h
    obtain ⟨_, h2, h⟩ := bindE_ok.1 h
    obtain ⟨_, h3, h⟩ := bindE_ok.1 h
    obtain ⟨_, h4, h⟩ := bindE_ok.1 h
    obtain ⟨_, h5, h⟩ := bindE_ok.1 h
    cases h
    exact ⟨(e0 _).1 h0, (e1 _).1 h1, (e2 _).1 h2, (e3 _).1 h3, (e4 _).1 h4, checkLargeBlobKey_ok.1 h5⟩
  · rintro ⟨h0, h1, h2, h3, h4, h5⟩
    exact bindE_ok.2 ⟨_, (e0 _).2 h0, bindE_ok.2 ⟨_, (e1 _).2 h1, bindE_ok.2 ⟨_, (e2 _).2 h2, bindE_ok.2 ⟨_, (e3 _).2 h3,
      bindE_ok.2 ⟨_, (e4 _).2 h4, bindE_ok.2 ⟨(), checkLargeBlobKey_ok.2 h5, rfl⟩⟩⟩⟩⟩⟩

omit [Dev] in
theorem guard_ok {c : Prop} [Decidable c] {e : Status} {x : Except Status α} {a : α} : (if c then .error e else x) = .ok a ↔ ¬ c ∧ x = .ok a := by
  split <;> simp_all

theorem parses_cose : Parses CoseKey.ofCbor CoseKey.Says := by
  intro v hv a
  unfold CoseKey.ofCbor CoseKey.Says
  rw [fields_bind]
  refine exists_congr fun m => and_congr_right fun hm => ?_
  subst hm
  have hf := finds hv (keys := [.unsigned 1, .unsigned 3, .negative (-1), .negative (-2), .negative (-3)]) (by decide +kernel) (by decide)
  have e0 := fun a => must_iff parses_int hv (hf 1 (by decide)) (a := a)
  have e1 := fun a => must_iff parses_bytes hv (hf 3 (by decide)) (a := a)
  have e2 := fun a => must_iff parses_bytes hv (hf 4 (by decide)) (a := a)
  have e3 := fun a => must_iff parses_int hv (hf 2 (by decide)) (a := a)
  have e4 := fun a => must_iff parses_int hv (hf 0 (by decide)) (a := a)
  constructor
  · intro h
    obtain ⟨_, h0, h⟩ := bindE_ok.1 h
    obtain ⟨g0, h⟩ := guard_ok.1 h
    obtain ⟨_, h1, h⟩ := bindE_ok.1 h
    obtain ⟨g1, h⟩ := guard_ok.1 h
    obtain ⟨_, h2, h⟩ := bindE_ok.1 h
    obtain ⟨g2, h⟩ := guard_ok.1 h
    obtain ⟨_, h3, h⟩ := bindE_ok.1 h
    obtain ⟨g3, h⟩ := guard_ok.1 h
    obtain ⟨_, h4, h⟩ := bindE_ok.1 h
    obtain ⟨g4, h⟩ := guard_ok.1 h
    cases h
    exact ⟨(e4 _).1 h4, (e0 _).1 h0, (e3 _).1 h3, (e1 _).1 h1, (e2 _).1 h2, by dsimp only; omega, by dsimp only; omega, by dsimp only; omega, by dsimp only; omega, by dsimp only; omega⟩
  · rintro ⟨h4, h0, h3, h1, h2, g4, g0, g3, g1, g2⟩
    exact bindE_ok.2 ⟨_, (e0 _).2 h0, guard_ok.2 ⟨by omega, bindE_ok.2 ⟨_, (e1 _).2 h1, guard_ok.2 ⟨by omega,
      bindE_ok.2 ⟨_, (e2 _).2 h2, guard_ok.2 ⟨by omega, bindE_ok.2 ⟨_, (e3 _).2 h3, guard_ok.2 ⟨by omega,
      bindE_ok.2 ⟨_, (e4 _).2 h4, guard_ok.2 ⟨by omega, rfl⟩⟩⟩⟩⟩⟩⟩⟩⟩⟩

theorem parses_hmacSecret : Parses HmacSecretInput.ofCbor HmacSecretInput.Says := by
  intro v hv a
  unfold HmacSecretInput.ofCbor HmacSecretInput.Says
  rw [fields_bind]
  refine exists_congr fun m => and_congr_right fun hm => ?_
  subst hm
  have hf := finds hv (keys := [.unsigned 1, .unsigned 2, .unsigned 3, .unsigned 4]) (by decide +kernel) (by decide)
  have e0 := fun a => must_iff parses_cose hv (hf 0 (by decide)) (a := a)
  have e1 := fun a => must_iff parses_bytes hv (hf 1 (by decide)) (a := a)
  have e2 := fun a => must_iff parses_bytes hv (hf 2 (by decide)) (a := a)
  have e3 := fun a d => else_iff parses_proto hv (hf 3 (by decide)) (d := d) (a := a)
  constructor
  · intro h
    obtain ⟨_, h0, h⟩ := bindE_ok.1 h
    obtain ⟨_, h1, h⟩ := bindE_ok.1 h
    obtain ⟨_, h2, h⟩ := bindE_ok.1 h
    obtain ⟨_, h3, h⟩ := bindE_ok.1 h
    cases h
    exact ⟨(e0 _).1 h0, (e1 _).1 h1, (e2 _).1 h2, (e3 _ _).1 h3⟩
  · rintro ⟨h0, h1, h2, h3⟩
    exact bindE_ok.2 ⟨_, (e0 _).2 h0, bindE_ok.2 ⟨_, (e1 _).2 h1, bindE_ok.2 ⟨_, (e2 _).2 h2, bindE_ok.2 ⟨_, (e3 _ _).2 h3, rfl⟩⟩⟩⟩

theorem parses_gaExt : Parses GaExt.ofCbor GaExt.Says := by
  intro v hv a
  unfold GaExt.ofCbor GaExt.Says
  rw [fields_bind]
  refine exists_congr fun m => and_congr_right fun hm => ?_
  subst hm
  have hf := finds hv (keys := [.text (b! "credBlob"), .text (b! "hmac-secret"), .text (b! "largeBlobKey")]) (by decide +kernel) (by decide)
  have e0 := fun a => may_iff parses_hmacSecret hv (hf 1 (by decide)) (a := a)
  have e1 := fun a => else_iff parses_bool hv (hf 0 (by decide)) (d := false) (a := a)
  have e2 := fun a => may_iff parses_bool hv (hf 2 (by decide)) (a := a)
  constructor
  · intro h
    obtain ⟨_, h0, h⟩ := bindE_ok.1 h
    obtain ⟨_, h1, h⟩ := bindE_ok.1 h
    obtain ⟨_, h2, h⟩ := bindE_ok.1 h
    obtain ⟨_, h5, h⟩ := bindE_ok.1 h
    cases h
    exact ⟨(e0 _).1 h0, (e1 _).1 h1, (e2 _).1 h2, checkLargeBlobKey_ok.1 h5⟩
  · rintro ⟨h0, h1, h2, h5⟩
    exact bindE_ok.2 ⟨_, (e0 _).2 h0, bindE_ok.2 ⟨_, (e1 _).2 h1, bindE_ok.2 ⟨_, (e2 _).2 h2, bindE_ok.2 ⟨(), checkLargeBlobKey_ok.2 h5, rfl⟩⟩⟩⟩

theorem parses_mcOptions : Parses McOptions.ofCbor McOptions.Says := by
  intro v hv a
  unfold McOptions.ofCbor McOptions.Says
  rw [fields_bind]
  refine exists_congr fun m => and_congr_right fun hm => ?_
  subst hm
  have hf := finds hv (keys := [.text (b! "rk"), .text (b! "up"), .text (b! "uv")]) (by decide +kernel) (by decide)
  have e0 := fun a => else_iff parses_bool hv (hf 0 (by decide)) (d := false) (a := a)
  have e1 := fun a => else_iff parses_bool hv (hf 1 (by decide)) (d := true) (a := a)
  have e2 := fun a => else_iff parses_bool hv (hf 2 (by decide)) (d := false) (a := a)
  constructor
  · intro h
    obtain ⟨_, h0, h⟩ := bindE_ok.1 h
    obtain ⟨up, h1, h⟩ := bindE_ok.1 h
    obtain ⟨g, h⟩ := guard_ok.1 h
    obtain ⟨_, h2, h⟩ := bindE_ok.1 h
    cases h
    have : up = true := by simpa using g
    subst this
    exact ⟨(e0 _).1 h0, (e1 _).1 h1, (e2 _).1 h2⟩
  · rintro ⟨h0, h1, h2⟩
    exact bindE_ok.2 ⟨_, (e0 _).2 h0, bindE_ok.2 ⟨_, (e1 _).2 h1, guard_ok.2 ⟨by simp, bindE_ok.2 ⟨_, (e2 _).2 h2, rfl⟩⟩⟩⟩

theorem parses_gaOptions : Parses GaOptions.ofCbor GaOptions.Says := by
  intro v hv a
  unfold GaOptions.ofCbor GaOptions.Says
  rw [fields_bind]
  refine exists_congr fun m => and_congr_right fun hm => ?_
  subst hm
  have hf := finds hv (keys := [.text (b! "rk"), .text (b! "up"), .text (b! "uv")]) (by decide +kernel) (by decide)
  have e0 := hf 0 (by decide)
  have e1 := fun a => else_iff parses_bool hv (hf 1 (by decide)) (d := true) (a := a)
  have e2 := fun a => else_iff parses_bool hv (hf 2 (by decide)) (d := false) (a := a)
  dsimp only at e0 ⊢
  constructor
  · intro h
    cases ho : (Verif.Cbor.destructure [.text (b! "rk"), .text (b! "up"), .text (b! "uv")] m).getD 0 none with
    | some x =>
      rw [ho] at h
      obtain ⟨_, _, h⟩ := bindE_ok.1 h
      cases h
    | none =>
      rw [ho] at h e0
      obtain ⟨_, h1, h⟩ := bindE_ok.1 h
      obtain ⟨_, h2, h⟩ := bindE_ok.1 h
      cases h
      exact ⟨finds_none e0, (e1 _).1 h1, (e2 _).1 h2⟩
  · rintro ⟨h0, h1, h2⟩
    cases ho : (Verif.Cbor.destructure [.text (b! "rk"), .text (b! "up"), .text (b! "uv")] m).getD 0 none with
    | some x =>
      rw [ho] at e0
      exact absurd h0 (finds_some e0)
    | none =>
      exact bindE_ok.2 ⟨_, (e1 _).2 h1, bindE_ok.2 ⟨_, (e2 _).2 h2, rfl⟩⟩

/-! ## Parameters -/

theorem parses_mc : Parses McParams.ofCbor McParams.Says := by
  intro v hv a
  unfold McParams.ofCbor McParams.Says
  rw [fields_bind]
  refine exists_congr fun m => and_congr_right fun hm => ?_
  subst hm
  have hf := finds hv (keys := (List.range 10).map fun i => .unsigned (i + 1)) (by decide +kernel) (by decide)
  have e0 := fun a => must_iff parses_bytes hv (hf 0 (by decide)) (a := a)
  have e1 := fun a => must_iff parses_rp hv (hf 1 (by decide)) (a := a)
  have e2 := fun a => must_iff parses_user hv (hf 2 (by decide)) (a := a)
  have e3 := fun a => must_iff (parses_array parses_param) hv (hf 3 (by decide)) (a := a)
  have e4 := fun a => may_iff (parses_array parses_descriptor) hv (hf 4 (by decide)) (a := a)
  have e5 := fun a d => else_iff parses_mcExt hv (hf 5 (by decide)) (d := d) (a := a)
  have e6 := fun a d => else_iff parses_mcOptions hv (hf 6 (by decide)) (d := d) (a := a)
  have e7 := fun a => may_iff parses_bytes hv (hf 7 (by decide)) (a := a)
  have e8 := fun a => may_iff parses_proto hv (hf 8 (by decide)) (a := a)
  have e9 := fun a => may_iff parses_nat hv (hf 9 (by decide)) (a := a)
  constructor
  · intro h
    obtain ⟨_, h0, h⟩ := bindE_ok.1 h
    obtain ⟨_, h1, h⟩ := bindE_ok.1 h
    obtain ⟨_, h2, h⟩ := bindE_ok.1 h
    obtain ⟨_, h3, h⟩ := bindE_ok.1 h
    obtain ⟨_, h4, h⟩ := bindE_ok.1 h
    obtain ⟨_, h5, h⟩ := bindE_ok.1 h
    obtain ⟨_, h6, h⟩ := bindE_ok.1 h
    obtain ⟨_, h7, h⟩ := bindE_ok.1 h
    obtain ⟨_, h8, h⟩ := bindE_ok.1 h
    obtain ⟨_, h9, h⟩ := bindE_ok.1 h
    cases h
    exact ⟨(e0 _).1 h0, (e1 _).1 h1, (e2 _).1 h2, (e3 _).1 h3, (e4 _).1 h4, (e5 _ _).1 h5, (e6 _ _).1 h6, (e7 _).1 h7, (e8 _).1 h8, (e9 _).1 h9⟩
  · rintro ⟨h0, h1, h2, h3, h4, h5, h6, h7, h8, h9⟩
    exact bindE_ok.2 ⟨_, (e0 _).2 h0, bindE_ok.2 ⟨_, (e1 _).2 h1, bindE_ok.2 ⟨_, (e2 _).2 h2, bindE_ok.2 ⟨_, (e3 _).2 h3, bindE_ok.2 ⟨_, (e4 _).2 h4, bindE_ok.2 ⟨_, (e5 _ _).2 h5, bindE_ok.2 ⟨_, (e6 _ _).2 h6, bindE_ok.2 ⟨_, (e7 _).2 h7, bindE_ok.2 ⟨_, (e8 _).2 h8, bindE_ok.2 ⟨_, (e9 _).2 h9, rfl⟩⟩⟩⟩⟩⟩⟩⟩⟩⟩

theorem parses_ga : Parses GaParams.ofCbor GaParams.Says := by
  intro v hv a
  unfold GaParams.ofCbor GaParams.Says
  rw [fields_bind]
  refine exists_congr fun m => and_congr_right fun hm => ?_
  subst hm
  have hf := finds hv (keys := (List.range 7).map fun i => .unsigned (i + 1)) (by decide +kernel) (by decide)
  have e0 := fun a => must_iff parses_text hv (hf 0 (by decide)) (a := a)
  have e1 := fun a => must_iff parses_bytes hv (hf 1 (by decide)) (a := a)
  have e2 := fun a => may_iff (parses_array parses_descriptor) hv (hf 2 (by decide)) (a := a)
  have e3 := fun a d => else_iff parses_gaExt hv (hf 3 (by decide)) (d := d) (a := a)
  have e4 := fun a d => else_iff parses_gaOptions hv (hf 4 (by decide)) (d := d) (a := a)
  have e5 := fun a => may_iff parses_bytes hv (hf 5 (by decide)) (a := a)
  have e6 := fun a => may_iff parses_proto hv (hf 6 (by decide)) (a := a)
  constructor
  · intro h
    obtain ⟨_, h0, h⟩ := bindE_ok.1 h
    obtain ⟨_, h1, h⟩ := bindE_ok.1 h
    obtain ⟨_, h2, h⟩ := bindE_ok.1 h
    obtain ⟨_, h3, h⟩ := bindE_ok.1 h
    obtain ⟨_, h4, h⟩ := bindE_ok.1 h
    obtain ⟨_, h5, h⟩ := bindE_ok.1 h
    obtain ⟨_, h6, h⟩ := bindE_ok.1 h
    cases h
    exact ⟨(e0 _).1 h0, (e1 _).1 h1, (e2 _).1 h2, (e3 _ _).1 h3, (e4 _ _).1 h4, (e5 _).1 h5, (e6 _).1 h6⟩
  · rintro ⟨h0, h1, h2, h3, h4, h5, h6⟩
    exact bindE_ok.2 ⟨_, (e0 _).2 h0, bindE_ok.2 ⟨_, (e1 _).2 h1, bindE_ok.2 ⟨_, (e2 _).2 h2, bindE_ok.2 ⟨_, (e3 _ _).2 h3, bindE_ok.2 ⟨_, (e4 _ _).2 h4, bindE_ok.2 ⟨_, (e5 _).2 h5, bindE_ok.2 ⟨_, (e6 _).2 h6, rfl⟩⟩⟩⟩⟩⟩⟩

theorem parses_cmSubParams : Parses CmSubParams.ofCbor CmSubParams.Says := by
  intro v hv a
  unfold CmSubParams.ofCbor CmSubParams.Says
  rw [fields_bind]
  refine exists_congr fun m => and_congr_right fun hm => ?_
  subst hm
  have hf := finds hv (keys := [.unsigned 1, .unsigned 2, .unsigned 3]) (by decide +kernel) (by decide)
  have e0 := fun a => may_iff parses_bytes hv (hf 0 (by decide)) (a := a)
  have e1 := fun a => may_iff parses_descriptor hv (hf 1 (by decide)) (a := a)
  have e2 := fun a => may_iff parses_user hv (hf 2 (by decide)) (a := a)
  constructor
  · intro h
    obtain ⟨_, h0, h⟩ := bindE_ok.1 h
    obtain ⟨_, h1, h⟩ := bindE_ok.1 h
    obtain ⟨_, h2, h⟩ := bindE_ok.1 h
    cases h
    exact ⟨(e0 _).1 h0, (e1 _).1 h1, (e2 _).1 h2⟩
  · rintro ⟨h0, h1, h2⟩
    exact bindE_ok.2 ⟨_, (e0 _).2 h0, bindE_ok.2 ⟨_, (e1 _).2 h1, bindE_ok.2 ⟨_, (e2 _).2 h2, rfl⟩⟩⟩

theorem parses_cm : Parses CmParams.ofCbor CmParams.Says := by
  intro v hv a
  unfold CmParams.ofCbor CmParams.Says
  rw [fields_bind]
  refine exists_congr fun m => and_congr_right fun hm => ?_
  subst hm
  have hf := finds hv (keys := [.unsigned 1, .unsigned 2, .unsigned 3, .unsigned 4]) (by decide +kernel) (by decide)
  have e0 := fun a => must_iff parses_cmSub hv (hf 0 (by decide)) (a := a)
  have e1 := fun a => may_iff parses_cmSubParams hv (hf 1 (by decide)) (a := a)
  have e2 := fun a => may_iff parses_proto hv (hf 2 (by decide)) (a := a)
  have e3 := fun a => may_iff parses_bytes hv (hf 3 (by decide)) (a := a)
  constructor
  · intro h
    obtain ⟨_, h0, h⟩ := bindE_ok.1 h
    obtain ⟨_, h1, h⟩ := bindE_ok.1 h
    obtain ⟨_, h2, h⟩ := bindE_ok.1 h
    obtain ⟨_, h3, h⟩ := bindE_ok.1 h
    cases h
    exact ⟨(e0 _).1 h0, (e1 _).1 h1, (e2 _).1 h2, (e3 _).1 h3⟩
  · rintro ⟨h0, h1, h2, h3⟩
    exact bindE_ok.2 ⟨_, (e0 _).2 h0, bindE_ok.2 ⟨_, (e1 _).2 h1, bindE_ok.2 ⟨_, (e2 _).2 h2, bindE_ok.2 ⟨_, (e3 _).2 h3, rfl⟩⟩⟩⟩

omit [Dev] in
theorem may_map {γ : Type} {R : Value → α → Prop} {m : Entries} {k : Value} {f : α → γ} {o : Option γ} :
    (∃ a, May R m k a ∧ a.map f = o) ↔ May (fun v c => ∃ a, R v a ∧ c = f a) m k o := by
  constructor
  · rintro ⟨a, (⟨rfl, h⟩ | ⟨b, rfl, v, h1, h2⟩), rfl⟩
    · exact .inl ⟨rfl, h⟩
    · exact .inr ⟨f b, rfl, v, h1, b, h2, rfl⟩
  · rintro (⟨rfl, h⟩ | ⟨c, rfl, v, h1, b, h2, rfl⟩)
    · exact ⟨none, .inl ⟨rfl, h⟩, rfl⟩
    · exact ⟨some b, .inr ⟨b, rfl, v, h1, h2⟩, rfl⟩

theorem parses_pin : Parses PinParams.ofCbor PinParams.Says := by
  intro v hv a
  unfold PinParams.ofCbor PinParams.Says
  rw [fields_bind]
  refine exists_congr fun m => and_congr_right fun hm => ?_
  subst hm
  have hf := finds hv (keys := [.unsigned 1, .unsigned 2, .unsigned 3, .unsigned 4, .unsigned 5, .unsigned 6, .unsigned 9, .unsigned 10])
    (by decide +kernel) (by decide)
  have e0 := fun a => must_iff parses_proto hv (hf 0 (by decide)) (a := a)
  have e1 := fun a => must_iff parses_pinSub hv (hf 1 (by decide)) (a := a)
  have e2 := fun a => may_iff parses_cose hv (hf 2 (by decide)) (a := a)
  have e3 := fun a => may_iff parses_bytes hv (hf 3 (by decide)) (a := a)
  have e4 := fun a => may_iff parses_bytes hv (hf 4 (by decide)) (a := a)
  have e5 := fun a => may_iff parses_bytes hv (hf 5 (by decide)) (a := a)
  have e6 := fun a => may_iff parses_nat hv (hf 6 (by decide)) (a := a)
  have e7 := fun a => may_iff parses_text hv (hf 7 (by decide)) (a := a)
  have hbits : ∀ o, (∃ a, May SaysNat m (.unsigned 9) a ∧ a.map (fun n => UInt8.ofNat n) = o) ↔ May SaysBits m (.unsigned 9) o := by
    intro o
    rw [may_map]
    have : (fun v c => ∃ a, SaysNat v a ∧ c = UInt8.ofNat a) = SaysBits := by
      funext v c
      refine propext (exists_congr fun n => and_congr_right fun _ => ?_)
      rw [show UInt8.ofNat (n % 256) = UInt8.ofNat n from UInt8.ofNat_mod_size]
    rw [this]
  constructor
  · intro h
    obtain ⟨_, h0, h⟩ := bindE_ok.1 h
    obtain ⟨_, h1, h⟩ := bindE_ok.1 h
    obtain ⟨_, h2, h⟩ := bindE_ok.1 h
    obtain ⟨_, h3, h⟩ := bindE_ok.1 h
    obtain ⟨_, h4, h⟩ := bindE_ok.1 h
    obtain ⟨_, h5, h⟩ := bindE_ok.1 h
    obtain ⟨_, h6, h⟩ := bindE_ok.1 h
    obtain ⟨_, h7, h⟩ := bindE_ok.1 h
    cases h
    exact ⟨(e0 _).1 h0, (e1 _).1 h1, (e2 _).1 h2, (e3 _).1 h3, (e4 _).1 h4, (e5 _).1 h5, (hbits _).1 ⟨_, (e6 _).1 h6, rfl⟩, (e7 _).1 h7⟩
  · rintro ⟨h0, h1, h2, h3, h4, h5, h6, h7⟩
    obtain ⟨o, h8, h9⟩ := (hbits _).2 h6
    refine bindE_ok.2 ⟨_, (e0 _).2 h0, bindE_ok.2 ⟨_, (e1 _).2 h1, bindE_ok.2 ⟨_, (e2 _).2 h2, bindE_ok.2 ⟨_, (e3 _).2 h3,
      bindE_ok.2 ⟨_, (e4 _).2 h4, bindE_ok.2 ⟨_, (e5 _).2 h5, bindE_ok.2 ⟨_, (e6 _).2 h8, bindE_ok.2 ⟨_, (e7 _).2 h7, ?_⟩⟩⟩⟩⟩⟩⟩⟩
    rw [h9]

omit [Dev] in
theorem check_ok {p : LbParams} {u : Unit} : p.check = .ok u ↔ p.Consistent := by
  constructor
  · intro h
    unfold LbParams.check at h
    obtain ⟨g0, h⟩ := guard_ok.1 h
    obtain ⟨g1, h⟩ := guard_ok.1 h
    obtain ⟨g2, h⟩ := guard_ok.1 h
    obtain ⟨g3, h⟩ := guard_ok.1 h
    obtain ⟨g4, h⟩ := guard_ok.1 h
    constructor
    · cases hg : p.get <;> cases hs : p.set <;> simp_all
    · intro h1; cases hl : p.length <;> cases ha : p.authParam <;> cases hp : p.authProto <;> simp_all
    · intro h1 h2
      cases hl : p.length with
      | none => simp_all
      | some n => exact ⟨n, rfl, by simp_all⟩
    · intro h1 h2
      cases hl : p.length <;> simp_all
  · intro h
    unfold LbParams.check
    refine guard_ok.2 ⟨?_, guard_ok.2 ⟨?_, guard_ok.2 ⟨?_, guard_ok.2 ⟨?_, guard_ok.2 ⟨?_, rfl⟩⟩⟩⟩⟩
    · have := h.one; cases hg : p.get <;> cases hs : p.set <;> simp_all
    · have := h.one; cases hg : p.get <;> cases hs : p.set <;> simp_all
    · have := h.reads; cases hg : p.get <;> simp_all
    · intro hc
      simp only [Bool.and_eq_true, beq_iff_eq, decide_eq_true_eq] at hc
      obtain ⟨n, h1, h2⟩ := h.first hc.1.1 hc.1.2
      rw [h1] at hc
      simp only [Option.getD_some] at hc
      omega
    · intro hc
      simp only [Bool.and_eq_true, bne_iff_ne, ne_eq] at hc
      rw [h.later hc.1.1 hc.1.2] at hc
      simp at hc

theorem parses_lb : Parses LbParams.ofCbor (LbParams.Says Dev.wordBits true) := by
  intro v hv a
  unfold LbParams.ofCbor LbParams.Says
  rw [fields_bind]
  rw [← exists_and_left]
  refine exists_congr fun m => ?_
  rw [and_left_comm]
  refine and_congr_right fun hm => ?_
  subst hm
  have hf := finds hv (keys := [.unsigned 1, .unsigned 2, .unsigned 3, .unsigned 4, .unsigned 5, .unsigned 6]) (by decide +kernel) (by decide)
  have e0 := fun a => may_iff parses_nat hv (hf 0 (by decide)) (a := a)
  have e1 := fun a => may_iff parses_bytes hv (hf 1 (by decide)) (a := a)
  have e2 := fun a => must_iff parses_nat hv (hf 2 (by decide)) (a := a)
  have e3 := fun a => may_iff parses_nat hv (hf 3 (by decide)) (a := a)
  have e4 := fun a => may_iff parses_bytes hv (hf 4 (by decide)) (a := a)
  have e5 := fun a => may_iff parses_proto hv (hf 5 (by decide)) (a := a)
  have hword : ∀ k o, (∃ a, May SaysNat m k a ∧ a.map (· % 2 ^ Dev.wordBits) = o) ↔ May (SaysWord Dev.wordBits true) m k o := by
    intro k o
    rw [may_map]
    have : (fun v c => ∃ a, SaysNat v a ∧ c = a % 2 ^ Dev.wordBits) = SaysWord Dev.wordBits true := by
      funext v c
      simp [SaysNat, SaysWord]
    rw [this]
  constructor
  · intro h
    obtain ⟨_, h0, h⟩ := bindE_ok.1 h
    obtain ⟨_, h1, h⟩ := bindE_ok.1 h
    dsimp only at h
    cases ho : (Verif.Cbor.destructure [.unsigned 1, .unsigned 2, .unsigned 3, .unsigned 4, .unsigned 5, .unsigned 6] m).getD 2 none with
    | none => rw [ho] at h; cases h
    | some x =>
    rw [ho] at h e2
    obtain ⟨off, h2, h⟩ := bindE_ok.1 h
    obtain ⟨_, h3, h⟩ := bindE_ok.1 h
    obtain ⟨_, h4, h⟩ := bindE_ok.1 h
    obtain ⟨_, h5, h⟩ := bindE_ok.1 h
    obtain ⟨_, h6, h⟩ := bindE_ok.1 h
    cases h
    obtain ⟨w, h7, h8⟩ := (e2 _).1 h2
    exact ⟨check_ok.1 h6, (hword _ _).1 ⟨_, (e0 _).1 h0, rfl⟩, (e1 _).1 h1, ⟨w, h7, off, h8, rfl, (nomatch ·)⟩,
      (hword _ _).1 ⟨_, (e3 _).1 h3, rfl⟩, (e4 _).1 h4, (e5 _).1 h5⟩
  · rintro ⟨h6, h0, h1, ⟨w, h7, off, h8, h9, _⟩, h3, h4, h5⟩
    obtain ⟨o0, g0, g1⟩ := (hword _ _).2 h0
    obtain ⟨o3, g2, g3⟩ := (hword _ _).2 h3
    refine bindE_ok.2 ⟨_, (e0 _).2 g0, bindE_ok.2 ⟨_, (e1 _).2 h1, ?_⟩⟩
    have h2 := (e2 off).2 ⟨w, h7, h8⟩
    cases ho : (Verif.Cbor.destructure [.unsigned 1, .unsigned 2, .unsigned 3, .unsigned 4, .unsigned 5, .unsigned 6] m).getD 2 none with
    | none => rw [ho] at h2; cases h2
    | some x =>
    rw [ho] at h2
    replace h2 : extractUnsigned x = .ok off := h2
    dsimp only
    rw [ho]
    refine bindE_ok.2 ⟨off, h2, ?_⟩
    refine bindE_ok.2 ⟨_, (e3 _).2 g2, bindE_ok.2 ⟨_, (e4 _).2 h4, bindE_ok.2 ⟨_, (e5 _).2 h5, ?_⟩⟩⟩
    rw [g1, g3, ← h9]
    exact bindE_ok.2 ⟨(), check_ok.2 h6, rfl⟩

theorem parses_minPin : Parses MinPinParams.ofCbor MinPinParams.Says := by
  intro v hv a
  unfold MinPinParams.ofCbor MinPinParams.Says
  rw [fields_bind]
  rw [← exists_and_left]
  refine exists_congr fun m => ?_
  rw [and_left_comm]
  refine and_congr_right fun hm => ?_
  subst hm
  have hf := finds hv (keys := [.unsigned 1, .unsigned 2, .unsigned 3]) (by decide +kernel) (by decide)
  have e0 := fun a => may_iff parses_nat hv (hf 0 (by decide)) (a := a)
  have e1 := fun a => may_iff (parses_array parses_text) hv (hf 1 (by decide)) (a := a)
  have e2 := fun a => may_iff parses_bool hv (hf 2 (by decide)) (a := a)
  constructor
  · intro h
    obtain ⟨_, h0, h⟩ := bindE_ok.1 h
    obtain ⟨g, h⟩ := guard_ok.1 h
    obtain ⟨_, h1, h⟩ := bindE_ok.1 h
    obtain ⟨_, h2, h⟩ := bindE_ok.1 h
    cases h
    refine ⟨fun n hn => ?_, (e0 _).1 h0, (e1 _).1 h1, (e2 _).1 h2⟩
    dsimp only at hn
    rw [hn] at g
    simpa using g
  · rintro ⟨h3, h0, h1, h2⟩
    refine bindE_ok.2 ⟨_, (e0 _).2 h0, guard_ok.2 ⟨?_, bindE_ok.2 ⟨_, (e1 _).2 h1, bindE_ok.2 ⟨_, (e2 _).2 h2, rfl⟩⟩⟩⟩
    cases hn : a.newLength with
    | none => simp
    | some n => have := h3 n hn; simp; omega

theorem parses_config : Parses ConfigParams.ofCbor ConfigParams.Says := by
  intro v hv a
  unfold ConfigParams.ofCbor ConfigParams.Says
  rw [fields_bind]
  refine exists_congr fun m => and_congr_right fun hm => ?_
  subst hm
  have hf := finds hv (keys := [.unsigned 1, .unsigned 2, .unsigned 3, .unsigned 4]) (by decide +kernel) (by decide)
  have e0 := fun a => must_iff parses_configSub hv (hf 0 (by decide)) (a := a)
  have e1 := fun a => must_iff parses_minPin hv (hf 1 (by decide)) (a := a)
  have e2 := fun a => may_iff parses_proto hv (hf 2 (by decide)) (a := a)
  have e3 := fun a => may_iff parses_bytes hv (hf 3 (by decide)) (a := a)
  constructor
  · intro h
    obtain ⟨sub, h0, h⟩ := bindE_ok.1 h
    by_cases hs : sub = .setMinPinLength
    · subst hs
      obtain ⟨q, h1, h⟩ := bindE_ok.1 h
      obtain ⟨_, hq, h⟩ := bindE_ok.1 h
      cases hq
      obtain ⟨_, h2, h⟩ := bindE_ok.1 h
      obtain ⟨_, h3, h⟩ := bindE_ok.1 h
      cases h
      exact ⟨(e0 _).1 h0, fun _ => ⟨q, rfl, (e1 _).1 h1⟩, fun hs => absurd rfl hs, (e2 _).1 h2, (e3 _).1 h3⟩
    · have h' : ∃ x, optE Proto.ofCbor ((Verif.Cbor.destructure [.unsigned 1, .unsigned 2, .unsigned 3, .unsigned 4] m).getD 2 none) = .ok x ∧
          ∃ y, optE extractBytes ((Verif.Cbor.destructure [.unsigned 1, .unsigned 2, .unsigned 3, .unsigned 4] m).getD 3 none) = .ok y ∧
          a = { sub := sub, params := none, authProto := x, authParam := y } := by
        cases sub with
        | setMinPinLength => exact absurd rfl hs
        | _ =>
          obtain ⟨_, hq, h⟩ := bindE_ok.1 h
          cases hq
          obtain ⟨x, h2, h⟩ := bindE_ok.1 h
          obtain ⟨y, h3, h⟩ := bindE_ok.1 h
          cases h
          exact ⟨x, h2, y, h3, rfl⟩
      obtain ⟨x, h2, y, h3, rfl⟩ := h'
      exact ⟨(e0 _).1 h0, fun h => absurd h hs, fun _ => rfl, (e2 _).1 h2, (e3 _).1 h3⟩
  · rintro ⟨h0, h1, h1', h2, h3⟩
    obtain ⟨sub, params, proto, param⟩ := a
    refine bindE_ok.2 ⟨_, (e0 _).2 h0, ?_⟩
    by_cases hs : sub = .setMinPinLength
    · subst hs
      obtain ⟨q, rfl, h5⟩ := h1 rfl
      exact bindE_ok.2 ⟨q, (e1 _).2 h5, bindE_ok.2 ⟨_, rfl, bindE_ok.2 ⟨_, (e2 _).2 h2, bindE_ok.2 ⟨_, (e3 _).2 h3, rfl⟩⟩⟩⟩
    · obtain rfl := h1' hs
      cases sub with
      | setMinPinLength => exact absurd rfl hs
      | _ => exact bindE_ok.2 ⟨_, rfl, bindE_ok.2 ⟨_, (e2 _).2 h2, bindE_ok.2 ⟨_, (e3 _).2 h3, rfl⟩⟩⟩

/-! ## Messages -/

/-- What is read is a value of the type, and its canonical encoding is read as well. -/
theorem cborRead_ok {bs : Bytes} {v : Value} (h : cborRead bs = .ok v) :
    Sendable Dev.wordBits v ∧ cborRead v.enc = .ok v ∧ (Dev.wordBits = 64 → bs = v.enc) := by
  unfold cborRead at h
  cases hr : Verif.Cbor.readNested Dev.wordBits bs (some 4) with
  | error e => rw [hr] at h; cases h
  | ok v' =>
    rw [hr] at h
    cases h
    obtain ⟨h1, h2, h3⟩ := Verif.Cbor.C02_any_usize_partial w_le bs _ v hr
    have h4 := (Verif.Cbor.C01_read_write w_le v (some 4) h1).1.1 ⟨_, h2⟩
    simp only [Verif.Cbor.Depth.allows] at h4
    refine ⟨⟨h1, by omega⟩, by simp only [cborRead, h3], fun hw => ?_⟩
    rw [hw] at hr
    exact (Verif.Cbor.C02_read_canonical_partial bs _ v hr).1

theorem cborRead_enc {v : Value} (h : Sendable Dev.wordBits v) : cborRead v.enc = .ok v := by
  have h1 : Verif.Cbor.writeNested v (some 4) = .ok v.enc := Verif.Cbor.C01_write_canonical w_le v (some 4) h.1 (by have := h.2; simp only [Verif.Cbor.Depth.allows]; omega)
  simp only [cborRead, (Verif.Cbor.C01_read_write w_le v (some 4) h.1).2 _ h1]

/-- A command with parameters is what its message says, with large numbers taken modulo the word size. -/
theorem deserialize_iff {msg : Bytes} {cmd : Command} : Command.deserialize msg = .ok cmd ↔
    ∃ c rest, msg = c :: rest ∧ (cmd.Bare c ∨ ∃ v, cborRead rest = .ok v ∧ cmd.Carries Dev.wordBits true c v) := by
  have key : ∀ {β : Type} (g : Value → Except Status β) (R : Value → β → Prop) (mk : β → Command) (rest : Bytes), Parses g R →
      ((do .ok (mk (← g (← cborRead rest)))) = Except.ok cmd ↔ ∃ v p, cborRead rest = .ok v ∧ R v p ∧ cmd = mk p) := by
    intro β g R mk rest hg
    constructor
    · intro h
      obtain ⟨v, h1, h⟩ := bindE_ok.1 h
      obtain ⟨p, h2, h⟩ := bindE_ok.1 h
      cases h
      exact ⟨v, p, h1, (hg v (cborRead_ok h1).1.1 p).1 h2, rfl⟩
    · rintro ⟨v, p, h1, h2, rfl⟩
      exact bindE_ok.2 ⟨v, h1, bindE_ok.2 ⟨p, (hg v (cborRead_ok h1).1.1 p).2 h2, rfl⟩⟩
  cases msg with
  | nil => exact ⟨(nomatch ·), fun ⟨_, _, h, _⟩ => (nomatch h)⟩
  | cons c rest =>
    have hr : (∃ c' rest', c :: rest = c' :: rest' ∧ (cmd.Bare c' ∨ ∃ v, cborRead rest' = .ok v ∧ cmd.Carries Dev.wordBits true c' v)) ↔
        (cmd.Bare c ∨ ∃ v, cborRead rest = .ok v ∧ cmd.Carries Dev.wordBits true c v) := by
      constructor
      · rintro ⟨_, _, h, h'⟩
        cases h
        exact h'
      · exact fun h => ⟨c, rest, rfl, h⟩
    rw [hr]
    unfold Command.deserialize
    dsimp only
    by_cases h1 : c = 0x01
    · subst h1
      rw [if_pos rfl, key _ _ _ rest parses_mc]
      cases cmd <;> simp [Command.Bare, Command.Carries]
    rw [if_neg h1]
    by_cases h2 : c = 0x02
    · subst h2
      rw [if_pos rfl, key _ _ _ rest parses_ga]
      cases cmd <;> simp [Command.Bare, Command.Carries]
    rw [if_neg h2]
    by_cases h4 : c = 0x04
    · subst h4
      rw [if_pos rfl]
      cases cmd <;> simp [Command.Bare, Command.Carries]
    rw [if_neg h4]
    by_cases h6 : c = 0x06
    · subst h6
      rw [if_pos rfl, key _ _ _ rest parses_pin]
      cases cmd <;> simp [Command.Bare, Command.Carries]
    rw [if_neg h6]
    by_cases h7 : c = 0x07
    · subst h7
      rw [if_pos rfl]
      cases cmd <;> simp [Command.Bare, Command.Carries]
    rw [if_neg h7]
    by_cases h8 : c = 0x08
    · subst h8
      rw [if_pos rfl]
      cases cmd <;> simp [Command.Bare, Command.Carries]
    rw [if_neg h8]
    by_cases hA : c = 0x0A ∨ c = 0x41
    · rw [if_pos hA, key _ _ _ rest parses_cm]
      rcases hA with rfl | rfl <;> cases cmd <;> simp [Command.Bare, Command.Carries]
    rw [if_neg hA]
    by_cases hB : c = 0x0B
    · subst hB
      rw [if_pos rfl]
      cases cmd <;> simp [Command.Bare, Command.Carries]
    rw [if_neg hB]
    by_cases hC : c = 0x0C
    · subst hC
      rw [if_pos rfl, key _ _ _ rest parses_lb]
      cases cmd <;> simp [Command.Bare, Command.Carries]
    rw [if_neg hC]
    by_cases hD : c = 0x0D
    · subst hD
      rw [if_pos rfl, key _ _ _ rest parses_config]
      cases cmd <;> simp [Command.Bare, Command.Carries]
    rw [if_neg hD]
    cases cmd <;> simp_all [Command.Bare, Command.Carries]

end Verif.Ctap
