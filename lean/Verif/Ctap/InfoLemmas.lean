import Verif.Ctap.InfoSpec
import Verif.Ctap.PropsWire

/-!
# The contents of the answer to GetInfo
-/
namespace Verif.Ctap
open Verif.Cbor (Value readNested)
set_option linter.unusedSectionVars false

theorem findSome_only {α β : Type} {f : α → Option β} {l : List α} {v : β} (h : ∀ e ∈ l, f e = none ∨ f e = some v)
    (hm : ∃ e ∈ l, f e = some v) : l.findSome? f = some v := by
  induction l with
  | nil => obtain ⟨_, h, _⟩ := hm; cases h
  | cons a l ih =>
    rw [List.findSome?_cons]
    rcases h a (List.mem_cons_self ..) with h1 | h1
    · rw [h1]
      refine ih (fun e he => h e (List.mem_cons_of_mem _ he)) ?_
      obtain ⟨e, he, h2⟩ := hm
      rcases List.mem_cons.1 he with rfl | he
      · rw [h1] at h2; cases h2
      · exact ⟨e, he, h2⟩
    · rw [h1]

theorem findSome_none {α β : Type} {f : α → Option β} {l : List α} (h : ∀ e ∈ l, f e = none) : l.findSome? f = none := by
  induction l with
  | nil => rfl
  | cons a l ih => rw [List.findSome?_cons, h a (List.mem_cons_self ..)]; exact ih fun e he => h e (List.mem_cons_of_mem _ he)

theorem mkMap_perm {es : List (Value × Value)} {v : Value} (h : Verif.Cbor.mkMap es = some v) : ∃ m, v = .map m ∧ m.Perm es := by
  unfold Verif.Cbor.mkMap at h
  split at h
  · cases h
  · cases h; exact ⟨_, rfl, sortEntries_perm es⟩

/-- Looking up in a map. -/
theorem lookup_map {es m : List (Value × Value)} {β : Type} {f : Value × Value → Option β} (hm : m.Perm es) {v : β}
    (h : ∀ e ∈ es, f e = none ∨ f e = some v) (hx : ∃ e ∈ es, f e = some v) : m.findSome? f = some v :=
  findSome_only (fun e he => h e (hm.mem_iff.1 he)) (let ⟨e, he, h⟩ := hx; ⟨e, hm.mem_iff.2 he, h⟩)

theorem lookup_none {es m : List (Value × Value)} {β : Type} {f : Value × Value → Option β} (hm : m.Perm es)
    (h : ∀ e ∈ es, f e = none) : m.findSome? f = none := findSome_none fun e he => h e (hm.mem_iff.1 he)

/-- Looking up in a map with optional values. -/
theorem lookup_options {es : List (Value × Option Value)} {m : List (Value × Value)} {β : Type} {f : Value × Value → Option β}
    (hm : m.Perm (es.filterMap fun e => e.2.map fun v => (e.1, v))) {r : Option β}
    (h : ∀ e ∈ es, ∀ v, e.2 = some v → f (e.1, v) = none ∨ f (e.1, v) = r) (hx : r = none ∨ ∃ e ∈ es, ∃ v, e.2 = some v ∧ f (e.1, v) = r) :
    m.findSome? f = r := by
  have hh : ∀ e ∈ (es.filterMap fun e => e.2.map fun v => (e.1, v)), f e = none ∨ f e = r := by
    intro e he
    obtain ⟨x, hx, hy⟩ := List.mem_filterMap.1 he
    obtain ⟨a, ha, rfl⟩ := Option.map_eq_some_iff.1 hy
    exact h x hx a ha
  cases r with
  | none => exact lookup_none hm fun e he => (hh e he).elim id id
  | some v =>
    refine lookup_map hm hh ?_
    rcases hx with hx | ⟨e, he, a, ha, hx⟩
    · cases hx
    · exact ⟨(e.1, a), List.mem_filterMap.2 ⟨e, he, by rw [ha]; rfl⟩, hx⟩

section
variable [Dev] {P : Oracle → Prop} {s s' t : St} {ans : Bytes}

/-- What the response says, by number. -/
theorem InfoResponse.at {r : InfoResponse} {v : Value} (h : r.toCbor = some v) : ∃ m o,
    v = .map m ∧ Verif.Cbor.mkMap (r.options.map fun e => (.text e.1, cborBool e.2)) = some o ∧
    m.findSome? (Info.isAt 1) = some (.array (r.versions.map .text)) ∧
    m.findSome? (Info.isAt 4) = some o ∧
    m.findSome? (Info.isAt 5) = some (.unsigned Dev.maxMsgSize) ∧
    m.findSome? (Info.isAt 6) = some (.array (.unsigned 2 :: if Dev.allowsPinV1 then [.unsigned 1] else [])) ∧
    m.findSome? (Info.isAt 7) = Dev.maxCredCountInList.map .unsigned ∧
    m.findSome? (Info.isAt 11) = some (.unsigned Dev.maxLargeBlob) ∧
    m.findSome? (Info.isAt 12) = some (cborBool r.forcePinChange) ∧
    m.findSome? (Info.isAt 13) = some (.unsigned r.minPinLength) ∧
    m.findSome? (Info.isAt 15) = some (.unsigned Dev.maxCredBlobLength) ∧
    m.findSome? (Info.isAt 16) = some (.unsigned Dev.maxRpIds) ∧
    m.findSome? (Info.isAt 20) = some (.unsigned r.remaining) := by
  simp only [InfoResponse.toCbor, Option.bind_eq_bind, Option.bind_eq_some_iff] at h
  obtain ⟨o, ho, a, ha, h⟩ := h
  obtain ⟨m, rfl, hm⟩ := mkMap_perm h
  refine ⟨m, o, rfl, ho, ?_⟩
  refine ⟨?_, ?_, ?_, ?_, ?_, ?_, ?_, ?_, ?_, ?_, ?_⟩
  case refine_5 =>
    refine lookup_options hm ?_ ?_
    · intro e he v hv
      simp only [List.mem_cons, List.not_mem_nil, or_false] at he
      rcases he with h|h|h|h|h|h|h|h|h|h|h|h|h|h|h|h|h <;> subst h <;> first | exact .inl rfl | exact .inr hv.symm
    · cases hc : Dev.maxCredCountInList with
      | none => exact .inl rfl
      | some n => exact .inr ⟨(.unsigned 7, (some n).map .unsigned), by simp [hc], _, rfl, rfl⟩
  all_goals
    refine lookup_options hm ?_ (.inr ?_)
    · intro e he v hv
      simp only [List.mem_cons, List.not_mem_nil, or_false] at he
      rcases he with h|h|h|h|h|h|h|h|h|h|h|h|h|h|h|h|h <;> subst h <;> first | exact .inl rfl | exact .inr hv.symm
    · simp [Info.isAt]

theorem asBool_cbor (b : Bool) : Info.asBool (cborBool b) = some b := by cases b <;> rfl

/-- What the options say, by name. -/
theorem InfoResponse.named {r : InfoResponse} {o : Value} (h : Verif.Cbor.mkMap (r.options.map fun e => (.text e.1, cborBool e.2)) = some o) :
    ∃ m, o = .map m ∧
    (m.findSome? (Info.isNamed (b! "clientPin"))) = some (cborBool r.clientPin) ∧
    (m.findSome? (Info.isNamed (b! "alwaysUv"))) = some (cborBool r.alwaysUv) ∧
    (m.findSome? (Info.isNamed (b! "makeCredUvNotRqd"))) = some (cborBool !r.alwaysUv) ∧
    (m.findSome? (Info.isNamed (b! "ep"))) = r.ep.map cborBool := by
  obtain ⟨m, rfl, hm⟩ := mkMap_perm h
  refine ⟨m, rfl, ?_⟩
  obtain ⟨al, ep, cp, fc, mp, rem⟩ := r
  cases ep with
  | none =>
    simp only [InfoResponse.options, List.nil_append] at hm
    refine ⟨?_, ?_, ?_, ?_⟩
    case refine_4 =>
      refine lookup_none hm fun e he => ?_
      simp only [List.map_cons, List.map_nil, List.mem_cons, List.not_mem_nil, or_false] at he
      rcases he with h|h|h|h|h|h|h|h|h|h <;> subst h <;> rfl
    all_goals
      refine lookup_map hm (fun e he => ?_) (by simp [Info.isNamed])
      simp only [List.map_cons, List.map_nil, List.mem_cons, List.not_mem_nil, or_false] at he
      rcases he with h|h|h|h|h|h|h|h|h|h <;> subst h <;> first | exact .inl rfl | exact .inr rfl
  | some ep =>
    simp only [InfoResponse.options, List.cons_append, List.nil_append] at hm
    refine ⟨?_, ?_, ?_, ?_⟩
    all_goals
      refine lookup_map hm (fun e he => ?_) (by simp [Info.isNamed])
      simp only [List.map_cons, List.map_nil, List.mem_cons, List.not_mem_nil, or_false] at he
      rcases he with h|h|h|h|h|h|h|h|h|h|h <;> subst h <;> first | exact .inl rfl | exact .inr rfl

theorem infoEp_ok {x : Option Bool} (h : infoEp s = (.ok x, s')) :
    x = Dev.epMode.map (fun _ => s.p.enterprise) ∧ ∃ e, s.env.Le e ∧ s' = { s with env := e } := by
  unfold infoEp at h
  cases he : Dev.epMode with
  | none =>
    simp only [he, pure_ok] at h
    obtain ⟨rfl, rfl⟩ := h
    exact ⟨rfl, _, .refl _, rfl⟩
  | some m =>
    simp only [he, enterpriseAttestation, bind_ok, pure_ok] at h
    obtain ⟨b, s1, ⟨p, s2, h1, rfl, rfl⟩, rfl, rfl⟩ := h
    obtain ⟨rfl, rfl⟩ := readP_ok h1
    exact ⟨rfl, _, Env.le_next _, rfl⟩

theorem remainingCredentials_ok {n : Nat} (h : remainingCredentials s = (.ok n, s')) :
    n = Dev.maxResidentKeys - s.stored.length ∧ ∃ e, s.env.Le e ∧ s' = { s with env := e } := by
  simp only [remainingCredentials, countCredentials, bind_ok, pure_ok] at h
  obtain ⟨k, s1, ⟨p, s2, h1, rfl, rfl⟩, h⟩ := h
  obtain ⟨rfl, rfl⟩ := readP_ok h1
  split at h
  · simp only [pure_ok] at h
    obtain ⟨rfl, rfl⟩ := h
    exact ⟨by rw [St.stored, List.length_map], _, Env.le_next _, rfl⟩
  · simp [fail] at h

/-- The values in the answer to GetInfo. -/
def St.info (s : St) : InfoResponse where
  alwaysUv := s.p.uvRequired
  ep := Dev.epMode.map fun _ => s.p.enterprise
  clientPin := s.p.pin.isSome
  forcePinChange := s.p.forcePinChange
  minPinLength := s.p.minPin
  remaining := Dev.maxResidentKeys - s.stored.length

/-- What GetInfo answers. -/
theorem getInfo_ok {r : Response} (h : getInfo s = (.ok r, s')) :
    r = .getInfo s.info ∧
    ∃ e, s.env.Le e ∧ s' = { s with env := e } := by
  simp only [getInfo, bind_ok, pure_ok] at h
  obtain ⟨al, s1, h1, ep, s2, h2, ph, s3, h3, f, s4, h4, m, s5, h5, n, s6, h6, rfl, rfl⟩ := h
  obtain ⟨rfl, e1, l1, rfl⟩ := hasAlwaysUv_ok h1
  obtain ⟨rfl, e2, l2, rfl⟩ := infoEp_ok h2
  obtain ⟨rfl, rfl⟩ := pinHash_ok h3
  obtain ⟨rfl, rfl⟩ := hasForce_ok h4
  obtain ⟨rfl, rfl⟩ := minPinLength_ok h5
  obtain ⟨rfl, e3, l3, rfl⟩ := remainingCredentials_ok h6
  refine ⟨?_, e3, (l1.trans l2).next.next.next.trans l3, rfl⟩
  simp [St.stored, St.info]

end
end Verif.Ctap
