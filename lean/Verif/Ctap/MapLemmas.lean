import Verif.Ctap.KeyLemmas
import Verif.Ctap.DataFormats

/-!
# Maps that are written are read back
-/
namespace Verif.Ctap
open Verif.Cbor (Value)
variable [Dev]

theorem depthMap_lt {m : List (Value × Value)} {n : Nat} (h : ∀ e ∈ m, e.1.depth < n ∧ e.2.depth < n) : Value.depthMap m ≤ n := by
  induction m with
  | nil => exact Nat.zero_le _
  | cons e l ih =>
    obtain ⟨k, v⟩ := e
    have h1 := h (k, v) (List.mem_cons_self ..)
    have h2 := ih fun e he => h e (List.mem_cons_of_mem _ he)
    simp only [Value.depthMap]
    dsimp only at h1
    omega

theorem depthList_lt {l : List Value} {n : Nat} (h : ∀ e ∈ l, e.depth < n) : Value.depthList l ≤ n := by
  induction l with
  | nil => exact Nat.zero_le _
  | cons e l ih =>
    have h1 := h e (List.mem_cons_self ..)
    have h2 := ih fun e he => h e (List.mem_cons_of_mem _ he)
    simp only [Value.depthList]
    omega

/-- What is written is read back. -/
theorem read_written {v : Value} (hv : v.WF Dev.wordBits) (hd : v.depth ≤ 4) : ∃ b, cborWrite v = .ok b ∧ cborRead b = .ok v := by
  obtain ⟨h1, h2⟩ := Verif.Cbor.C01_read_write w_le v (some 4) hv
  obtain ⟨b, h3⟩ := h1.2 (by simp only [Verif.Cbor.Depth.allows]; omega)
  refine ⟨b, ?_, ?_⟩
  · unfold Verif.Cbor.writeNested at h3
    simp only [cborWrite, h3]
  · simp only [cborRead, h2 b h3]

/-- What `cbor_map_options!` builds is taken apart into the same parts. -/
theorem mapOptions_parts {es : List (Value × Option Value)} (hl : es.length < 2 ^ 64) (hk : ∀ e ∈ es, e.1.WF Dev.wordBits)
    (hv : ∀ e ∈ es, ∀ v, e.2 = some v → v.WF Dev.wordBits) (hs : (es.map (·.1)).Pairwise fun a b => a.cmp b = .lt) :
    ∃ m, cborMapOptions es = some (.map m) ∧ (Value.map m).WF Dev.wordBits ∧
      (∀ k v, (k, v) ∈ m ↔ (k, some v) ∈ es) ∧ Verif.Cbor.destructure (es.map (·.1)) m = es.map (·.2) := by
  have hmem : ∀ k v, (k, v) ∈ es.filterMap (fun e => e.2.map fun v => (e.1, v)) ↔ (k, some v) ∈ es := by
    intro k v
    simp only [List.mem_filterMap, Option.map_eq_some_iff, Prod.mk.injEq]
    constructor
    · rintro ⟨⟨k', o⟩, h1, v', h2, rfl, rfl⟩
      dsimp only at h2
      subst h2
      exact h1
    · exact fun h => ⟨_, h, v, rfl, rfl, rfl⟩
  have hlen : (es.filterMap fun e => e.2.map fun v => (e.1, v)).length < 2 ^ 64 := Nat.lt_of_le_of_lt (List.length_filterMap_le ..) hl
  have hlt : es.Pairwise fun a b => Verif.Cbor.LexLt a.1.enc b.1.enc := by
    rw [List.pairwise_map] at hs
    exact hs.imp_of_mem fun ha hb h => (Verif.Cbor.cmp_lt_iff w_le (hk _ ha) (hk _ hb)).1 h
  have hne : (es.filterMap fun e => e.2.map fun v => (e.1, v)).Pairwise fun a b => a.1 ≠ b.1 := by
    rw [List.pairwise_filterMap]
    refine hlt.imp fun {a b} h x hx y hy => ?_
    simp only [Option.map_eq_some_iff] at hx hy
    obtain ⟨_, _, rfl⟩ := hx
    obtain ⟨_, _, rfl⟩ := hy
    intro he
    dsimp only at he
    rw [he] at h
    exact Verif.Cbor.LexLt.irrefl _ h
  obtain ⟨m, h1, h2, h3⟩ := (Verif.Cbor.C01_mkMap w_le _ (fun e he => by
    obtain ⟨k, v⟩ := e
    have := (hmem k v).1 he
    exact ⟨hk _ this, hv _ this v rfl⟩) hlen).1 hne
  have h4 : ∀ k v, (k, v) ∈ m ↔ (k, some v) ∈ es := fun k v => (h2.mem_iff).trans (hmem k v)
  refine ⟨m, h1, h3, h4, ?_⟩
  obtain ⟨h5, h6⟩ := Verif.Cbor.C05_destructure w_le m (es.map (·.1)) h3 (by
    intro k hk'
    obtain ⟨e, he, rfl⟩ := List.mem_map.1 hk'
    exact hk e he) hs
  refine List.ext_getElem (by rw [h5]; simp) fun i hi hi' => ?_
  rw [List.length_map] at hi'
  have h7 := h6 i (by simpa using hi')
  have hkey : ∀ v, (es[i].1, some v) ∈ es ↔ es[i].2 = some v := by
    intro v
    constructor
    · intro hm
      obtain ⟨j, hj, he⟩ := List.getElem_of_mem hm
      have : j = i := by
        rw [List.pairwise_iff_getElem] at hlt
        rcases Nat.lt_trichotomy j i with hji | hji | hji
        · have := hlt j i hj hi' hji
          rw [he] at this
          exact absurd this (Verif.Cbor.LexLt.irrefl _)
        · exact hji
        · have := hlt i j hi' hj hji
          rw [he] at this
          exact absurd this (Verif.Cbor.LexLt.irrefl _)
      subst this
      rw [he]
    · intro he
      have := List.getElem_mem hi'
      rw [show es[i] = (es[i].1, es[i].2) from rfl, he] at this
      exact this
  rw [List.getElem_map]
  have h8 : (Verif.Cbor.destructure (es.map (·.1)) m)[i]? = some (Verif.Cbor.destructure (es.map (·.1)) m)[i] := List.getElem?_eq_getElem hi
  cases hd : (Verif.Cbor.destructure (es.map (·.1)) m)[i] with
  | some v =>
    have := (h7 v).1 (by rw [h8, hd])
    rw [h4, List.getElem_map, hkey] at this
    exact this.symm
  | none =>
    cases he : es[i].2 with
    | none => rfl
    | some v =>
      have := (h7 v).2 (by rw [h4, List.getElem_map, hkey]; exact he)
      rw [h8, hd] at this
      cases this

end Verif.Ctap
