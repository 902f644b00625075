import Verif.Cbor.LemmasMap

/-! # Properties C01–C05: canonical CBOR -/
namespace Verif.Cbor

/-- A non-trivial value used in the examples: `{1: h'00ff', -2: ["é", {}, 7(true)], "k": 65536}`. -/
def exampleValue : Value :=
  .map [(.unsigned 1, .bytes [0x00, 0xff]),
    (.negative (-2), .array [.text [0xC3, 0xA9], .map [], .tag 7 (.simple .true_)]),
    (.text [0x6B], .unsigned 65536)]

theorem exampleValue_WF : exampleValue.WF 32 := by
  have h1 : ∀ c ∈ [0xE9], Utf8.IsScalar c := by simp [Utf8.IsScalar]
  have h2 : ∀ c ∈ [0x6B], Utf8.IsScalar c := by simp [Utf8.IsScalar]
  simp only [exampleValue, Value.WF, Value.WFMap, Value.WFList]
  refine ⟨by decide, ⟨by decide, by decide, ⟨by decide, by decide⟩, ⟨by decide, ⟨by decide, _, h1, rfl⟩,
    ⟨by decide, trivial, by simp⟩, ⟨by decide, trivial⟩, trivial⟩, ⟨by decide, _, h2, rfl⟩,
    by decide, trivial⟩, ?_⟩
  simp [Value.enc, head, LexLt]

/-- **C01**. Every representable value is accepted by the writer exactly if its nesting depth is within the
limit; the bytes written are read back, with the same limit, as the same value. -/
theorem C01_read_write {w : Nat} (hw : w ≤ 64) (v : Value) (d : Depth) (hv : v.WF w) :
    ((∃ bs, writeNested v d = .ok bs) ↔ d.allows v.depth)
    ∧ ∀ bs, writeNested v d = .ok bs → readNested w bs d = .ok v := by
  refine ⟨⟨fun ⟨bs, h⟩ => write_ok_depth v d bs h, fun h => ⟨_, write_ok hw v d hv h⟩⟩, ?_⟩
  intro bs h
  have hd := write_ok_depth v d bs h
  have h' := write_ok hw v d hv hd
  unfold writeNested at h
  rw [h'] at h
  cases h
  have := decodeItem_enc hw v (v.enc.length + 1) d [] hv hd (by have := depth_lt_enc_length v; omega)
  rw [List.append_nil] at this
  rw [readNested, this]; rfl

example : exampleValue.WF 32 ∧ Depth.allows (some 4) exampleValue.depth ∧ ¬ Depth.allows (some 1) exampleValue.depth :=
  ⟨exampleValue_WF, by simp [Depth.allows, exampleValue, Value.depth, Value.depthMap, Value.depthList],
    by simp [Depth.allows, exampleValue, Value.depth, Value.depthMap, Value.depthList]⟩

/-- The bytes written are the canonical encoding of the specification. -/
theorem C01_write_canonical {w : Nat} (hw : w ≤ 64) (v : Value) (d : Depth) (hv : v.WF w)
    (hd : d.allows v.depth) : writeNested v d = .ok v.enc := write_ok hw v d hv hd

/-- **C01**, construction of maps: building a map from entries with pairwise different keys succeeds, gives a
representable value and keeps exactly the given entries; with two equal keys it panics (`none`). -/
theorem C01_mkMap {w : Nat} (hw : w ≤ 64) (m : List (Value × Value))
    (hm : ∀ e ∈ m, e.1.WF w ∧ e.2.WF w) (hl : m.length < 2 ^ 64) :
    (m.Pairwise (fun a b => a.1 ≠ b.1) → ∃ s, mkMap m = some (.map s) ∧ s.Perm m ∧ (Value.map s).WF w)
    ∧ (¬ m.Pairwise (fun a b => a.1 ≠ b.1) → mkMap m = none) := by
  obtain ⟨h1, h2⟩ := sortEntries_aux hw m [] (fun x hx => (hm x hx).1) (by simp) List.Pairwise.nil
  have hp : (sortEntries m).Perm m := by simpa [sortEntries] using h2
  have hwf : ∀ x ∈ sortEntries m, x.1.WF w := fun x hx => (hm x (hp.mem_iff.1 hx)).1
  have hd := hasDup_false hw hwf h1
  have hne : (sortEntries m).Pairwise (fun a b => a.1 ≠ b.1) ↔ m.Pairwise (fun a b => a.1 ≠ b.1) :=
    hp.pairwise_iff (fun h => h.symm)
  constructor
  · intro h
    have hlt : (sortEntries m).Pairwise (fun a b => LexLt a.1.enc b.1.enc) := by
      refine (List.Pairwise.and h1 (hne.2 h)).imp_of_mem ?_
      intro a b ha hb hab
      rcases LexLt.total a.1.enc b.1.enc with h | h | h
      · exact h
      · exact absurd (enc_inj hw (hwf a ha) (hwf b hb) h) hab.2
      · exact absurd h hab.1
    refine ⟨sortEntries m, ?_, hp, ?_⟩
    · simp [mkMap, hd.2 hlt]
    · refine ⟨hp.length_eq ▸ hl, WFMap_iff.2 (fun e he => hm e (hp.mem_iff.1 he)), hlt⟩
  · intro h
    have : hasDup (sortEntries m) = true := by
      cases hc : hasDup (sortEntries m) with
      | true => rfl
      | false =>
      exfalso
      refine h (hne.1 ((hd.1 hc).imp ?_))
      intro a b hab e
      rw [e] at hab
      exact LexLt.irrefl _ hab
    simp [mkMap, this]

example : mkMap [(.text [0x6B], .unsigned 1), (.unsigned 3, .unsigned 2)]
    = some (.map [(.unsigned 3, .unsigned 2), (.text [0x6B], .unsigned 1)]) := by rfl
example : mkMap [(.unsigned 3, .unsigned 1), (.unsigned 3, .unsigned 2)] = none := by rfl

/-- **C02** (partial: targets with 64-bit `usize`). Whatever the reader accepts is the canonical encoding of
the value it returns, and writing the value back gives the same bytes.

The full property (every target) is false: see `C02_false_usize32`. -/
theorem C02_read_canonical_partial (bs : Bytes) (d : Depth) (v : Value) (h : readNested 64 bs d = .ok v) :
    bs = v.enc ∧ v.WF 64 ∧ writeNested v d = .ok bs := by
  unfold readNested at h
  rw [bind_ok] at h
  obtain ⟨⟨v', r⟩, h1, h2⟩ := h
  simp only at h2
  split at h2
  · next hr =>
    simp at h2; subst h2
    obtain ⟨⟨p, _, e1, e2⟩, e3, e4⟩ := decodeItem_ok (Nat.le_refl 64) _ _ _ _ _ h1
    have : r = [] := by simpa using hr
    subst this
    have hb : bs = v'.enc := by rw [e1, e2 rfl]; simp
    exact ⟨hb, e3, hb ▸ write_ok (Nat.le_refl 64) v' d e3 e4⟩
  · simp at h2

/-- **C02**, injectivity (partial: 64-bit `usize`): two byte strings decoding to the same value are equal. -/
theorem C02_read_injective_partial (bs bs' : Bytes) (d d' : Depth) (v : Value)
    (h : readNested 64 bs d = .ok v) (h' : readNested 64 bs' d' = .ok v) : bs = bs' := by
  rw [(C02_read_canonical_partial bs d v h).1, (C02_read_canonical_partial bs' d' v h').1]

example : readNested 64 [0x82, 0x01, 0x20] (some 4) = .ok (.array [.unsigned 1, .negative (-1)]) := by rfl

/-- On a target with 32-bit `usize` (all supported boards), C02 is false: the cast `size_value as usize`
truncates a 64-bit length, so a byte string of announced length `2^32` is accepted as the empty string. -/
theorem C02_false_usize32 :
    readNested 32 [0x5B, 0, 0, 0, 1, 0, 0, 0, 0] (some 4) = .ok (.bytes [])
    ∧ readNested 32 [0x40] (some 4) = .ok (.bytes [])
    ∧ writeNested (.bytes []) (some 4) = .ok [0x40] := by
  refine ⟨?_, rfl, rfl⟩
  simp [readNested, decodeItem, readVariadic, readBytes, beNat, Depth.exhausted, bind, Except.bind]

/-- What remains true on every target: the value returned is representable and its canonical encoding decodes
to it as well. -/
theorem C02_any_usize_partial {w : Nat} (hw : w ≤ 64) (bs : Bytes) (d : Depth) (v : Value)
    (h : readNested w bs d = .ok v) : v.WF w ∧ writeNested v d = .ok v.enc ∧ readNested w v.enc d = .ok v := by
  unfold readNested at h
  rw [bind_ok] at h
  obtain ⟨⟨v', r⟩, h1, h2⟩ := h
  simp only at h2
  split at h2
  · simp at h2; subst h2
    obtain ⟨_, e3, e4⟩ := decodeItem_ok hw _ _ _ _ _ h1
    have hwr := write_ok hw v' d e3 e4
    exact ⟨e3, hwr, (C01_read_write hw v' d e3).2 _ hwr⟩
  · simp at h2

/-- **C03**. The reader never exhausts the model's fuel (so the model is the Rust function, which recurses
without fuel), and the depth of a returned value respects the limit. -/
theorem C03_read_total {w : Nat} (hw : w ≤ 64) (bs : Bytes) (d : Depth) :
    readNested w bs d ≠ .error .outOfFuel
    ∧ ∀ v, readNested w bs d = .ok v → d.allows v.depth := by
  constructor
  · intro h
    unfold readNested at h
    rw [bind_error] at h
    rcases h with h | ⟨⟨v, r⟩, _, h⟩
    · exact decodeItem_not_fuel hw _ _ _ (Nat.lt_succ_self _) h
    · simp only at h; split at h <;> simp at h
  · intro v h
    exact write_ok_depth v d _ (C02_any_usize_partial hw bs d v h).2.1

/-- **C03**, stack bound: with a nesting limit `d`, decoding needs recursion depth at most `d + 2`, whatever the
input: the recursion cut off at depth `d + 2` gives the same result. -/
theorem C03_recursion_bound (w : Nat) (d : Nat) (bs : Bytes) (depth : Nat) (h : d + 2 ≤ depth) :
    decodeItem w depth (some d) bs = decodeItem w (d + 2) (some d) bs := by
  rw [decodeItem_fuel_eq w depth (d + 2) d (by omega) (by omega) (by omega) (by omega)]

/-- **C03**, no reading outside the input: the unread rest is a suffix of the input. -/
theorem C03_suffix {w : Nat} (hw : w ≤ 64) (fuel : Nat) (d : Depth) (bs : Bytes) (v : Value) (r : Bytes)
    (h : decodeItem w fuel d bs = .ok (v, r)) : r <:+ bs ∧ r.length < bs.length := by
  have hk := decodeItem_ok hw _ _ _ _ _ h
  obtain ⟨p, _, e, _⟩ := hk.1
  exact ⟨⟨p, e.symm⟩, hk.length⟩

example : readNested 32 [0x81, 0x81, 0x81, 0x01] (some 2) = .error .tooMuchNesting := by rfl
example : readNested 32 [0x81, 0x81, 0x81, 0x01] (some 3)
    = .ok (.array [.array [.array [.unsigned 1]]]) := by rfl

/-- **C04**. The order used for map keys is the bytewise lexicographic order of the canonical encodings. -/
theorem C04_cmp_is_encoding_order {w : Nat} (hw : w ≤ 64) (a b : Value) (ha : a.WF w) (hb : b.WF w) :
    (a.cmp b = .lt ↔ LexLt a.enc b.enc) ∧ (a.cmp b = .eq ↔ a = b) ∧ (a.cmp b = .gt ↔ LexLt b.enc a.enc) :=
  ⟨cmp_lt_iff hw ha hb, cmp_eq_iff hw ha hb, cmp_gt_iff hw ha hb⟩

/-- **C04**. It is a strict total order. -/
theorem C04_total_order {w : Nat} (hw : w ≤ 64) :
    (∀ a : Value, a.WF w → a.cmp a = .eq)
    ∧ (∀ a b : Value, a.WF w → b.WF w → (a.cmp b).swap = b.cmp a)
    ∧ (∀ a b c : Value, a.WF w → b.WF w → c.WF w → a.cmp b = .lt → b.cmp c = .lt → a.cmp c = .lt) := by
  refine ⟨fun a ha => (cmp_eq_iff hw ha ha).2 rfl, ?_, ?_⟩
  · intro a b ha hb
    rw [cmp_eq_cmpBytes hw ha hb, cmp_eq_cmpBytes hw hb ha, cmpBytes_swap]
  · intro a b c ha hb hc h1 h2
    rw [cmp_lt_iff hw ha hb] at h1
    rw [cmp_lt_iff hw hb hc] at h2
    rw [cmp_lt_iff hw ha hc]
    exact h1.trans h2

example : (Value.text [0x62]).cmp (.text [0x61, 0x61]) = .lt ∧ (Value.negative (-1)).cmp (.unsigned 1000) = .gt := ⟨rfl, rfl⟩

/-- **C05**. Destructuring a decoded map by increasing keys gives each variable exactly the value stored under
its key, or `none` if the key is absent. -/
theorem C05_destructure {w : Nat} (hw : w ≤ 64) (m : List (Value × Value)) (ks : List Value)
    (hm : (Value.map m).WF w) (hk : ∀ k ∈ ks, k.WF w) (hs : ks.Pairwise (fun a b => a.cmp b = .lt)) :
    (destructure ks m).length = ks.length
    ∧ ∀ i (hi : i < ks.length) (v : Value), (destructure ks m)[i]? = some (some v) ↔ (ks[i], v) ∈ m := by
  refine destructure_spec_aux hw ks m hk ?_ (fun x hx => (WFMap_iff.1 hm.2.1 x hx).1) hm.2.2
  exact hs.imp_of_mem (fun ha hb h => (cmp_lt_iff hw (hk _ ha) (hk _ hb)).1 h)

example : destructure [.unsigned 1, .unsigned 2, .text [0x6B]]
    [(.unsigned 0, .unsigned 9), (.unsigned 1, .bytes [1]), (.negative (-2), .unsigned 8), (.text [0x6B], .unsigned 7)]
    = [some (.bytes [1]), none, some (.unsigned 7)] := by rfl

end Verif.Cbor
