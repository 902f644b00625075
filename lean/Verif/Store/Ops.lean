import Verif.Store.Find

/-!
# The operations of the store
-/
namespace Verif.Store

variable {F : Format}

/-- The storage after loss of power. -/
def Down (F : Format) (fl : Flash) (m : KV) : Prop := Comp F fl m ∨ Live F fl m

/-- The documented reasons to fail, when `u` words of the lifetime are used and `len` words of capacity are needed. -/
def Full (F : Format) (m : KV) (u len : Nat) (e : Err) : Prop :=
  (e = .noCapacity ∧ F.C < m.used + len) ∨ (e = .noLifetime ∧ F.totalLifetime < u + 2 * (F.N * F.Q))

section
variable {g : Geo} {slots : List Slot} {t len : Nat} {m : KV} {st : St}

theorem lifetime_bound (hF : Sizes F) {b t : Nat} (h : F.E * F.N + 2 ≤ b + F.N) (hb : b * F.Q ≤ t) : F.totalLifetime < t + 2 * (F.N * F.Q) := by
  have hn := hF.n3
  have hq := hF.q6
  have h1 : (F.E * F.N + 2) * F.Q ≤ (b + F.N) * F.Q := mul_mono h
  have h2 : F.totalLifetime = F.E * F.N * F.Q + (F.N - 1) * F.Q := by rw [Format.totalLifetime, ← Nat.add_mul, Nat.add_sub_assoc (by omega)]
  have h3 : (F.N - 1) * F.Q ≤ F.N * F.Q := mul_mono (by omega)
  rw [Nat.add_mul, Nat.add_mul] at h1
  omega

/-! ## Making room -/

theorem makeRoom_loop (hF : Sizes F) {b0 x : Nat} (h0 : 0 < len) (hlen : m.used + len ≤ F.C + 1) (hx : x + F.Q ≤ b0 * F.Q + F.N * F.Q) :
    (fuel : Nat) → ∀ (i : Nat) (g : Geo) (slots : List Slot) (t : Nat) (st : St), Good F st.fl g slots t m → Ents st g slots → g.b = b0 + i →
      i + 1 ≤ F.N → F.N ≤ fuel + i →
      ((g.h ≤ x ∧ x ≤ t ∧ t + liveTo slots x ≤ m.used + i + x) ∨ t ≤ g.h + i + m.used) →
    Tri (makeRoom F len fuel) st
      (fun _ st' => ∃ g' slots' t', Good F st'.fl g' slots' t' m ∧ Ents st' g' slots' ∧ t' + len ≤ g'.h + F.V)
      (fun e st' => e = .noLifetime ∧ F.E * F.N + 2 ≤ b0 + F.N ∧ Ready F st' m)
      (fun fl' => Down F fl' m)
  | 0, i, g, slots, t, st, _, _, _, h3, h4, _ => by omega
  | fuel + 1, i, g, slots, t, st, h, hE, h2, h3, h4, h5 => by
    have hc := hF.c
    have hlb := h.log.hb
    apply tri_bind
    refine const_tri (h.immediate hF hE) ?_
    split
    · rename_i hlt
      have hcase : g.h ≤ x ∧ x ≤ t ∧ t + liveTo slots x ≤ m.used + i + x := by
        rcases h5 with h5 | h5
        · exact h5
        · exfalso; omega
      have hi : i + 2 ≤ F.N := by
        apply Classical.byContradiction
        intro hi
        have hin : i + 1 = F.N := by omega
        have h6 : g.b * F.Q + F.Q = b0 * F.Q + F.N * F.Q := by
          rw [h2, Nat.add_mul, ← hin, succ_mul' (a := i)]; omega
        omega
      apply tri_bind
      refine tri_mono (compact_tri hF h.log (by rw [h.w]; exact le_erased _) h.items h.ne h.holds h.cap (i := true) hE) ?_ ?_ (fun _ h => h)
      · rintro _ st1 ⟨g', slots', t', e1, h6, h7, h8⟩
        refine makeRoom_loop hF h0 hlen hx fuel (i + 1) g' slots' t' st1 h6 h7 (by omega) (by omega) (by omega) ?_
        have hle := h8.le
        rcases h8.to x hcase.1 hcase.2.1 with ⟨h9, h10⟩ | ⟨h9, h10⟩
        · exact .inl ⟨h9, by omega, by omega⟩
        · exact .inr (by omega)
      · rintro e st1 ⟨h6, h7, rfl⟩
        exact ⟨h6, by omega, g, slots, t, h, hE⟩
    · rename_i hge
      exact tri_pure ⟨g, slots, t, h, hE, by omega⟩

theorem makeRoom_tri (hF : Sizes F) (h : Good F st.fl g slots t m) (hE : Ents st g slots) (h0 : 0 < len) (hlen : m.used + len ≤ F.C + 1) :
    Tri (makeRoom F len (roomFuel F)) st
      (fun _ st' => ∃ g' slots' t', Good F st'.fl g' slots' t' m ∧ Ents st' g' slots' ∧ t' + len ≤ g'.h + F.V)
      (fun e st' => e = .noLifetime ∧ F.totalLifetime < t + 2 * (F.N * F.Q) ∧ Ready F st' m)
      (fun fl' => Down F fl' m) := by
  have hb := h.cap.bound hF h.log.hM
  have hl := liveTo_le slots t
  rw [h.live_used] at hl
  have hle := h.log.chain.le
  have hlb := h.log.hb
  have hn := hF.n3
  refine tri_mono (makeRoom_loop hF h0 hlen (b0 := g.b) (x := t) (by omega) (roomFuel F) 0 g slots t st h hE rfl (by omega) ?_
    (.inl ⟨hle, Nat.le_refl _, by omega⟩)) (fun _ _ h => h) ?_ (fun _ h => h)
  · rw [roomFuel, Nat.add_mul]; omega
  · rintro e st' ⟨h1, h2, h3⟩
    exact ⟨h1, lifetime_bound hF h2 (by omega), h3⟩

theorem reserve_tri (hF : Sizes F) (h : Good F st.fl g slots t m) (hE : Ents st g slots) (h0 : 0 < len) :
    Tri (reserve F len) st
      (fun _ st' => m.used + len ≤ F.C ∧ ∃ g' slots' t', Good F st'.fl g' slots' t' m ∧ Ents st' g' slots' ∧ t' + len ≤ g'.h + F.V)
      (fun e st' => Full F m t len e ∧ Ready F st' m)
      (fun fl' => Down F fl' m) := by
  have hu := h.used_le
  apply tri_bind
  refine const_tri (h.remainingCapacity hF hE) ?_
  split
  · exact tri_fail ⟨.inl ⟨rfl, by omega⟩, g, slots, t, h, hE⟩
  · refine tri_mono (makeRoom_tri hF h hE h0 (by omega)) (fun _ _ h => ⟨by omega, h⟩) ?_ (fun _ h => h)
    rintro e st' ⟨h1, h2, h3⟩
    exact ⟨.inr ⟨h1, h2⟩, h3⟩

/-! ## Inserting -/

theorem Good.plain (h : Good F st.fl g slots t m) (hF : Sizes F) {fl' : Flash} {e q : Nat} (L : Log F fl' g slots t t e) (ht : TornTail F fl' t e)
    (h1 : e ≤ q) (h2 : q ≤ g.h + F.V) : Live F fl' m :=
  .plain ⟨g, slots, t, e, L, h.w, ht, fun s hs => .inl (h.items s hs), h.ne, h.holds,
    Cap.reset hF h.cap.live L.hM (Nat.le_trans L.chain.le L.te) (by omega)⟩

theorem insert_tri (hF : Sizes F) (h : Good F st.fl g slots t m) (hE : Ents st g slots) (k : Nat) (v : Bytes) :
    Tri (Store.insert F k v) st
      (fun _ st' => (k ≤ maxKey ∧ v.length ≤ F.maxValueLen) ∧ Ready F st' (m.put k (some v)))
      (fun e st' => ((e = .invalidArgument ∧ ¬ (k ≤ maxKey ∧ v.length ≤ F.maxValueLen)) ∨ Full F m t (1 + bytesToWords v.length) e) ∧ Ready F st' m)
      (fun fl' => Down F fl' m ∨ Down F fl' (m.put k (some v))) := by
  unfold Store.insert
  split
  · rename_i hbad
    exact tri_fail ⟨.inl ⟨rfl, by omega⟩, g, slots, t, h, hE⟩
  · rename_i hok
    have hk : k ≤ maxKey := by omega
    have hv : v.length ≤ F.maxValueLen := by omega
    obtain ⟨_, _, hbu, _⟩ := userWords_spec hF hk hv
    have hl := userWords_length hF hk hv
    apply tri_bind
    refine tri_liftE hbu ?_
    apply tri_bind
    rw [hl]
    refine tri_mono (reserve_tri hF h hE (by omega)) ?_ (fun _ _ h => ⟨.inr h.1, h.2⟩) (fun _ h => .inl h)
    rintro _ st1 ⟨hcap, g', slots', t', h1, hE1, hroom⟩
    have hM := h1.log.hM
    have hlb := h1.log.hb
    have hle := h1.log.chain.le
    have hwn := hF.wn
    have hvv := hF.v
    have hq : t' + 1 + bytesToWords v.length ≤ g'.h + F.V := by omega
    apply tri_bind
    refine const_tri (h1.tail hF) ?_
    apply tri_bind
    have hcap' : Cap F g' (slots' ++ [⟨t', t' + 1 + bytesToWords v.length, .user k v⟩]) (t' + 1 + bytesToWords v.length) := by
      refine Cap.reset hF ?_ hM (by omega) hq
      rw [live_append, h1.live_used]
      simp only [live, Slot.live, List.map_cons, List.map_nil, List.sum_cons, List.sum_nil]
      omega
    have hins : ∀ fl' c, Log F fl' g' (slots' ++ [⟨t', t' + 1 + bytesToWords v.length, .user k v⟩]) (t' + 1 + bytesToWords v.length) c (t' + 1 + bytesToWords v.length) →
        Inserted F fl' g' slots' ⟨t', t' + 1 + bytesToWords v.length, .user k v⟩ c k v m := fun fl' c L =>
      ⟨L, rfl, h1.w, h1.items, h1.holds, hcap'⟩
    refine tri_fls (h1.log.writeUser hF hk hv (by omega)) ?_ ?_
    · intro _ st2 e1 e2 L2
      obtain ⟨hh, es, he, hp⟩ := hE1
      have hd := h1.cap.bound hF hM
      have hnq := hF.nq
      apply tri_bind
      refine tri_pushEntry (e1.trans hh) (by omega) (by omega) ?_
      have := insertInit_tri hF (st := { st2 with entries := st2.entries.map (· ++ [t' - g'.h]) }) (hins _ _ L2) (es := es) (e1.trans hh)
        (by show st2.entries.map _ = _; rw [e2, he]; rfl) hp
      simp only at this
      rw [show t' + 1 + bytesToWords v.length - t' - 1 = 1 + bytesToWords v.length - 1 by omega] at this
      refine tri_mono this ?_ (fun _ _ h => h.elim) (fun _ h => .inr (.inr h))
      rintro _ st3 ⟨sl, h2, h3⟩
      exact ⟨⟨hk, hv⟩, g', sl, _, h2, h3⟩
    · rintro fl' (⟨e', L, hT, hle'⟩ | L)
      · exact .inl (.inr (h1.plain hF L hT hle' hq))
      · exact .inr (.inr (.ins (hins _ _ L) rfl))

/-! ## Removing -/

theorem remove_tri (hF : Sizes F) (h : Good F st.fl g slots t m) (hE : Ents st g slots) (k : Nat) :
    Tri (Store.remove F k) st
      (fun _ st' => k ≤ maxKey ∧ Ready F st' (m.put k none))
      (fun e st' => (e = .invalidArgument ∧ ¬ k ≤ maxKey) ∧ Ready F st' m)
      (fun fl' => Down F fl' m ∨ Down F fl' (m.put k none)) := by
  unfold Store.remove
  split
  · rename_i hbad
    exact tri_fail ⟨⟨rfl, by omega⟩, g, slots, t, h, hE⟩
  · rename_i hok
    apply tri_bind
    refine const_tri (h.tail hF) ?_
    have L : Log F st.fl g (slots ++ []) t t t := by rw [List.append_nil]; exact h.log
    have hlt : ∀ sl ∈ slots, sl.p < t := fun sl hsl => by
      have := h.log.chain.mem sl hsl
      omega
    refine tri_mono (deleteIf_all hF (del := fun k' => [k].contains k') (stop := t) L hE (fun sl hsl _ _ _ => hlt sl hsl)) ?_ (fun _ _ h => h.elim) ?_
    · rintro _ st' ⟨slots', h1, h2, h3, h4⟩
      rw [List.append_nil] at h2
      refine ⟨by omega, g, slots', t, ⟨h2, h.w, UP.pads h1 h.items, h.ne, ?_, h.cap.pads h1⟩, h3⟩
      have := h.holds.pads_all h1 (fun sl hsl k' v' hi => by
        cases hd : [k].contains k' with
        | false => rfl
        | true =>
          have := h2.chain.mem sl hsl
          exact absurd ⟨by omega, k', v', hi, hd⟩ (h4 sl hsl))
      have e : m.put k none = fun k' => if [k].contains k' = true then none else m k' := by
        funext k'
        unfold KV.put
        by_cases hk : k' = k
        · rw [if_pos hk, if_pos (by simp [hk])]
        · rw [if_neg hk, if_neg (by simpa using hk)]
      rw [e]; exact this
    · rintro fl' ⟨slots', h1, h2⟩
      rw [List.append_nil] at h2
      obtain ⟨m', h3, h4⟩ := h.holds.pads h1
      have hg : Good F fl' g slots' t m' := ⟨h2, h.w, UP.pads h1 h.items, h.ne, h3, h.cap.pads h1⟩
      have h4' : ∀ k', k' ≠ k → m' k' = m k' := fun k' hk => h4 k' (by simpa using hk)
      cases hm : m' k with
      | none =>
        right; right
        have : m' = m.put k none := by
          funext k'
          unfold KV.put
          by_cases hk : k' = k
          · rw [if_pos hk, hk, hm]
          · rw [if_neg hk]; exact h4' k' hk
        rw [← this]; exact hg.live
      | some v =>
        left; right
        have : m' = m := by
          funext k'
          by_cases hk : k' = k
          · rw [hk, hm]
            exact ((h.holds.iff k v).2 (h1.sublist.subset ((h3.iff k v).1 hm))).symm
          · exact h4' k' hk
        rw [← this]; exact hg.live

/-! ## Clearing -/

theorem clear_tri (hF : Sizes F) (h : Good F st.fl g slots t m) (hE : Ents st g slots) (mk : Nat) :
    Tri (Store.clear F mk) st
      (fun _ st' => mk ≤ maxKey ∧ Ready F st' (m.clear mk))
      (fun e st' => ((e = .invalidArgument ∧ ¬ mk ≤ maxKey) ∨ Full F m t 0 e) ∧ Ready F st' m)
      (fun fl' => Down F fl' m ∨ Down F fl' (m.clear mk)) := by
  unfold Store.clear
  split
  · rename_i hbad
    exact tri_fail ⟨.inl ⟨rfl, by omega⟩, g, slots, t, h, hE⟩
  · rename_i hok
    have hin : (Internal.clear mk).InRange F := decide_eq_false hok
    have hu := h.used_le
    apply tri_bind
    refine tri_liftE (intWord_spec hF hin).1 ?_
    apply tri_bind
    refine tri_mono (makeRoom_tri hF h hE (len := 1) (by omega) (by omega)) ?_ (fun _ _ h => ⟨.inr (.inr ⟨h.1, h.2.1⟩), h.2.2⟩) (fun _ h => .inl h)
    rintro _ st1 ⟨g', slots', t', h1, hE1, hroom⟩
    have hM := h1.log.hM
    have hlb := h1.log.hb
    have hle := h1.log.chain.le
    have hwn := hF.wn
    have hvv := hF.v
    apply tri_bind
    refine const_tri (h1.tail hF) ?_
    apply tri_bind
    have hcap' : Cap F g' (slots' ++ [⟨t', t' + 1, .int (.clear mk)⟩]) (t' + 1) := by
      refine Cap.reset hF ?_ hM (by omega) hroom
      rw [live_append]
      have : live [⟨t', t' + 1, Item.int (.clear mk)⟩] = 0 := rfl
      rw [this, Nat.add_zero]; exact h1.cap.live
    have hclr : ∀ fl' c, Log F fl' g' (slots' ++ [⟨t', t' + 1, .int (.clear mk)⟩]) (t' + 1) c (t' + 1) →
        Cleared F fl' g' slots' ⟨t', t' + 1, .int (.clear mk)⟩ c mk m := fun fl' c L =>
      ⟨L, rfl, h1.w, h1.items, h1.holds, hcap'⟩
    refine tri_fls (h1.log.writeInt hF hin (by omega)) ?_ ?_
    · intro _ st2 e1 e2 L2
      refine tri_mono (clearDelete_tri hF (hclr _ _ L2) (hE1.congr e1 e2 rfl)) ?_ (fun _ _ h => h.elim) (fun _ h => .inr (.inr h))
      rintro _ st3 ⟨sl, h2, h3⟩
      exact ⟨by omega, g', sl, _, h2, h3⟩
    · rintro fl' (⟨e', L, hT, hle'⟩ | L)
      · exact .inl (.inr (h1.plain hF L hT hle' hroom))
      · exact .inr (.inr (.clr (hclr _ _ L) rfl))

/-! ## Preparing -/

theorem prepare_tri (hF : Sizes F) (h : Good F st.fl g slots t m) (hE : Ents st g slots) (n : Nat) :
    Tri (Store.prepare F n) st
      (fun _ st' => Ready F st' m)
      (fun e st' => Full F m t n e ∧ Ready F st' m)
      (fun fl' => Down F fl' m) := by
  have hu := h.used_le
  apply tri_bind
  refine const_tri (h.remainingCapacity hF hE) ?_
  split
  · exact tri_fail ⟨.inl ⟨rfl, by omega⟩, g, slots, t, h, hE⟩
  · apply tri_bind
    refine const_tri (h.immediate hF hE) ?_
    unfold compactIf
    split
    · refine tri_mono (compact_tri hF h.log (by rw [h.w]; exact le_erased _) h.items h.ne h.holds h.cap (i := true) hE) ?_ ?_ (fun _ h => h)
      · rintro _ st1 ⟨g', slots', t', _, h6, h7, _⟩
        exact ⟨g', slots', t', h6, h7⟩
      · rintro e st1 ⟨h6, h7, rfl⟩
        have hlb := h.log.hb
        have hle := h.log.chain.le
        have hn := hF.n3
        exact ⟨.inr ⟨h6, lifetime_bound hF (b := g.b) (by omega) (by omega)⟩, g, slots, t, h, hE⟩
    · exact tri_pure ⟨g, slots, t, h, hE⟩

end
end Verif.Store
