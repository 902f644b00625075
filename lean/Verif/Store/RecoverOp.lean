import Verif.Store.Walk

/-!
# Recovery: completing the last operation
-/
namespace Verif.Store

variable {F : Format}

theorem Holds.unsnoc {s1 : List Slot} {s : Slot} {k : Nat} {v : Bytes} {m : KV} (h : Holds (s1 ++ [s]) m) (hi : s.it = .user k v) :
    Holds s1 (m.put k none) ∧ m = (m.put k none).put k (some v) := by
  have he : uents (s1 ++ [s]) = uents s1 ++ [(k, v)] := by rw [uents_append]; simp [uents, Slot.ent, hi]
  have hnd := h.nodup
  rw [he, List.map_append, List.nodup_append] at hnd
  refine ⟨⟨hnd.1, fun k' v' => ?_⟩, ?_⟩
  · have hm := h.iff k' v'
    rw [he, List.mem_append, List.mem_singleton] at hm
    unfold KV.put
    by_cases hk : k' = k
    · rw [if_pos hk]
      constructor
      · intro h1; cases h1
      · intro h1
        exact absurd hk (hnd.2.2 k' (List.mem_map.2 ⟨(k', v'), h1, rfl⟩) k (by simp))
    · rw [if_neg hk, hm]
      constructor
      · rintro (h1 | h1)
        · exact h1
        · exact absurd (Prod.mk.inj h1).1 hk
      · exact .inl
  · funext k'
    unfold KV.put
    by_cases hk : k' = k
    · rw [if_pos hk, hk]
      exact (h.iff k v).2 (by rw [he]; simp)
    · rw [if_neg hk, if_neg hk]

theorem pad_not_user {ns : List Slot} (h : ∀ s ∈ ns, s.it = .pad) : ∀ s ∈ ns, ∀ k v, s.it ≠ .user k v := fun s hs k v e => by
  rw [h s hs] at e; cases e

theorem Cap.append_pads {g : Geo} {slots ns : List Slot} {t : Nat} (h : Cap F g slots t) (hn : ∀ s ∈ ns, s.it = .pad) : Cap F g (slots ++ ns) t := by
  obtain ⟨x, i, h1, h2, h3, h4, h5, h6⟩ := h.ex
  have h7 := live_none (pad_not_user hn)
  have h8 := liveTo_le ns x
  refine ⟨by rw [live_append, h7]; exact h.live, x, i, h1, h2, h3, ?_, h5, h6⟩
  rw [liveTo_append]; omega

theorem Good.of_wiped (hF : Sizes F) {fl : Flash} {g : Geo} {slots : List Slot} {e : Nat} {m : KV} (hw : g.w = erasedWord) (hi : ∀ s ∈ slots, UP s)
    (hH : Holds slots m) (hc : Cap F g slots e) (h : Wiped F fl g slots e) : ∃ ns, Good F fl g (slots ++ ns) e m ∧ upos (slots ++ ns) = upos slots := by
  obtain ⟨ns, h1, h2, L⟩ := h
  refine ⟨ns, ⟨L, hw, ?_, fun _ => ?_, hH.append_pads (uents_none (pad_not_user h1)), hc.append_pads h1⟩, ?_⟩
  · intro s hs
    rcases List.mem_append.1 hs with h3 | h3
    · exact hi s h3
    · exact .inl (h1 s h3)
  · obtain ⟨s, hs⟩ := List.exists_mem_of_ne_nil ns h2
    have := L.chain.mem s (by simp [hs])
    omega
  · rw [upos_append, upos_none (pad_not_user h1), List.append_nil]

/-- The end of the log when the last operation did not write more than a part of an entry. -/
theorem endPlain_tri (hF : Sizes F) {st : St} {g : Geo} {slots : List Slot} {t e stop fuel prev : Nat} {m : KV} (L : LogT F st.fl g slots t t e)
    (hw : g.w = erasedWord) (hi : ∀ s ∈ slots, UP s) (hne : g.b ≠ 0 → g.h < t) (hH : Holds slots m) (hc : Cap F g slots e) (hE : Ents st g slots)
    (h1 : t < stop) (h2 : stop ≤ t + fuel) (hprev : e = t → ∃ r q, parseEntry F st.fl prev = .ok (r, q) ∧ ∀ h, r ≠ .user h) :
    Tri (operationLoop F stop fuel t prev) st (fun _ st' => Ready F st' m) (fun _ _ => False) (fun fl' => Live F fl' m) := by
  obtain ⟨f, rfl⟩ : ∃ f, fuel = f + 1 := ⟨fuel - 1, by omega⟩
  have hbd := hc.bound hF L.log.hM
  rw [operationLoop, if_pos h1]
  apply tri_bind
  apply tri_bind
  refine tri_getFl ?_
  have hcrash : ∀ fl', ((Log F fl' g slots t t e ∧ TornTail F fl' t e) ∨ Wiped F fl' g slots e) → Live F fl' m := by
    rintro fl' (⟨L', h'⟩ | h')
    · exact .plain ⟨g, slots, t, e, L', hw, h', fun s hs => .inl (hi s hs), hne, hH, hc⟩
    · obtain ⟨ns, hG, _⟩ := Good.of_wiped hF hw hi hH hc h'
      exact hG.live
  have hready : ∀ st' : St, st'.head = st.head → st'.entries = st.entries → Wiped F st'.fl g slots e → Ready F st' m := by
    intro st' e1 e2 h'
    obtain ⟨ns, hG, hu⟩ := Good.of_wiped hF hw hi hH hc h'
    exact ⟨g, _, _, hG, hE.congr e1 e2 hu⟩
  rcases L.parse_end hF hbd.2 with ⟨he, hp⟩ | ⟨l, he, hb, hp⟩ | ⟨n, he, hb, hp⟩
  · refine tri_liftE hp ?_
    show Tri (finishInsert F prev) st _ _ _
    apply tri_bind
    apply tri_bind
    refine tri_getFl ?_
    obtain ⟨r, q, hr, hu⟩ := hprev he
    refine tri_liftE hr ?_
    subst he
    have hfin : Ready F st m := ⟨g, slots, e, ⟨L.log, hw, hi, hne, hH, hc⟩, hE⟩
    cases r with
    | user h => exact absurd rfl (hu h)
    | _ => exact tri_pure hfin
  · refine tri_liftE hp ?_
    subst he
    show Tri (recoverWipePartly F t (t + 1 + l - t - 1)) st _ _ _
    rw [show t + 1 + l - t - 1 = l by omega]
    exact tri_fls (L.log.wipeTorn hF hb) (fun _ st' e1 e2 h => hready st' e1 e2 h) hcrash
  · refine tri_liftE hp ?_
    subst he
    show Tri (recoverDeleteUser F t (t + 1 + n - t - 1)) st _ _ _
    rw [show t + 1 + n - t - 1 = n by omega]
    exact tri_fls (L.log.deleteTorn hF hb) (fun _ st' e1 e2 h => hready st' e1 e2 h) hcrash

/-- The last entry may have been inserted by the last operation. -/
theorem recoverIns_tri (hF : Sizes F) {st : St} {g : Geo} {s1 : List Slot} {s : Slot} {c k : Nat} {v : Bytes} {m1 : KV}
    (L : Log F st.fl g (s1 ++ [s]) s.q c s.q) (hi : s.it = .user k v) (hw : g.w = erasedWord) (hs : ∀ s ∈ s1, UP s ∨ Rm s) (hH : Holds s1 m1)
    (hc : Cap F g (s1 ++ [s]) s.q) (hE : Ents st g [])
    (hC : ∀ fl' s1', Pads Rm s1 s1' → Log F fl' g (s1' ++ [s]) s.q c s.q → Live F fl' (m1.put k (some v))) :
    Tri (operationLoop F (g.h + F.W) F.W g.h g.h) st (fun _ st' => Ready F st' (m1.put k (some v))) (fun _ _ => False)
      (fun fl' => Live F fl' (m1.put k (some v))) := by
  have hbd := hc.bound hF L.hM
  have hmq := hF.mq
  refine walk_tri hF (tl := [s]) hbd.1 (by omega) s1 [] g.h g.h F.W st ⟨L, .none rfl⟩ L.chain.starts hs hE (Nat.le_refl _) ?_ ?_
  · intro st1 s1' q fuel prev L1 hpd hup hE1 hq hf _
    rw [List.nil_append] at L1 hE1
    have hq : s.p = q := hq
    subst hq
    have L1 := L1.log
    obtain ⟨x, hc1, hc2⟩ := L1.chain.of_append
    have hx : s.p = x := hc2.1
    subst hx
    have hge := hc1.le
    have hsz := hc2.2.1.size
    have hit := hc2.2.1
    rw [hi] at hit
    obtain ⟨f, rfl⟩ : ∃ f, fuel = f + 1 := ⟨fuel - 1, by omega⟩
    rw [operationLoop, if_pos (by omega)]
    apply tri_bind
    apply tri_bind
    refine tri_getFl ?_
    obtain ⟨hd, hpar, hkey, _⟩ := parse_user hF hit
    refine tri_liftE hpar ?_
    apply tri_bind
    have hwn := hF.nq
    have hww := hF.wn
    refine tri_pushEntry (h := g.h) hE1.1 (by omega) (by omega) ?_
    show Tri (operationLoop F (g.h + F.W) f s.q s.p) _ _ _ _
    obtain ⟨f, rfl⟩ : ∃ f', f = f' + 1 := ⟨f - 1, by omega⟩
    rw [operationLoop, if_pos (by omega)]
    apply tri_bind
    apply tri_bind
    refine tri_getFl ?_
    refine tri_liftE (L1.parse_end hF (by omega)) ?_
    show Tri (finishInsert F s.p) _ _ _ _
    apply tri_bind
    apply tri_bind
    refine tri_getFl ?_
    refine tri_liftE hpar ?_
    show Tri (insertInit F s.p (s.q - s.p - 1) hd.key) _ _ _ _
    rw [hkey]
    have hH1 : Holds s1' m1 := hH.perm (by
      rw [(hpd.uents_eq (fun s _ hr k v hi => by
        obtain ⟨k', hr⟩ := hr
        rw [hr] at hi; cases hi)).1])
    obtain ⟨es, he1, he2⟩ := hE1.2
    refine tri_mono (insertInit_tri hF (s1 := s1') (m1 := m1) (v := v) (c := c) (es := es) ⟨L1, hi, hw, hup, hH1, hc.pads (hpd.append (Pads.refl _))⟩ hE1.1 ?_ he2) ?_
      (fun _ _ h => h) (fun _ h => h)
    · show Option.map _ st1.entries = _
      rw [he1]; rfl
    · rintro _ st' ⟨slots, h1, h2⟩
      exact ⟨g, slots, _, h1, h2⟩
  · intro fl' s1' hpd L1
    rw [List.nil_append] at L1
    exact hC fl' s1' hpd L1.log

theorem recoverPlain_tri (hF : Sizes F) {st : St} {g : Geo} {slots : List Slot} {t e : Nat} {m : KV}
    (L : LogT F st.fl g slots t t e) (hw : g.w = erasedWord) (hi : ∀ s ∈ slots, UP s ∨ Rm s) (hne : g.b ≠ 0 → g.h < t) (hH : Holds slots m)
    (hc : Cap F g slots e) (hE : Ents st g []) :
    Tri (operationLoop F (g.h + F.W) F.W g.h g.h) st (fun _ st' => Ready F st' m) (fun _ _ => False) (fun fl' => Live F fl' m) := by
  have hbd := hc.bound hF L.log.hM
  have hte := L.log.te
  have hpads : ∀ slots', Pads Rm slots slots' → Holds slots' m ∧ Cap F g slots' e ∧ ∀ s ∈ slots', UP s ∨ Rm s := by
    intro slots' hpd
    refine ⟨hH.perm ?_, hc.pads hpd, ?_⟩
    · rw [(hpd.uents_eq (fun s _ hr k v hi => by
        obtain ⟨k', hr⟩ := hr
        rw [hr] at hi; cases hi)).1]
    · intro s hs
      obtain ⟨s0, h1, h2 | ⟨_, h2⟩⟩ := hpd.mem s hs
      · rw [h2]; exact hi s0 h1
      · rw [h2]; exact .inl (.pad rfl)
  have hplain : ∀ fl' slots', Pads Rm slots slots' → LogT F fl' g slots' t t e → Live F fl' m := by
    intro fl' slots' hpd L'
    obtain ⟨h1, h2, h3⟩ := hpads slots' hpd
    exact .plain ⟨g, slots', t, e, L'.log, hw, L'.torn, h3, hne, h1, h2⟩
  by_cases hins : e = t ∧ ∃ s1 s k v, slots = s1 ++ [s] ∧ s.it = .user k v
  · obtain ⟨rfl, s1, s, k, v, rfl, hiu⟩ := hins
    have hq : s.q = e := by
      obtain ⟨x, _, hc2⟩ := L.log.chain.of_append
      exact hc2.2.2
    subst hq
    obtain ⟨h1, h2⟩ := hH.unsnoc hiu
    rw [h2]
    refine recoverIns_tri hF L.log hiu hw (fun s hs => hi s (by simp [hs])) h1 hc hE ?_
    intro fl' s1' hpd L'
    rw [← h2]
    exact hplain fl' _ (hpd.append (Pads.refl [s])) ⟨L', .none rfl⟩
  · refine walk_tri hF (tl := []) (t := t) (e := e) (c := t) (by omega) (by omega) slots [] g.h g.h F.W st ?_ ?_ hi hE (Nat.le_refl _) ?_ ?_
    · rw [List.append_nil]; exact L
    · rw [List.append_nil]; exact L.log.chain.starts
    · intro st1 slots' q fuel prev L1 hpd hup hE1 hq hf hprev
      rw [List.append_nil, List.nil_append] at L1
      rw [List.nil_append] at hE1
      have hq : q = t := hq
      subst hq
      obtain ⟨h1, h2, h3⟩ := hpads slots' hpd
      refine endPlain_tri hF L1 hw hup hne h1 h2 hE1 (by omega) hf ?_
      rintro rfl
      rcases hprev with ⟨h4, h5, h6⟩ | ⟨i, s, h4, h5⟩
      · refine ⟨.tail, prev, ?_, by simp⟩
        rw [h5, ← h6]
        exact L1.log.parse_end hF (by have := hF.mq; omega)
      · have hm := L1.log.chain.mem s (by rw [h4]; simp)
        rcases hup s (by rw [h4]; simp) with h6 | ⟨k, v, h6⟩
        · refine ⟨.padding, s.q, ?_, by simp⟩
          have := hm.2.2.2
          rw [h6] at this
          rw [h5]
          exact parse_pad this
        · exfalso
          apply hins
          refine ⟨rfl, ?_⟩
          -- the last entry was a user entry before
          have hlast : ∀ {a b : List Slot} {j : List Slot}, Pads Rm a b → b = j ++ [s] → ∃ s1, a = s1 ++ [s] := by
            intro a
            induction a with
            | nil =>
              intro b j hp hb
              rw [hp.nil_left] at hb
              simp at hb
            | cons x a ih =>
              intro b j hp hb
              cases b with
              | nil => exact hp.elim
              | cons y b =>
                cases j with
                | nil =>
                  obtain ⟨rfl, rfl⟩ := List.cons.inj hb
                  cases a with
                  | cons _ _ => exact hp.2.elim
                  | nil =>
                    rcases hp.1 with h7 | ⟨_, h7⟩
                    · exact ⟨[], by rw [h7]; rfl⟩
                    · rw [h7] at h6; cases h6
                | cons z j =>
                  obtain ⟨s1, h8⟩ := ih hp.2 (List.cons.inj hb).2
                  exact ⟨x :: s1, by rw [h8]; rfl⟩
          obtain ⟨s1, h8⟩ := hlast hpd h4
          exact ⟨s1, s, k, v, h8, h6⟩
    · intro fl' slots' hpd L1
      rw [List.append_nil, List.nil_append] at L1
      exact hplain fl' slots' hpd L1

theorem recoverClear_tri (hF : Sizes F) {st : St} {g : Geo} {s1 : List Slot} {s : Slot} {c mk : Nat} {m1 : KV}
    (h : Cleared F st.fl g s1 s c mk m1) (hE : Ents st g []) :
    Tri (operationLoop F (g.h + F.W) F.W g.h g.h) st (fun _ st' => Ready F st' (m1.clear mk)) (fun _ _ => False)
      (fun fl' => Live F fl' (m1.clear mk)) := by
  have hbd := h.cap.bound hF h.log.hM
  have hcl : ∀ fl' s1', Pads Rm s1 s1' → LogT F fl' g (s1' ++ [s]) s.q c s.q → Cleared F fl' g s1' s c mk m1 := by
    intro fl' s1' hpd L1
    refine ⟨L1.log, h.it, h.w, UP.pads hpd h.items, h.holds.perm ?_, h.cap.pads (hpd.append (Pads.refl _))⟩
    rw [(hpd.uents_eq (fun s _ hr k v hi => by
        obtain ⟨k', hr⟩ := hr
        rw [hr] at hi; cases hi)).1]
  refine walk_tri hF (tl := [s]) hbd.1 (by omega) s1 [] g.h g.h F.W st ⟨h.log, .none rfl⟩ h.log.chain.starts (fun s hs => .inl (h.items s hs)) hE (Nat.le_refl _) ?_ ?_
  · intro st1 s1' q fuel prev L1 hpd hup hE1 hq hf _
    rw [List.nil_append] at L1 hE1
    have hq : s.p = q := hq
    subst hq
    have h1 := hcl st1.fl s1' hpd L1
    have hm := h1.log.chain.mem s (by simp)
    have hit := hm.2.2.2
    rw [h.it] at hit
    obtain ⟨f, rfl⟩ : ∃ f, fuel = f + 1 := ⟨fuel - 1, by omega⟩
    rw [operationLoop, if_pos (by omega)]
    apply tri_bind
    apply tri_bind
    refine tri_getFl ?_
    refine tri_liftE (parse_int hF hit) ?_
    refine tri_mono (clearDelete_tri hF h1 hE1) ?_ (fun _ _ h => h) (fun _ h => h)
    rintro _ st' ⟨slots, h3, h4⟩
    exact ⟨g, slots, _, h3, h4⟩
  · intro fl' s1' hpd L1
    rw [List.nil_append] at L1
    exact .clr (hcl fl' s1' hpd L1) rfl

end Verif.Store
