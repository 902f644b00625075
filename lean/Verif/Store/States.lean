import Verif.Store.Entries

/-!
# States of the storage, also after loss of power
-/
namespace Verif.Store

variable {F : Format}

/-- The entry is a user entry or padding. -/
def UP (s : Slot) : Prop := s.it = .pad ∨ ∃ k v, s.it = .user k v
/-- The entry removes a key. -/
def Rm (s : Slot) : Prop := ∃ k, s.it = .int (.remove k)
/-- The entry is an update of a transaction. -/
def Upd (s : Slot) : Prop := (∃ k v, s.it = .user k v) ∨ Rm s

/-- The storage between operations. -/
structure Good (F : Format) (fl : Flash) (g : Geo) (slots : List Slot) (t : Nat) (m : KV) : Prop where
  log : Log F fl g slots t t t
  w : g.w = erasedWord
  items : ∀ s ∈ slots, UP s
  ne : g.b ≠ 0 → g.h < t
  holds : Holds slots m
  cap : Cap F g slots t

/-- The store between operations. -/
def Ready (F : Format) (s : St) (m : KV) : Prop := ∃ g slots t, Good F s.fl g slots t m ∧ Ents s g slots

/-- An entry may be written partially. -/
def Plain (F : Format) (fl : Flash) (m : KV) : Prop :=
  ∃ g slots t e, Log F fl g slots t t e ∧ g.w = erasedWord ∧ TornTail F fl t e ∧ (∀ s ∈ slots, UP s ∨ Rm s) ∧ (g.b ≠ 0 → g.h < t) ∧
    Holds slots m ∧ Cap F g slots e

/-- An entry is inserted, and the one that it replaces may not be deleted. -/
structure Inserted (F : Format) (fl : Flash) (g : Geo) (s1 : List Slot) (s : Slot) (c k : Nat) (v : Bytes) (m1 : KV) : Prop where
  log : Log F fl g (s1 ++ [s]) s.q c s.q
  it : s.it = .user k v
  w : g.w = erasedWord
  items : ∀ s ∈ s1, UP s
  holds : Holds s1 m1
  cap : Cap F g (s1 ++ [s]) s.q

/-- A clear entry is written. -/
structure Cleared (F : Format) (fl : Flash) (g : Geo) (s1 : List Slot) (s : Slot) (c mk : Nat) (m1 : KV) : Prop where
  log : Log F fl g (s1 ++ [s]) s.q c s.q
  it : s.it = .int (.clear mk)
  w : g.w = erasedWord
  items : ∀ s ∈ s1, UP s
  holds : Holds s1 m1
  cap : Cap F g (s1 ++ [s]) s.q

/-- The key of an update. -/
def Slot.key (s : Slot) : Nat :=
  match s.it with
  | .user k _ => k
  | .int (.remove k) => k
  | _ => 0

/-- What the updates mean. -/
def applySlots (us : List Slot) (m : KV) : KV := us.foldl (fun m s =>
  match s.it with
  | .user k v => m.put k (some v)
  | .int (.remove k) => m.put k none
  | _ => m) m

/-- A transaction: the marker, padding if it is being rolled back, and updates. -/
structure Trans (F : Format) (fl : Flash) (g : Geo) (s1 : List Slot) (mk : Slot) (n : Nat) (ps us : List Slot) (t c e : Nat) (m1 : KV) : Prop where
  log : Log F fl g (s1 ++ mk :: (ps ++ us)) t c e
  torn : TornTail F fl t e
  it : mk.it = .int (.marker n)
  n0 : n ≠ 0
  w : g.w = erasedWord
  items : ∀ s ∈ s1, UP s
  pads : ∀ s ∈ ps, s.it = .pad
  upds : ∀ s ∈ us, Upd s
  keys : (us.map Slot.key).Nodup
  pc : ps ≠ [] → c = t
  holds : Holds s1 m1
  cap : Cap F g (s1 ++ mk :: (ps ++ us)) e

/-- The storage after loss of power, when no compaction is in progress. -/
inductive Live (F : Format) (fl : Flash) (m : KV) : Prop
  | plain (h : Plain F fl m)
  | ins {g s1 s c k v m1} (h : Inserted F fl g s1 s c k v m1) (hm : m = m1.put k (some v))
  | clr {g s1 s c mk m1} (h : Cleared F fl g s1 s c mk m1) (hm : m = m1.clear mk)
  | commit {g s1 mk n us t c m1} (h : Trans F fl g s1 mk n [] us t c t m1) (hn : us.length = n) (hm : m = applySlots us m1)
  | rollback {g s1 mk n ps us t c e} (h : Trans F fl g s1 mk n ps us t c e m) (hn : ps ≠ [] ∨ us.length < n)

theorem Good.live {fl : Flash} {g : Geo} {slots : List Slot} {t : Nat} {m : KV} (h : Good F fl g slots t m) : Live F fl m :=
  .plain ⟨g, slots, t, t, h.log, h.w, .none rfl, fun s hs => .inl (h.items s hs), h.ne, h.holds, h.cap⟩

theorem UP.pad {s : Slot} (h : s.it = .pad) : UP s := .inl h
theorem UP.user {s : Slot} {k : Nat} {v : Bytes} (h : s.it = .user k v) : UP s := .inr ⟨k, v, h⟩

theorem UP.pads {P : Slot → Prop} {a b : List Slot} (hp : Pads P a b) (h : ∀ s ∈ a, UP s) : ∀ s ∈ b, UP s := by
  intro s hs
  obtain ⟨s0, h1, h2 | ⟨_, h2⟩⟩ := hp.mem s hs
  · rw [h2]; exact h s0 h1
  · rw [h2]; exact .inl rfl

/-- Completing the initialization of the page of the last entry. -/
theorem Log.initLast (hF : Sizes F) {fl : Flash} {g : Geo} {s1 : List Slot} {s : Slot} {c : Nat}
    (L : Log F fl g (s1 ++ [s]) s.q c s.q) (hg : s.it ≠ .gap) :
    Fls (Store.initPage F s.p (s.p + (s.q - s.p - 1))) fl (fun _ fl' => Log F fl' g (s1 ++ [s]) s.q s.q s.q) (fun fl' => Log F fl' g (s1 ++ [s]) s.q c s.q) := by
  have hm := L.chain.mem s (by simp)
  have hb := L.hb
  have hew := L.ew
  rcases L.hc with hc | ⟨_, s1', s', e1, e2, _⟩
  · subst hc
    refine fls_mono (initPage_done hF (b := g.b) hm.2.1 (hm.2.2.2.maxSize hg) ⟨by omega, by omega⟩ L.ew ?_) ?_ (fun _ h => h.elim)
    · intro a h1 h2 h3 h4
      by_cases hab : a = g.b
      · subst hab
        exact ⟨_, (L.head hF).word⟩
      · obtain ⟨x, c1, c2, c3, _⟩ := L.cov a (by omega) h4
        exact ⟨_, (HeadAt.of_word hF c1 c2 (cyc_le hF L.hE h2) c3).word⟩
    · rintro _ fl' rfl
      exact L
  · have : s = s' := by
      have := congrArg List.getLast? e1
      simpa using this
    subst this
    subst e2
    have := L.initPage hF hm.2.1
    refine fls_mono this ?_ (fun fl' h => h.2)
    rintro _ fl' ⟨_, h2, h3⟩
    exact h2.done hF h3

/-- Reading at the end of the log. -/
theorem Log.parse_end (hF : Sizes F) {fl : Flash} {g : Geo} {slots : List Slot} {t c : Nat} (L : Log F fl g slots t c t)
    (ht : t + F.M ≤ g.b * F.Q + F.N * F.Q) : parseEntry F fl t = .ok (.tail, t) :=
  parse_tail hF.m1 (fun y h8 h9 => L.blank y h8 (by omega))

/-! ## Inserting -/

theorem put_congr {m m' : KV} {k : Nat} {o : Option Bytes} (h : ∀ k', k' ≠ k → m' k' = m k') : m'.put k o = m.put k o := by
  funext k'
  unfold KV.put
  split
  · rfl
  · rename_i h1; exact h k' h1

/-- The end of an insertion: the entry is replaced. -/
theorem insertInit_tri (hF : Sizes F) {st : St} {g : Geo} {s1 : List Slot} {s : Slot} {c k : Nat} {v : Bytes} {m1 : KV}
    (h : Inserted F st.fl g s1 s c k v m1) {es : List Nat} (hh : st.head = some g.h) (he : st.entries = some (es ++ [s.p - g.h]))
    (hes : (es.map (g.h + ·)).Perm (upos s1)) :
    Tri (insertInit F s.p (s.q - s.p - 1) k) st
      (fun _ st' => ∃ slots, Good F st'.fl g slots s.q (m1.put k (some v)) ∧ Ents st' g slots)
      (fun _ _ => False)
      (fun fl' => Live F fl' (m1.put k (some v))) := by
  have hm := h.log.chain.mem s (by simp)
  have hg : s.it ≠ .gap := by rw [h.it]; simp
  obtain ⟨x, hc1, hc2⟩ := h.log.chain.of_append
  have hx : s.p = x := hc2.1
  subst hx
  have hup : upos (s1 ++ [s]) = upos s1 ++ [s.p] := by rw [upos_append]; simp [upos, Slot.upos, h.it]
  apply tri_bind
  refine tri_fls (h.log.initLast hF hg) ?_ ?_
  · intro _ st1 e1 e2 L1
    rw [hh] at e1
    rw [he] at e2
    have L1' : Log F st1.fl g ((s1 ++ [s]) ++ []) s.q s.q s.q := by rw [List.append_nil]; exact L1
    have hone : ∀ sl ∈ s1 ++ [s], ∀ sl' ∈ s1 ++ [s], Del (fun k' => [k].contains k') s.p sl → Del (fun k' => [k].contains k') s.p sl' → sl = sl' := by
      intro sl hsl sl' hsl' hd hd'
      obtain ⟨h1, ka, va, h2, h3⟩ := hd
      obtain ⟨h1', kb, vb, h2', h3'⟩ := hd'
      have hka : ka = k := by simpa using h3
      have hkb : kb = k := by simpa using h3'
      subst hka; subst hkb
      have hin : sl ∈ s1 := by
        rcases List.mem_append.1 hsl with h4 | h4
        · exact h4
        · have : sl = s := by simpa using h4
          subst this; omega
      have hin' : sl' ∈ s1 := by
        rcases List.mem_append.1 hsl' with h4 | h4
        · exact h4
        · have : sl' = s := by simpa using h4
          subst this; omega
      obtain ⟨a, b, rfl⟩ := List.append_of_mem hin
      have hnd := h.holds.nodup
      have hsplit : uents (a ++ sl :: b) = uents a ++ (kb, va) :: uents b := by
        rw [uents_append]; simp [uents, Slot.ent, h2]
      rw [hsplit, List.map_append, List.map_cons, List.nodup_append] at hnd
      obtain ⟨_, hnd2, hnd3⟩ := hnd
      rcases List.mem_append.1 hin' with h4 | h4
      · exfalso
        exact hnd3 kb (List.mem_map.2 ⟨(kb, vb), uents_mem.2 ⟨sl', h4, h2'⟩, rfl⟩) kb (by simp) rfl
      · rcases List.mem_cons.1 h4 with h5 | h5
        · exact h5.symm
        · exfalso
          rw [List.nodup_cons] at hnd2
          exact hnd2.1 (List.mem_map.2 ⟨(kb, vb), uents_mem.2 ⟨sl', h5, h2'⟩, rfl⟩)
    have hpads : ∀ slots', Pads (Del (fun k' => [k].contains k') s.p) (s1 ++ [s]) slots' →
        ∃ s1', slots' = s1' ++ [s] ∧ Pads (Del (fun k' => [k].contains k') s.p) s1 s1' := by
      intro slots' hp
      obtain ⟨a', b', e3, h1, h2⟩ := hp.of_append
      refine ⟨a', ?_, h1⟩
      rw [e3]
      cases b' with
      | nil => exact h2.elim
      | cons y ys =>
        cases ys with
        | cons z zs => exact h2.2.elim
        | nil =>
          rcases h2.1 with h3 | ⟨⟨h3, _⟩, _⟩
          · rw [h3]
          · omega
    have hlt : ∀ off ∈ es, g.h + off < s.p := by
      intro off hoff
      obtain ⟨sl, h4, h5, _⟩ := upos_mem.1 (hes.mem_iff.1 (List.mem_map.2 ⟨off, hoff, rfl⟩))
      have := hc1.mem sl h4
      omega
    have hph : Phase g (fun k' => [k].contains k') s.p (s1 ++ [s]) (es ++ [s.p - g.h]) :=
      .inr (.inl ⟨es, s.p - g.h, rfl, by omega, hlt, hone⟩)
    have hperm : ((es ++ [s.p - g.h]).map (g.h + ·)).Perm (upos (s1 ++ [s])) := by
      rw [hup, List.map_append]
      refine hes.append ?_
      rw [List.map_cons, List.map_nil, show g.h + (s.p - g.h) = s.p by omega]
    refine tri_mono (deleteIf_tri hF L1' e1 e2 hperm hph) ?_ (fun _ _ h => h) ?_
    · rintro _ st2 ⟨slots', h1, h2, h3, h4⟩
      obtain ⟨s1', rfl, h5⟩ := hpads slots' h1
      rw [List.append_nil] at h2
      have hcl : ∀ sl ∈ s1', ∀ k' v', sl.it = .user k' v' → [k].contains k' = false := by
        intro sl hsl k' v' hi
        have := h4 sl (by simp [hsl])
        cases hd : [k].contains k' with
        | false => rfl
        | true =>
          obtain ⟨s0, h6, h7⟩ := h5.mem sl hsl
          have hp0 : sl.p = s0.p := by
            rcases h7 with h7 | ⟨_, h7⟩
            · rw [h7]
            · rw [h7]; rfl
          have := hc1.mem s0 h6
          exact absurd ⟨by omega, k', v', hi, hd⟩ (h4 sl (by simp [hsl]))
      have hH := h.holds.pads_all h5 hcl
      refine ⟨s1' ++ [s], ⟨h2, h.w, ?_, fun _ => by omega, ?_, h.cap.pads h1⟩, h3⟩
      · intro sl hsl
        rcases List.mem_append.1 hsl with h6 | h6
        · exact UP.pads h5 h.items sl h6
        · have : sl = s := by simpa using h6
          subst this; exact UP.user h.it
      · have := hH.insert h.it (by simp)
        have e3 : m1.put k (some v) = fun k' => if k' = k then some v else if [k].contains k' = true then none else m1 k' := by
          funext k'
          unfold KV.put
          by_cases hk : k' = k
          · rw [if_pos hk, if_pos hk]
          · rw [if_neg hk, if_neg hk, if_neg (by simpa using hk)]
        rw [e3]; exact this
    · rintro fl' ⟨slots', h1, h2⟩
      obtain ⟨s1', rfl, h5⟩ := hpads slots' h1
      rw [List.append_nil] at h2
      obtain ⟨m', h6, h7⟩ := h.holds.pads h5
      refine .ins (g := g) (s1 := s1') (s := s) (c := s.q) (m1 := m') ⟨h2, h.it, h.w, UP.pads h5 h.items, h6, h.cap.pads h1⟩ ?_
      exact (put_congr (fun k' hk => h7 k' (by simpa using hk))).symm
  · intro fl' L1
    exact .ins ⟨L1, h.it, h.w, h.items, h.holds, h.cap⟩ rfl

/-! ## Clearing -/

/-- The end of clearing. -/
theorem clearDelete_tri (hF : Sizes F) {st : St} {g : Geo} {s1 : List Slot} {s : Slot} {c mk : Nat} {m1 : KV}
    (h : Cleared F st.fl g s1 s c mk m1) (hE : Ents st g s1) :
    Tri (clearDelete F s.p) st
      (fun _ st' => ∃ slots, Good F st'.fl g slots s.q (m1.clear mk) ∧ Ents st' g slots)
      (fun _ _ => False)
      (fun fl' => Live F fl' (m1.clear mk)) := by
  have hm := h.log.chain.mem s (by simp)
  have hg : s.it ≠ .gap := by rw [h.it]; simp
  have hI := hm.2.2.2
  rw [h.it] at hI
  have hq := hI.2.2
  obtain ⟨x, hc1, hc2⟩ := h.log.chain.of_append
  have hx : s.p = x := hc2.1
  subst hx
  have hgood : ∀ fl' s1', Pads (Del (fun k => decide (mk ≤ k)) s.p) s1 s1' → (∀ sl ∈ s1', ¬ Del (fun k => decide (mk ≤ k)) s.p sl) →
      Log F fl' g (s1' ++ [s.pad]) s.q s.q s.q → Good F fl' g (s1' ++ [s.pad]) s.q (m1.clear mk) := by
    intro fl' s1' h5 h4 L2
    refine ⟨L2, h.w, ?_, fun _ => by omega, ?_, ?_⟩
    · intro sl hsl
      rcases List.mem_append.1 hsl with h6 | h6
      · exact UP.pads h5 h.items sl h6
      · have : sl = s.pad := by simpa using h6
        subst this; exact .inl rfl
    · have hH := h.holds.pads_all h5 (fun sl hsl k' v' hi => by
        cases hd : decide (mk ≤ k') with
        | false => rfl
        | true =>
          obtain ⟨s0, h6, h7⟩ := h5.mem sl hsl
          have hp0 : sl.p = s0.p := by
            rcases h7 with h7 | ⟨_, h7⟩
            · rw [h7]
            · rw [h7]; rfl
          have := hc1.mem s0 h6
          exact absurd ⟨by omega, k', v', hi, hd⟩ (h4 sl hsl))
      have e3 : m1.clear mk = fun k' => if decide (mk ≤ k') = true then none else m1 k' := by
        funext k'; simp [KV.clear]
      rw [e3]
      exact hH.append_pads (by simp [uents, Slot.ent, Slot.pad])
    · refine h.cap.pads (P := fun _ => True) ?_
      exact (h5.mono (fun _ _ _ => trivial)).append ⟨.inr ⟨trivial, rfl⟩, trivial⟩
  apply tri_bind
  have hil := h.log.initLast hF hg
  rw [show s.p + (s.q - s.p - 1) = s.p by omega] at hil
  refine tri_fls hil ?_ ?_
  · intro _ st1 e1 e2 L1
    have hI1 := (L1.chain.mem s (by simp)).2.2.2
    rw [h.it] at hI1
    apply tri_bind
    apply tri_bind
    refine tri_getFl ?_
    refine tri_liftE (parse_int hF hI1) ?_
    apply tri_bind
    refine tri_liftE (a := mk) rfl ?_
    apply tri_bind
    refine tri_mono (deleteIf_all hF L1 (hE.congr e1 e2 rfl) ?_) ?_ (fun _ _ h => h) ?_
    · intro sl hsl k v _
      have := hc1.mem sl hsl
      omega
    · rintro _ st2 ⟨s1', h1, L2, h3, h4⟩
      have hpa : padAt (s1' ++ [s]) s.p = s1' ++ [s.pad] := by
        obtain ⟨a, b, e3, e4⟩ := padAt_split L2.chain (s := s) (by simp)
        rw [e4]
        obtain ⟨x, hc3, hc4⟩ := L2.chain.of_append
        have hx := hc4.1
        have hlast : b = [] := by
          cases b with
          | nil => rfl
          | cons y ys =>
            have hch := L2.chain
            rw [e3] at hch
            obtain ⟨_, _, hch⟩ := hch.of_append
            have h5 := hch.2.2.mem y (by simp)
            omega
        subst hlast
        rw [List.append_cancel_right e3]
      have hset := L2.setPadding hF (s := s) (by simp) h.it
      rw [hpa] at hset
      refine tri_fls hset ?_ ?_
      · rintro _ st3 e5 e6 ⟨_, L3⟩
        refine ⟨s1' ++ [s.pad], hgood st3.fl s1' h1 h4 L3, h3.congr e5 e6 ?_⟩
        rw [upos_append]; simp [upos, Slot.upos, Slot.pad]
      · rintro fl' ⟨_, L3 | L3⟩
        · obtain ⟨m', h6, h7⟩ := h.holds.pads h1
          refine .clr (g := g) (s1 := s1') (s := s) (c := s.q) (mk := mk) (m1 := m')
            ⟨L3, h.it, h.w, UP.pads h1 h.items, h6, h.cap.pads (h1.append (Pads.refl _))⟩ ?_
          funext k
          unfold KV.clear
          split
          · rfl
          · rename_i hk; exact (h7 k (by simpa using hk)).symm
        · exact (hgood fl' s1' h1 h4 L3).live
    · rintro fl' ⟨s1', h1, L2⟩
      obtain ⟨m', h6, h7⟩ := h.holds.pads h1
      refine .clr (g := g) (s1 := s1') (s := s) (c := s.q) (mk := mk) (m1 := m')
        ⟨L2, h.it, h.w, UP.pads h1 h.items, h6, h.cap.pads (h1.append (Pads.refl _))⟩ ?_
      funext k
      unfold KV.clear
      split
      · rfl
      · rename_i hk; exact (h7 k (by simpa using hk)).symm
  · intro fl' L1
    exact .clr ⟨L1, h.it, h.w, h.items, h.holds, h.cap⟩ rfl

end Verif.Store
