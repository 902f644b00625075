import Verif.Store.SpecFragment
import Verif.Store.Props

/-!
# Lemmas about fragmented entries
-/
namespace Verif.Store

variable {F : Format}

/-! ## Computations that do not change the store -/

/-- A computation that starts with one that succeeds. -/
theorem ok_bind {α β : Type} {m : M α} {g : α → M β} {s s' : St} {a : α} (h : m s = (.ok a, s')) : (m >>= g) s = g a s' := by
  show M.bind m g s = _
  rw [M.bind, h]

theorem err_bind {α β : Type} {m : M α} {g : α → M β} {s s' : St} {e : Err} (h : m s = (.err e, s')) : (m >>= g) s = (.err e, s') := by
  show M.bind m g s = _
  rw [M.bind, h]

theorem liftE_ok {α : Type} {x : Except Err α} {a : α} {s : St} (h : x = .ok a) : liftE x s = (.ok a, s) := by subst h; rfl

theorem liftE_error {α : Type} {x : Except Err α} {e : Err} {s : St} (h : x = .error e) : liftE x s = (.err e, s) := by subst h; rfl

theorem fromWords_length (ws : List Word) : (fromWords ws).length = 4 * ws.length := by
  induction ws with
  | nil => rfl
  | cons w ws ih => simp [fromWords, wordBytes] at ih ⊢; omega

/-- The length of a value that is read. -/
theorem readValue_length {fl : Flash} {p : Nat} {h : Header} {v : Bytes} (hv : readValue F fl p h = .ok v) : v.length = h.length := by
  have hl : ((fromWords (readWords F fl (p + 1) (bytesToWords h.length))).take h.length).length = h.length := by
    rw [List.length_take, fromWords_length, readWords, List.length_map, List.length_range]
    unfold bytesToWords
    omega
  rw [readValue] at hv
  split at hv
  · cases hv; exact hl
  · split at hv
    · cases hv
    · rename_i h1
      cases hv
      simp only [List.length_append, List.length_dropLast, List.length_singleton]
      omega

theorem getLength_of_getValue {h : Handle} {s s' : St} {v : Bytes} (hv : getValue F h s = (.ok v, s')) :
    getLength F h s = (.ok v.length, s) := by
  cases hh : s.head with
  | none =>
    have h1 : getHead s = (.err .invalidStorage, s) := by simp only [getHead, hh]
    rw [getValue, err_bind h1] at hv
    cases hv
  | some x =>
    have h1 : getHead s = (.ok x, s) := by simp only [getHead, hh]
    rw [getValue, ok_bind h1] at hv
    rw [getLength, ok_bind h1]
    by_cases h2 : h.pos < x
    · rw [if_pos h2] at hv; cases hv
    · rw [if_neg h2] at hv ⊢
      cases hp : parseEntry F s.fl h.pos with
      | error e =>
        have h3 : parseM F h.pos s = (.err e, s) := by
          unfold parseM
          rw [ok_bind (show getFl s = (.ok s.fl, s) from rfl), hp]; rfl
        rw [err_bind h3] at hv
        cases hv
      | ok r =>
        have h3 : parseM F h.pos s = (.ok r, s) := by
          unfold parseM
          rw [ok_bind (show getFl s = (.ok s.fl, s) from rfl), hp]; rfl
        rw [ok_bind h3] at hv ⊢
        rw [ok_bind (show getFl s = (.ok s.fl, s) from rfl)] at hv
        obtain ⟨e, q⟩ := r
        cases e with
        | user hd =>
          simp only [valueOf] at hv
          cases hr : readValue F s.fl h.pos hd with
          | error e => rw [hr] at hv; cases hv
          | ok w =>
            rw [hr] at hv
            cases hv
            rw [readValue_length hr]
            rfl
        | _ => cases hv

/-! ## The handles -/

theorem Keys.Lawful.inj {keys : Keys} (h : keys.Lawful) {p q : Nat} (hp : p < keys.len) (hq : q < keys.len) (e : keys.key p = keys.key q) :
    p = q := by
  have h1 := (h (keys.key p) p).2 ⟨hp, rfl⟩
  have h2 := (h (keys.key p) q).2 ⟨hq, e.symm⟩
  exact Option.some.inj (h1.symm.trans h2)

theorem fillHandles_spec {keys : Keys} (hl : keys.Lawful) : ∀ {hs : List Handle} {acc : List (Option Handle)},
    (hs.map Handle.key).Nodup → acc.length = keys.len → (∀ h ∈ hs, ∀ p, keys.pos h.key = some p → acc[p]? = some none) →
    ∃ acc', fillHandles keys hs acc = .ok acc' ∧ acc'.length = keys.len ∧
      ∀ p, p < keys.len → acc'[p]? = match hs.find? (fun h => h.key = keys.key p) with | some h => some (some h) | none => acc[p]? := by
  intro hs
  induction hs with
  | nil => exact fun _ h1 _ => ⟨_, rfl, h1, fun p _ => rfl⟩
  | cons h hs ih =>
    intro acc hn h1 h2
    rw [List.map_cons, List.nodup_cons] at hn
    rw [fillHandles]
    cases hp : keys.pos h.key with
    | none =>
      obtain ⟨acc', h3, h4, h5⟩ := ih hn.2 h1 (fun x hx => h2 x (List.mem_cons_of_mem _ hx))
      refine ⟨acc', h3, h4, fun p hpl => ?_⟩
      have hne : h.key ≠ keys.key p := by
        intro e
        have := (hl h.key p).2 ⟨hpl, e.symm⟩
        rw [hp] at this; cases this
      rw [List.find?_cons_of_neg (by simpa using hne)]
      exact h5 p hpl
    | some q =>
      obtain ⟨hq, hk⟩ := (hl h.key q).1 hp
      simp only
      rw [if_neg (by omega), h2 h (List.mem_cons_self ..) q hp]
      obtain ⟨acc', h3, h4, h5⟩ := ih (acc := acc.set q (some h)) hn.2 (by simpa using h1) (by
        intro x hx p hxp
        obtain ⟨hpl, hpk⟩ := (hl x.key p).1 hxp
        have hne : q ≠ p := by
          rintro rfl
          exact hn.1 (List.mem_map.2 ⟨x, hx, by rw [← hpk, hk]⟩)
        rw [List.getElem?_set_ne hne]
        exact h2 x (List.mem_cons_of_mem _ hx) p hxp)
      refine ⟨acc', h3, h4, fun p hpl => ?_⟩
      by_cases hqp : q = p
      · subst hqp
        rw [List.find?_cons_of_pos (by simp [hk])]
        rw [h5 q hpl]
        have : hs.find? (fun x => x.key = keys.key q) = none := by
          rw [List.find?_eq_none]
          intro x hx e
          simp only [decide_eq_true_eq] at e
          exact hn.1 (List.mem_map.2 ⟨x, hx, by rw [e, hk]⟩)
        rw [this, List.getElem?_set_self (by omega)]
      · have hne : h.key ≠ keys.key p := fun e => hqp (hl.inj hq hpl (hk.trans e))
        rw [List.find?_cons_of_neg (by simpa using hne), h5 p hpl, List.getElem?_set_ne hqp]

theorem collectHandles_ok : ∀ {hs : List Handle} {n i k : Nat}, i + hs.length = n →
    collectHandles n i (hs.map some ++ List.replicate k none) = .ok hs := by
  intro hs
  induction hs with
  | nil =>
    intro n i k h
    simp only [List.map_nil, List.nil_append, List.length_nil, Nat.add_zero] at h ⊢
    have : ∀ k i, n ≤ i → collectHandles n i (List.replicate k none) = .ok [] := by
      intro k
      induction k with
      | zero => intro i _; rfl
      | succ k ih =>
        intro i hi
        rw [List.replicate_succ, collectHandles, if_neg (by omega)]
        exact ih _ (by omega)
    exact this k i (by omega)
  | cons x hs ih =>
    intro n i k h
    rw [List.length_cons] at h
    rw [List.map_cons, List.cons_append, collectHandles, if_pos (by omega)]
    show (collectHandles n (i + 1) _ >>= _) = _
    rw [ih (by omega)]
    rfl

theorem collectHandles_inv : ∀ {l : List (Option Handle)} {n i : Nat},
    (collectHandles n i l = .error .invalidStorage) ∨
    ∃ hs k, l = hs.map some ++ List.replicate k none ∧ (n ≤ i → hs = []) := by
  intro l
  induction l with
  | nil => intro n i; exact .inr ⟨[], 0, rfl, fun _ => rfl⟩
  | cons o l ih =>
    intro n i
    by_cases hi : i < n
    · cases o with
      | none => left; rw [collectHandles, if_pos hi]
      | some h =>
        rcases ih (n := n) (i := i + 1) with h1 | ⟨hs, k, h1, _⟩
        · left
          rw [collectHandles, if_pos hi]
          show (collectHandles n (i + 1) _ >>= _) = _
          rw [h1]; rfl
        · exact .inr ⟨h :: hs, k, by rw [h1]; rfl, fun h => by omega⟩
    · cases o with
      | some h => left; rw [collectHandles, if_neg hi]
      | none =>
        rcases ih (n := n) (i := i + 1) with h1 | ⟨hs, k, h1, h2⟩
        · left
          rw [collectHandles, if_neg hi]
          exact h1
        · refine .inr ⟨[], k + 1, ?_, fun _ => rfl⟩
          rw [h1, h2 (by omega)]; rfl

/-- The handles of the fragments: they are those of the first keys, and their values are the fragments. -/
structure Frags (F : Format) (keys : Keys) (s : St) (m : KV) (n : Nat) (hs : List Handle) : Prop where
  eq : getHandles F keys s = (.ok hs, s)
  length : hs.length = n
  key : ∀ p (h : p < hs.length), hs[p].key = keys.key p
  value : ∀ h ∈ hs, ∃ v, m h.key = some v ∧ getValue F h s = (.ok v, s)

/-- What the handles are. -/
theorem getHandles_spec {keys : Keys} (hl : keys.Lawful) {s : St} {m : KV} (h : Lists F s m) :
    (∃ n hs, n ≤ keys.len ∧ (∀ p, p < keys.len → (m (keys.key p) ≠ none ↔ p < n)) ∧ Frags F keys s m n hs) ∨
    ((¬ ∃ n, n ≤ keys.len ∧ ∀ p, p < keys.len → (m (keys.key p) ≠ none ↔ p < n)) ∧ getHandles F keys s = (.err .invalidStorage, s)) := by
  obtain ⟨hs, h1, h2, h3, h4⟩ := h
  obtain ⟨acc, h5, h6, h7⟩ := fillHandles_spec hl (acc := List.replicate keys.len none) h2 (by simp) (by
    intro x hx p hp
    rw [List.getElem?_replicate, if_pos ((hl x.key p).1 hp).1])
  have hg : getHandles F keys s = liftE (collectHandles (acc.countP Option.isSome) 0 acc) s := by
    unfold getHandles
    rw [ok_bind h1, h5]; rfl
  have hacc : ∀ p, p < keys.len → ((∃ x, acc[p]? = some (some x) ∧ x ∈ hs ∧ x.key = keys.key p) ∨
      (acc[p]? = some none ∧ m (keys.key p) = none)) := by
    intro p hp
    rw [h7 p hp]
    cases hf : hs.find? (fun h => h.key = keys.key p) with
    | some x => exact .inl ⟨x, rfl, List.mem_of_find?_eq_some hf, by simpa using List.find?_some hf⟩
    | none =>
      refine .inr ⟨by simp [hp], ?_⟩
      rw [List.find?_eq_none] at hf
      cases hm : m (keys.key p) with
      | none => rfl
      | some v =>
        obtain ⟨x, hx, e⟩ := List.mem_map.1 ((h3 (keys.key p)).2 (by rw [hm]; simp))
        exact absurd (by simpa using e) (hf x hx)
  have hpos : ∀ p, p < keys.len → ∀ x, acc[p]? = some (some x) → x ∈ hs ∧ x.key = keys.key p := by
    intro p hp x hx
    rcases hacc p hp with ⟨y, h8, h9⟩ | ⟨h8, _⟩
    · rw [hx] at h8; cases h8; exact h9
    · rw [hx] at h8; cases h8
  have hnone : ∀ p, p < keys.len → (acc[p]? = some none ↔ m (keys.key p) = none) := by
    intro p hp
    rcases hacc p hp with ⟨y, h8, h9, h10⟩ | ⟨h8, h9⟩
    · rw [h8]
      have := (h3 (keys.key p)).1 (List.mem_map.2 ⟨y, h9, h10⟩)
      simp [this]
    · simp [h8, h9]
  by_cases hpre : ∃ (hs' : List Handle) (k : Nat), acc = hs'.map some ++ List.replicate k none
  · obtain ⟨hs', k, rfl⟩ := hpre
    have hc : (hs'.map some ++ List.replicate k none).countP Option.isSome = hs'.length := by
      rw [List.countP_append, List.countP_replicate]
      have : (hs'.map some).countP Option.isSome = hs'.length := by
        rw [List.countP_eq_length_filter, List.filter_eq_self.2 (by simp)]; simp
      simp [this]
    have hat : ∀ p (h : p < hs'.length), (hs'.map some ++ List.replicate k none)[p]? = some (some hs'[p]) := by
      intro p h
      rw [List.getElem?_append_left (by simpa using h), List.getElem?_map, List.getElem?_eq_getElem h]; rfl
    have hlen : hs'.length + k = keys.len := by simpa using h6
    refine .inl ⟨hs'.length, hs', by omega, fun p hp => ?_, ⟨?_, rfl, ?_, ?_⟩⟩
    · rw [Ne, ← hnone p hp]
      constructor
      · intro h8
        refine Classical.byContradiction fun h9 => h8 ?_
        rw [List.getElem?_append_right (by simpa using h9), List.getElem?_replicate, if_pos (by simp; omega)]
      · intro h8
        rw [hat p h8]; simp
    · rw [hg, hc]
      exact liftE_ok (collectHandles_ok (by omega))
    · intro p hp
      exact (hpos p (by omega) _ (hat p hp)).2
    · intro x hx
      obtain ⟨p, hp, rfl⟩ := List.getElem_of_mem hx
      exact h4 _ (hpos p (by omega) _ (hat p hp)).1
  · refine .inr ⟨?_, ?_⟩
    · rintro ⟨n, hn, h8⟩
      apply hpre
      refine ⟨(acc.take n).filterMap id, keys.len - n, ?_⟩
      have h9 : acc.drop n = List.replicate (keys.len - n) none := by
        apply List.ext_getElem?
        intro i
        rw [List.getElem?_drop, List.getElem?_replicate]
        by_cases hi : i < keys.len - n
        · rw [if_pos hi]
          rw [hnone (n + i) (by omega)]
          refine Classical.byContradiction fun h10 => ?_
          have := (h8 (n + i) (by omega)).1 h10
          omega
        · rw [if_neg hi, List.getElem?_eq_none (by omega)]
      have h10 : ((acc.take n).filterMap id).map some = acc.take n := by
        have : ∀ l : List (Option Handle), (∀ x ∈ l, x ≠ none) → (l.filterMap id).map some = l := by
          intro l
          induction l with
          | nil => intro _; rfl
          | cons o l ih =>
            intro h
            cases o with
            | none => exact absurd rfl (h none (by simp))
            | some x =>
              show some x :: (l.filterMap id).map some = _
              rw [ih (fun y hy => h y (by simp [hy]))]
        apply this
        intro x hx hxn
        subst hxn
        obtain ⟨p, hp, h11⟩ := List.getElem_of_mem hx
        rw [List.length_take] at hp
        have h12 : acc[p]? = some none := by
          rw [List.getElem?_eq_getElem (by omega)]
          rw [List.getElem_take] at h11
          rw [h11]
        exact (h8 p (by omega)).2 (by omega) ((hnone p (by omega)).1 h12)
      rw [h10, ← h9, List.take_append_drop]
    · rw [hg]
      rcases collectHandles_inv (l := acc) (n := acc.countP Option.isSome) (i := 0) with h8 | ⟨hs', k, h8, _⟩
      · exact liftE_error h8
      · exact absurd ⟨hs', k, h8⟩ hpre

/-! ## Reading -/

/-- The fragments of the handles. -/
def fragsOf (m : KV) (hs : List Handle) : List Bytes := hs.map fun h => (m h.key).getD []

theorem Frags.eq_range {keys : Keys} {s : St} {m : KV} {n : Nat} {hs : List Handle} (h : Frags F keys s m n hs) :
    fragsOf m hs = (List.range n).map fun p => (m (keys.key p)).getD [] := by
  apply List.ext_getElem
  · simp [fragsOf, h.length]
  · intro i h1 h2
    simp only [fragsOf, List.getElem_map, List.getElem_range]
    rw [h.key i (by simpa [fragsOf] using h1)]

theorem readLoop_spec {s : St} {m : KV} {hs : List Handle} (h : ∀ h ∈ hs, ∃ v, m h.key = some v ∧ getValue F h s = (.ok v, s)) :
    readLoop F hs s = (.ok (fragsOf m hs).flatten, s) := by
  induction hs with
  | nil => rfl
  | cons x hs ih =>
    obtain ⟨v, h1, h2⟩ := h x (List.mem_cons_self ..)
    rw [readLoop, ok_bind h2, ok_bind (ih (fun y hy => h y (List.mem_cons_of_mem _ hy)))]
    simp only [fragsOf, List.map_cons, h1, List.flatten_cons]
    rfl

theorem slice_append (x y : Bytes) (a b : Nat) : ((x ++ y).take b).drop a = (x.take b).drop a ++ (y.take (b - x.length)).drop (a - x.length) := by
  rw [List.take_append, List.drop_append, List.length_take]
  congr 1
  by_cases h : x.length ≤ b
  · rw [Nat.min_eq_right h]
  · rw [show b - x.length = 0 by omega]; simp

theorem rangeLoop_spec {s : St} {m : KV} {a b : Nat} {hs : List Handle} :
    ∀ {off : Nat}, (∀ h ∈ hs, ∃ v, m h.key = some v ∧ getValue F h s = (.ok v, s)) →
    rangeLoop F a b off hs s = (.ok (((fragsOf m hs).flatten.take (b - off)).drop (a - off)), s) := by
  induction hs with
  | nil => intro off _; simp [rangeLoop, fragsOf, M.pure]
  | cons x hs ih =>
    intro off h
    obtain ⟨v, h1, h2⟩ := h x (List.mem_cons_self ..)
    have h3 : rangePart F x (a - off) (min (b - off) v.length) s = (.ok ((v.take (b - off)).drop (a - off)), s) := by
      unfold rangePart
      by_cases hlt : a - off < min (b - off) v.length
      · rw [if_pos hlt, ok_bind h2]
        apply liftE_ok
        rw [sliceOf, if_pos ⟨by omega, by simp only; omega⟩]
        simp only
        rw [List.drop_take]
        congr 1
        rw [List.take_eq_take_iff, List.length_drop]
        omega
      · rw [if_neg hlt]
        have : (v.take (b - off)).drop (a - off) = [] := by
          rw [List.drop_eq_nil_iff, List.length_take]; omega
        rw [this]; rfl
    rw [rangeLoop, ok_bind (getLength_of_getValue h2), ok_bind h3, ok_bind (ih (fun y hy => h y (List.mem_cons_of_mem _ hy)))]
    simp only [fragsOf, List.map_cons, h1, List.flatten_cons, Option.getD_some]
    rw [slice_append, Nat.sub_sub, Nat.sub_sub]
    rfl

/-! ## Chunks -/

theorem chunksLoop_get {n : Nat} (hn : 0 < n) : ∀ {fuel : Nat} {v : Bytes}, v.length ≤ fuel → ∀ p, (chunksLoop n fuel v)[p]? = fragmentAt n v p := by
  intro fuel
  induction fuel with
  | zero =>
    intro v hv p
    simp [chunksLoop, fragmentAt, List.length_eq_zero_iff.1 (by omega : v.length = 0)]
  | succ fuel ih =>
    intro v hv p
    rw [chunksLoop]
    by_cases h : v = []
    · rw [if_pos h, h]; simp [fragmentAt]
    · have hl : 0 < v.length := List.length_pos_iff.2 h
      rw [if_neg h]
      cases p with
      | zero => simp [fragmentAt, hl]
      | succ p =>
        rw [List.getElem?_cons_succ, ih (by simp; omega)]
        unfold fragmentAt
        rw [List.length_drop, List.drop_drop, Nat.succ_mul]
        by_cases h1 : p * n < v.length - n
        · rw [if_pos h1, if_pos (by omega), Nat.add_comm n]
        · rw [if_neg h1, if_neg (by omega)]

theorem chunks_get {n : Nat} (hn : 0 < n) (v : Bytes) (p : Nat) : (chunks n v)[p]? = fragmentAt n v p := chunksLoop_get hn (Nat.le_refl _) p

theorem chunksLoop_flatten {n : Nat} (hn : 0 < n) : ∀ {fuel : Nat} {v : Bytes}, v.length ≤ fuel → (chunksLoop n fuel v).flatten = v := by
  intro fuel
  induction fuel with
  | zero => intro v hv; simp [chunksLoop, List.length_eq_zero_iff.1 (by omega : v.length = 0)]
  | succ fuel ih =>
    intro v hv
    rw [chunksLoop]
    by_cases h : v = []
    · rw [if_pos h, h]; rfl
    · have hl : 0 < v.length := List.length_pos_iff.2 h
      rw [if_neg h, List.flatten_cons, ih (by simp; omega), List.take_append_drop]

theorem chunks_nil {n : Nat} (hn : 0 < n) {v : Bytes} : chunks n v = [] ↔ v = [] := by
  constructor
  · intro h
    rw [← chunksLoop_flatten hn (Nat.le_refl v.length)]
    show (chunks n v).flatten = _
    rw [h]; rfl
  · rintro rfl; rfl

theorem chunks_length {n : Nat} (hn : 0 < n) (v : Bytes) (k : Nat) : (chunks n v).length ≤ k ↔ v.length ≤ k * n := by
  rw [← List.getElem?_eq_none_iff, chunks_get hn, fragmentAt]
  split <;> simp <;> omega

theorem held_of_get {keys : Keys} {m : KV} {cs : List Bytes} (hl : cs.length ≤ keys.len) (h : ∀ p, p < keys.len → m (keys.key p) = cs[p]?) :
    Held keys m (if cs.length = 0 then none else some cs.flatten) := by
  refine ⟨cs.length, hl, fun p hp => ?_, ?_⟩
  · rw [h p hp]; simp
  · have : (List.range cs.length).map (fun p => (m (keys.key p)).getD []) = cs := by
      apply List.ext_getElem
      · simp
      · intro i h1 h2
        simp only [List.getElem_map, List.getElem_range]
        rw [h i (by omega), List.getElem?_eq_getElem h2]; rfl
    rw [this]

/-! ## Writing -/

theorem planUpdates_spec {keys : Keys} (hl : keys.Lawful) {s : St} {m : KV} :
    ∀ {n pos : Nat} {hs : List Handle} {cs : List Bytes}, pos + n ≤ keys.len →
    (∀ h ∈ hs, ∃ v, m h.key = some v ∧ getValue F h s = (.ok v, s)) →
    ∃ us, planUpdates F keys n pos hs cs s = (.ok (us, cs.drop n), s) ∧
      ∀ m0 : KV, (∀ i, i < n → m0 (keys.key (pos + i)) = (hs[i]?).bind fun h => m h.key) →
        (∀ i, i < n → m0.transact us (keys.key (pos + i)) = cs[i]?) ∧
        ∀ k, (∀ i, i < n → k ≠ keys.key (pos + i)) → m0.transact us k = m0 k := by
  intro n
  induction n with
  | zero =>
    intro pos hs cs _ _
    refine ⟨[], by rw [planUpdates]; rfl, fun m0 _ => ⟨fun i hi => by omega, fun k _ => rfl⟩⟩
  | succ n ih =>
    intro pos hs cs hp hv
    -- the update of the first position, and the others
    have step : ∀ {cs' : List Bytes} {hs' : List Handle} {us us' : List Update},
        (∀ i, hs'[i]? = hs[i + 1]?) → (∀ i, cs'[i]? = cs[i + 1]?) →
        (∀ m0 : KV, m0 (keys.key pos) = (hs[0]?).bind (fun h => m h.key) →
          ∃ m1 : KV, m0.transact us' = m1.transact us ∧ m1 (keys.key pos) = cs[0]? ∧ ∀ k, k ≠ keys.key pos → m1 k = m0 k) →
        (∀ m0 : KV, (∀ i, i < n → m0 (keys.key (pos + 1 + i)) = (hs'[i]?).bind fun h => m h.key) →
          (∀ i, i < n → m0.transact us (keys.key (pos + 1 + i)) = cs'[i]?) ∧
          ∀ k, (∀ i, i < n → k ≠ keys.key (pos + 1 + i)) → m0.transact us k = m0 k) →
        ∀ m0 : KV, (∀ i, i < n + 1 → m0 (keys.key (pos + i)) = (hs[i]?).bind fun h => m h.key) →
          (∀ i, i < n + 1 → m0.transact us' (keys.key (pos + i)) = cs[i]?) ∧
          ∀ k, (∀ i, i < n + 1 → k ≠ keys.key (pos + i)) → m0.transact us' k = m0 k := by
      intro cs' hs' us us' h1 h2 h3 h4 m0 h5
      obtain ⟨m1, h6, h7, h8⟩ := h3 m0 (h5 0 (by omega))
      have hne : ∀ i, i < n → keys.key (pos + 1 + i) ≠ keys.key pos := by
        intro i hi e
        have := hl.inj (by omega) (by omega) e
        omega
      obtain ⟨h9, h10⟩ := h4 m1 (by
        intro i hi
        rw [h8 _ (hne i hi), h1, show pos + 1 + i = pos + (i + 1) by omega]
        exact h5 (i + 1) (by omega))
      rw [h6]
      constructor
      · intro i hi
        cases i with
        | zero =>
          rw [Nat.add_zero, h10 _ (fun i hi => (hne i hi).symm), h7]
        | succ i =>
          rw [← h2, show pos + (i + 1) = pos + 1 + i by omega]
          exact h9 i (by omega)
      · intro k hk
        rw [h10 k (fun i hi => by rw [show pos + 1 + i = pos + (i + 1) by omega]; exact hk (i + 1) (by omega)),
          h8 k (hk 0 (by omega))]
    match hs, cs, hv with
    | [], [], _ =>
      obtain ⟨us, h1, h2⟩ := ih (pos := pos + 1) (hs := []) (cs := []) (by omega) (by simp)
      refine ⟨us, by rw [planUpdates, h1]; simp, step (by simp) (by simp) (fun m0 h => ⟨m0, rfl, by simpa using h, fun _ _ => rfl⟩) h2⟩
    | x :: hs, [], hv =>
      obtain ⟨us, h1, h2⟩ := ih (pos := pos + 1) (hs := hs) (cs := []) (by omega) (fun h hh => hv h (List.mem_cons_of_mem _ hh))
      refine ⟨.remove (keys.key pos) :: us, by rw [planUpdates, ok_bind h1]; simp [M.pure], step (by simp) (by simp) ?_ h2⟩
      intro m0 _
      exact ⟨m0.put (keys.key pos) none, rfl, by simp [KV.put], fun k hk => by simp [KV.put, hk]⟩
    | x :: hs, c :: cs, hv =>
      obtain ⟨us, h1, h2⟩ := ih (pos := pos + 1) (hs := hs) (cs := cs) (by omega) (fun h hh => hv h (List.mem_cons_of_mem _ hh))
      obtain ⟨v, h3, h4⟩ := hv x (List.mem_cons_self ..)
      by_cases hc : v = c
      · refine ⟨us, by rw [planUpdates, ok_bind h4, ok_bind h1, if_pos hc]; simp [M.pure], step (by simp) (by simp) ?_ h2⟩
        intro m0 h5
        refine ⟨m0, rfl, ?_, fun _ _ => rfl⟩
        rw [h5]
        simp [h3, hc]
      · refine ⟨.insert (keys.key pos) c :: us, by rw [planUpdates, ok_bind h4, ok_bind h1, if_neg hc]; simp [M.pure],
          step (by simp) (by simp) ?_ h2⟩
        intro m0 _
        exact ⟨m0.put (keys.key pos) (some c), rfl, by simp [KV.put], fun k hk => by simp [KV.put, hk]⟩
    | [], c :: cs, _ =>
      obtain ⟨us, h1, h2⟩ := ih (pos := pos + 1) (hs := []) (cs := cs) (by omega) (by simp)
      refine ⟨.insert (keys.key pos) c :: us, by rw [planUpdates, ok_bind h1]; simp [M.pure], step (by simp) (by simp) ?_ h2⟩
      intro m0 _
      exact ⟨m0.put (keys.key pos) (some c), rfl, by simp [KV.put], fun k hk => by simp [KV.put, hk]⟩

/-- Writing is a transaction that gives the fragments, unless the value is too long. -/
theorem fragWrite_spec {keys : Keys} (hl : keys.Lawful) (hM : 0 < F.maxValueLen) {s : St} {m : KV} {n : Nat} {hs : List Handle}
    (hp : ∀ p, p < keys.len → (m (keys.key p) ≠ none ↔ p < n)) (h : Frags F keys s m n hs) (v : Bytes) :
    (keys.len * F.maxValueLen < v.length ∧ fragWrite F keys v s = (.err .invalidArgument, s)) ∨
    (v.length ≤ keys.len * F.maxValueLen ∧ ∃ us, fragWrite F keys v s = Op.run F (.transaction us) s ∧ Fragmented F keys m v (m.transact us)) := by
  obtain ⟨us, h1, h2⟩ := planUpdates_spec hl (pos := 0) (n := keys.len) (cs := chunks F.maxValueLen v) (by omega) h.value
  have hw : fragWrite F keys v s = (if ((chunks F.maxValueLen v).drop keys.len) ≠ [] then fail .invalidArgument else transaction F us : M Unit) s := by
    unfold fragWrite
    rw [ok_bind h.eq, if_neg (by omega), ok_bind h1]
  have hd : (chunks F.maxValueLen v).drop keys.len = [] ↔ v.length ≤ keys.len * F.maxValueLen := by
    rw [List.drop_eq_nil_iff, chunks_length hM]
  by_cases hle : v.length ≤ keys.len * F.maxValueLen
  · refine .inr ⟨hle, us, ?_, ?_⟩
    · rw [hw, if_neg (by simpa using hd.2 hle)]; rfl
    · obtain ⟨h3, h4⟩ := h2 m (by
        intro i hi
        rw [Nat.zero_add]
        by_cases hin : i < n
        · rw [List.getElem?_eq_getElem (by rw [h.length]; exact hin)]
          simp [h.key]
        · rw [List.getElem?_eq_none (by rw [h.length]; omega)]
          exact Classical.byContradiction fun h5 => hin ((hp i hi).1 h5))
      refine ⟨fun p hpl => ?_, fun k hk => h4 k (fun i hi => by rw [Nat.zero_add]; exact hk i hi)⟩
      have := h3 p hpl
      rwa [Nat.zero_add, chunks_get hM] at this
  · refine .inl ⟨by omega, ?_⟩
    rw [hw, if_pos (by rw [Ne, hd]; exact hle)]; rfl

theorem fragmented_held {keys : Keys} (hM : 0 < F.maxValueLen) {m m' : KV} {v : Bytes} (hv : v.length ≤ keys.len * F.maxValueLen)
    (h : Fragmented F keys m v m') : Held keys m' (readsAs v) := by
  have h1 := held_of_get (keys := keys) (m := m') (cs := chunks F.maxValueLen v) ((chunks_length hM ..).2 hv)
    (fun p hp => by rw [h.1 p hp, chunks_get hM])
  have h2 : readsAs v = if (chunks F.maxValueLen v).length = 0 then none else some (chunks F.maxValueLen v).flatten := by
    unfold readsAs
    have h3 : (chunks F.maxValueLen v).length = 0 ↔ v = [] := by rw [List.length_eq_zero_iff, chunks_nil hM]
    by_cases h4 : v = []
    · rw [if_pos h4, if_pos (h3.2 h4)]
    · rw [if_neg h4, if_neg (fun h5 => h4 (h3.1 h5))]
      congr 1
      exact (chunksLoop_flatten hM (Nat.le_refl _)).symm
  rw [h2]
  exact h1

/-- Removing keys. -/
theorem transact_remove (l : List Nat) : ∀ (m : KV) (k : Nat), m.transact (l.map Update.remove) k = if k ∈ l then none else m k := by
  induction l with
  | nil => intro m k; simp [KV.transact]
  | cons x l ih =>
    intro m k
    show (m.put x none).transact (l.map Update.remove) k = _
    rw [ih]
    by_cases h : k = x
    · subst h; simp [KV.put]
    · simp [KV.put, h]

/-- Deleting is a transaction that removes the fragments. -/
theorem fragDelete_spec {keys : Keys} {s : St} {m : KV} {n : Nat} {hs : List Handle} (hn : n ≤ keys.len)
    (hp : ∀ p, p < keys.len → (m (keys.key p) ≠ none ↔ p < n)) (h : Frags F keys s m n hs) :
    ∃ us, fragDelete F keys s = Op.run F (.transaction us) s ∧ Fragmented F keys m [] (m.transact us) := by
  have hk : hs.map Handle.key = (List.range n).map keys.key := by
    apply List.ext_getElem
    · simp [h.length]
    · intro i h1 h2
      simp only [List.getElem_map, List.getElem_range]
      exact h.key i (by simpa using h1)
  have hmem : ∀ k, k ∈ hs.map Handle.key ↔ ∃ p, p < n ∧ keys.key p = k := by
    intro k; rw [hk]; simp
  refine ⟨(hs.map Handle.key).map .remove, ?_, ?_, ?_⟩
  · unfold fragDelete
    rw [ok_bind h.eq, List.map_map]; rfl
  · intro p hpl
    rw [transact_remove]
    simp only [fragmentAt, List.length_nil, Nat.not_lt_zero, if_false]
    by_cases h1 : p < n
    · rw [if_pos ((hmem _).2 ⟨p, h1, rfl⟩)]
    · split
      · rfl
      · exact Classical.byContradiction fun h5 => h1 ((hp p hpl).1 h5)
  · intro k hk
    rw [transact_remove, if_neg]
    rintro h1
    obtain ⟨p, h2, h3⟩ := (hmem k).1 h1
    exact hk p (by omega) h3.symm

end Verif.Store
