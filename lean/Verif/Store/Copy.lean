import Verif.Store.Trans

/-!
# Copying entries
-/
namespace Verif.Store

variable {F : Format}

/-- The words of an entry that is copied. -/
def Item.words : Item → List Word
  | .user k v => userWords k v
  | .int e => [intWord e]
  | _ => []

/-- The number of words of an entry that is copied. -/
def Item.size : Item → Nat
  | .user _ v => 1 + bytesToWords v.length
  | _ => 1

/-- The entry can be written. -/
def Item.Ok (F : Format) : Item → Prop
  | .user k v => k ≤ maxKey ∧ v.length ≤ F.maxValueLen
  | .int e => e.InRange F
  | _ => False

theorem Item.Ok.len (hF : Sizes F) {it : Item} (h : it.Ok F) : it.words.length = it.size := by
  cases it with
  | user k v => exact userWords_length hF h.1 h.2
  | int e => rfl
  | pad => exact h.elim
  | gap => exact h.elim

theorem Item.Ok.le (_hF : Sizes F) {it : Item} (h : it.Ok F) : it.size ≤ 1 + F.M := by
  cases it with
  | user k v => have := maxLen_words h.2; simp only [Item.size]; omega
  | int e => simp only [Item.size]; omega
  | pad => exact h.elim
  | gap => exact h.elim

theorem Item.pos (it : Item) : 0 < it.size := by cases it <;> simp only [Item.size] <;> omega

theorem Item.Ok.ne {it : Item} (h : it.Ok F) : it ≠ .gap ∧ it ≠ .pad := by
  cases it with
  | user k v => simp
  | int e => simp
  | pad => exact h.elim
  | gap => exact h.elim

theorem Item.Ok.at (hF : Sizes F) {it : Item} (h : it.Ok F) {fl : Flash} {p q : Nat} :
    ItemAt F fl p q it ↔ q = p + it.size ∧ WordsAt F fl p it.words := by
  cases it with
  | user k v =>
    constructor
    · rintro ⟨_, _, h3, h4⟩
      exact ⟨by rw [h3]; simp only [Item.size]; omega, h4⟩
    · rintro ⟨h3, h4⟩
      exact ⟨h.1, h.2, by rw [h3]; simp only [Item.size]; omega, h4⟩
  | int e =>
    constructor
    · rintro ⟨_, h3, h4⟩
      refine ⟨h4, fun i hi => ?_⟩
      have : i = 0 := by simpa [Item.words] using hi
      subst this
      exact h3
    · rintro ⟨h3, h4⟩
      exact ⟨h, h4 0 (by simp [Item.words]), h3⟩
  | pad => exact h.elim
  | gap => exact h.elim

/-- The size of entries. -/
def total (its : List Item) : Nat := (its.map Item.size).sum

/-- Entries one after the other. -/
def place : Nat → List Item → List Slot
  | _, [] => []
  | T, it :: its => ⟨T, T + it.size, it⟩ :: place (T + it.size) its

theorem total_cons (it : Item) (its : List Item) : total (it :: its) = it.size + total its := by simp [total]
theorem total_append (a b : List Item) : total (a ++ b) = total a + total b := by simp [total]

theorem place_append : (a b : List Item) → (T : Nat) → place T (a ++ b) = place T a ++ place (T + total a) b
  | [], b, T => rfl
  | it :: a, b, T => by
    show _ :: place _ (a ++ b) = _
    rw [place_append a b, total_cons, Nat.add_assoc]; rfl

theorem place_mem : {its : List Item} → {T : Nat} → ∀ s ∈ place T its, T ≤ s.p ∧ s.it ∈ its
  | [], _, s, hs => by simp [place] at hs
  | it :: its, T, s, hs => by
    rcases List.mem_cons.1 hs with h | h
    · subst h; exact ⟨Nat.le_refl _, by simp⟩
    · have := place_mem s h
      exact ⟨by omega, List.mem_cons_of_mem _ this.2⟩

section
variable {fl fl' : Flash} {g : Geo}

/-- The storage while entries are copied: `more` are copied, and the first of `rest` may be written partially. -/
def PS (F : Format) (fl : Flash) (g : Geo) (S : List Slot) (T : Nat) (more rest : List Item) : Prop :=
  ∃ c e, Log F fl g (S ++ place T more) (T + total more) c e ∧
    ((c = T + total more ∧ (e = c ∨ ∃ it rest', rest = it :: rest' ∧ WordsAbove F fl c it.words ∧ e = c + it.size)) ∨
      (e = T + total more ∧ more ≠ []))

/-- The storage while entries are copied. -/
def Prog (F : Format) (fl : Flash) (g : Geo) (S : List Slot) (T : Nat) (its : List Item) : Prop :=
  ∃ more rest, its = more ++ rest ∧ PS F fl g S T more rest

theorem Prog.start {S : List Slot} {T : Nat} {its : List Item} (L : Log F fl g S T T T) : Prog F fl g S T its :=
  ⟨[], its, rfl, T, T, by simpa [place, total] using L, .inl ⟨rfl, .inl rfl⟩⟩

theorem PS.cons {S : List Slot} {T : Nat} {it : Item} {more rest : List Item} (h : PS F fl g (S ++ [⟨T, T + it.size, it⟩]) (T + it.size) more rest) :
    PS F fl g S T (it :: more) rest := by
  obtain ⟨c, e, L, h1⟩ := h
  have e1 : S ++ [⟨T, T + it.size, it⟩] ++ place (T + it.size) more = S ++ place T (it :: more) := by simp [place]
  have e2 : T + it.size + total more = T + total (it :: more) := by rw [total_cons]; omega
  rw [e1, e2] at L
  rw [e2] at h1
  refine ⟨c, e, L, ?_⟩
  rcases h1 with h1 | ⟨h1, _⟩
  · exact .inl h1
  · exact .inr ⟨h1, by simp⟩

theorem Prog.cons {S : List Slot} {T : Nat} {it : Item} {its : List Item} (h : Prog F fl g (S ++ [⟨T, T + it.size, it⟩]) (T + it.size) its) :
    Prog F fl g S T (it :: its) := by
  obtain ⟨more, rest, h1, h2⟩ := h
  exact ⟨it :: more, rest, by rw [h1]; rfl, h2.cons⟩

theorem Prog.append {S : List Slot} : {d : List Item} → {T : Nat} → {S : List Slot} → {its : List Item} →
    Prog F fl g (S ++ place T d) (T + total d) its → Prog F fl g S T (d ++ its)
  | [], T, S, its, h => by simpa [place, total] using h
  | it :: d, T, S, its, h => by
    refine Prog.cons (Prog.append (S := S) (d := d) ?_)
    rw [List.append_assoc, Nat.add_assoc, ← total_cons]; exact h

theorem Prog.chain {S : List Slot} {T : Nat} {its : List Item} (h : Prog F fl g S T its) : Chain F fl g.h S T := by
  obtain ⟨more, rest, _, c, e, L, _⟩ := h
  obtain ⟨x, h1, h2⟩ := L.chain.of_append
  cases more with
  | nil =>
    have : x = T + total [] := h2
    rw [this] at h1; exact h1
  | cons it more =>
    have : T = x := h2.1
    rw [this]; exact h1

/-- Writing the next entry. -/
theorem Prog.write (hF : Sizes F) {S : List Slot} {T : Nat} {it : Item} {its : List Item} (h : Prog F fl g S T (it :: its)) (hok : it.Ok F)
    (hfit : T + it.size ≤ g.b * F.Q + F.N * F.Q) :
    Fls (writeSlice F T it.words) fl (fun _ fl' => ∃ more rest, its = more ++ rest ∧ PS F fl' g S T (it :: more) rest)
      (fun fl' => Prog F fl' g S T (it :: its)) := by
  obtain ⟨more, rest, h1, h2⟩ := h
  have hlen := hok.len hF
  have hle := hok.le hF
  have hmq := hF.mq
  cases more with
  | cons it' more =>
    obtain ⟨rfl, rfl⟩ := List.cons.inj h1
    have h2' := h2
    obtain ⟨c, e, L, _⟩ := h2
    have hm := (L.chain.mem ⟨T, T + it.size, it⟩ (by simp [place])).2.2.2
    refine fls_mono (writeSlice_same hF (by omega) ((hok.at hF).1 hm).2) ?_ (fun _ h => h.elim)
    rintro _ _ rfl
    exact ⟨more, rest, rfl, h2'⟩
  | nil =>
    obtain ⟨c, e, L, h3⟩ := h2
    simp only [place, List.append_nil, total, List.map_nil, List.sum_nil, Nat.add_zero] at L h3
    rw [List.nil_append] at h1
    subst h1
    have hbase : c = T ∧ (e = c ∨ WordsAbove F fl c it.words ∧ e = c + it.size) := by
      rcases h3 with ⟨h3, h4 | ⟨it', rest', h4, h5, h6⟩⟩ | ⟨_, h3⟩
      · exact ⟨h3, .inl h4⟩
      · obtain ⟨rfl, rfl⟩ := List.cons.inj h4
        exact ⟨h3, .inr ⟨h5, h6⟩⟩
      · exact absurd rfl h3
    obtain ⟨rfl, hbase⟩ := hbase
    have hct := L.ct hF
    have hb := L.hb
    have habove : WordsAbove F fl c it.words := by
      rcases hbase with h4 | h4
      · intro i hi
        subst h4
        rw [L.blank _ (by omega) (by omega)]; exact le_erased _
      · exact h4.1
    have hopen : ∀ fl', Fr F g.b fl fl' c (c + it.size) → Log F fl' g S c c (c + it.size) := by
      intro fl' hf
      rcases hbase with h4 | ⟨_, h4⟩
      · subst h4
        exact L.open hF hf (by omega) (Nat.le_refl _) (by omega) hfit (fun x h5 h6 => by omega)
      · subst h4
        exact L.rewrite hF hf
    refine fls_mono (writeSlice_fls hF (b := g.b) (by omega) (by omega) (by omega) habove) ?_ ?_
    · intro _ fl' hp
      have hf := hp.fr
      rw [hlen] at hf
      have L' := (hopen fl' hf).push hF ((hok.at hF).2 ⟨rfl, hp.here⟩) hok.ne.1
      refine ⟨[], its, rfl, c, c + it.size, ?_, .inr ⟨by simp [total], by simp⟩⟩
      simpa [place, total] using L'
    · intro fl' hp
      have hf := hp.fr
      rw [hlen] at hf
      refine ⟨[], it :: its, rfl, c, c + it.size, ?_, .inl ⟨by simp [total], .inr ⟨it, its, rfl, hp.above, rfl⟩⟩⟩
      simpa [place, total] using hopen fl' hf

/-- Initializing the page of the entry. -/
theorem Prog.init (hF : Sizes F) {S : List Slot} {T : Nat} {it : Item} {its : List Item} {more rest : List Item} (h1 : its = more ++ rest)
    (h : PS F fl g S T (it :: more) rest) (hok : it.Ok F) (hT : g.b * F.Q < T) :
    Fls (initPage F T (T + (it.size - 1))) fl (fun _ fl' => Prog F fl' g (S ++ [⟨T, T + it.size, it⟩]) (T + it.size) its)
      (fun fl' => Prog F fl' g S T (it :: its)) := by
  have hpos := it.pos
  have hle := hok.le hF
  have hcrash : ∀ fl', PS F fl' g S T (it :: more) rest → Prog F fl' g S T (it :: its) := fun fl' h => ⟨it :: more, rest, by rw [h1]; rfl, h⟩
  obtain ⟨c, e, L, h2⟩ := h
  have e1 : S ++ place T (it :: more) = S ++ [⟨T, T + it.size, it⟩] ++ place (T + it.size) more := by simp [place]
  have e2 : T + total (it :: more) = T + it.size + total more := by rw [total_cons]; omega
  have hew := L.ew
  have hte := L.te
  rw [show T + (it.size - 1) = T + (T + it.size - T - 1) by omega]
  have hdone : T + it.size ≤ c → (more = [] → c = T + it.size ∧ e = c ∨ rest ≠ [] ∧ c = T + it.size) →
      Fls (initPage F T (T + (T + it.size - T - 1))) fl (fun _ fl' => fl' = fl) (fun _ => False) := by
    intro hc _
    refine initPage_done hF (b := g.b) (by omega) (by omega) ⟨by omega, by omega⟩ (by omega) ?_
    intro a h3 h4 h5 h6
    by_cases hab : a = g.b
    · subst hab; omega
    · obtain ⟨x, c1, c2, c3, _⟩ := L.cov a (by omega) (by omega)
      exact ⟨_, (HeadAt.of_word hF c1 c2 (cyc_le hF L.hE h4) c3).word⟩
  cases more with
  | cons it' more =>
    have hc : T + it.size ≤ c := by
      rcases h2 with ⟨h2, _⟩ | ⟨h2, _⟩
      · omega
      · rcases L.hc with h3 | ⟨_, s1, s, h3, h4, _⟩
        · omega
        · have : s ∈ place (T + it.size) (it' :: more) := by
            have e3 := congrArg List.getLast? h3
            rw [e1] at e3
            rcases List.eq_nil_or_concat (place (T + it.size) (it' :: more)) with h5 | ⟨l, z, h5⟩
            · simp [place] at h5
            · rw [h5, List.concat_eq_append, ← List.append_assoc, List.getLast?_concat, List.getLast?_concat] at e3
              rw [h5, ← Option.some.inj e3]; simp
          have := (place_mem s this).1
          omega
    refine fls_mono (hdone hc (by simp)) ?_ (fun _ h => h.elim)
    rintro _ _ rfl
    refine ⟨it' :: more, rest, h1, c, e, ?_, ?_⟩
    · rw [← e1, ← e2]; exact L
    · rw [← e2]
      rcases h2 with h2 | ⟨h2, _⟩
      · exact .inl h2
      · exact .inr ⟨h2, by simp⟩
  | nil =>
    simp only [total, List.map_nil, List.sum_nil, Nat.add_zero] at e2
    have e2' : T + total [it] = T + it.size := by simp [total]
    have hL0 : ∀ fl' c e, Log F fl' g (S ++ place T [it]) (T + total [it]) c e →
        Log F fl' g (S ++ [⟨T, T + it.size, it⟩] ++ place (T + it.size) []) (T + it.size + total []) c e := by
      intro fl' c e h
      simpa [place, total] using h
    have hcase : (c = T + it.size ∧ (e = c ∨ ∃ it' rest', rest = it' :: rest' ∧ WordsAbove F fl c it'.words ∧ e = c + it'.size)) ∨
        (e = T + it.size ∧ c = T) := by
      rcases h2 with ⟨h2, h3⟩ | ⟨h2, _⟩
      · exact .inl ⟨by omega, h3⟩
      · rcases L.hc with h3 | ⟨_, s1, s, h3, h4, _⟩
        · exact .inl ⟨by omega, .inl (by omega)⟩
        · right
          refine ⟨by omega, ?_⟩
          have e3 := congrArg List.getLast? h3
          simp only [place, List.getLast?_concat] at e3
          have := Option.some.inj e3
          rw [← h4, ← this]
    rcases hcase with ⟨hc, h3⟩ | ⟨he, hc⟩
    · refine fls_mono (hdone (by omega) ?_) ?_ (fun _ h => h.elim)
      · intro _
        rcases h3 with h3 | ⟨_, _, h3, _⟩
        · exact .inl ⟨hc, h3⟩
        · exact .inr ⟨by rw [h3]; simp, hc⟩
      · rintro _ _ rfl
        refine ⟨[], rest, h1, c, e, hL0 _ _ _ L, .inl ⟨by simp [total, hc], h3⟩⟩
    · have hi := L.initPage hF (by omega)
      rw [he, hc] at hi
      refine fls_mono hi ?_ ?_
      · rintro _ fl' ⟨_, L1, h4⟩
        rw [e2'] at L1
        have L2 := L1.done hF h4
        refine ⟨[], rest, h1, T + it.size, T + it.size, hL0 _ _ _ (by rw [e2']; exact L2), .inl ⟨by simp [total], .inl rfl⟩⟩
      · rintro fl' ⟨_, L1⟩
        exact hcrash fl' ⟨T, T + it.size, L1, .inr ⟨by rw [e2'], by simp⟩⟩

end

/-- The store's fields for a log; the list of entries may not be known yet. -/
def EntsI (i : Bool) (st : St) (g : Geo) (slots : List Slot) : Prop :=
  st.head = some g.h ∧ match i with
    | true => ∃ es, st.entries = some es ∧ (es.map (g.h + ·)).Perm (upos slots)
    | false => st.entries = none

theorem EntsI.congr {i : Bool} {s s' : St} {g : Geo} {slots slots' : List Slot} (h : EntsI i s g slots) (h1 : s'.head = s.head) (h2 : s'.entries = s.entries)
    (h3 : (upos slots).Perm (upos slots')) : EntsI i s' g slots' := by
  cases i with
  | true =>
    obtain ⟨h4, es, h5, h6⟩ := h
    exact ⟨h1.trans h4, es, h2.trans h5, h6.trans h3⟩
  | false => exact ⟨h1.trans h.1, h2.trans h.2⟩

/-- The entries that are copied. -/
def users (stop : Nat) (src : List Slot) : List Item := ((uents (src.filter fun s => decide (s.p < stop)))).map fun kv => .user kv.1 kv.2

/-- The first position of the entries. -/
def Starts (src : List Slot) (T p : Nat) : Prop :=
  match src with
  | [] => p = T
  | s :: _ => s.p = p

theorem Chain.starts {fl : Flash} {p T : Nat} {src : List Slot} (h : Chain F fl p src T) : Starts src T p := by
  cases src with
  | nil => exact h
  | cons s src => exact h.1

theorem Starts.uniq {src : List Slot} {T p p' : Nat} (h : Starts src T p) (h' : Starts src T p') : p = p' := by
  cases src with
  | nil => exact h.trans h'.symm
  | cons s src => exact h.symm.trans h'

theorem gap_parse {fl : Flash} {p q : Nat} (h : ItemAt F fl p q .gap) :
    parseEntry F fl p = .ok (.tail, p) ∨ ∃ n, parseEntry F fl p = .ok (.partly, p + 1 + n) ∧ q < p + 1 + n := by
  obtain ⟨h1, h2, h3⟩ := h
  have h0 : readWord F fl p = erasedWord := h3 p (Nat.le_refl _) h1
  simp only [parseEntry, h0, parseWord_erased, parsePartly]
  cases hl : lastWritten F fl p F.M with
  | none => exact .inl rfl
  | some n =>
    right
    refine ⟨n, rfl, ?_⟩
    have : readWord F fl (p + n) ≠ erasedWord := by
      have e : ∀ m n, lastWritten F fl p m = some n → readWord F fl (p + n) ≠ erasedWord := by
        intro m
        induction m with
        | zero => intro n h; simp [lastWritten] at h
        | succ m ih =>
          intro n h
          simp only [lastWritten] at h
          split at h
          · rename_i h4; cases h; exact h4
          · exact ih n h
      exact e _ _ hl
    rcases Nat.lt_or_ge (p + n) q with h4 | h4
    · exact absurd (h3 _ (by omega) h4) this
    · omega

theorem users_cons_user {stop : Nat} {s : Slot} {src : List Slot} {k : Nat} {v : Bytes} (h : s.it = .user k v) (hp : s.p < stop) :
    users stop (s :: src) = .user k v :: users stop src := by
  simp [users, hp, uents, Slot.ent, h]

theorem users_cons_skip {stop : Nat} {s : Slot} {src : List Slot} (h : ∀ k v, s.it ≠ .user k v) : users stop (s :: src) = users stop src := by
  have : s.ent = none := by
    unfold Slot.ent
    split
    · rename_i k v e; exact absurd e (h k v)
    · rfl
  unfold users
  rw [List.filter_cons]
  split
  · simp [uents, this]
  · rfl

theorem users_after {stop : Nat} {src : List Slot} (h : ∀ s ∈ src, stop ≤ s.p) : users stop src = [] := by
  have : src.filter (fun s => decide (s.p < stop)) = [] := by
    rw [List.filter_eq_nil_iff]
    intro s hs
    have := h s hs
    simp; omega
  simp [users, this, uents]

theorem EntsI.remove {i : Bool} {st : St} {g : Geo} {s : Slot} {slots : List Slot} {k : Nat} {v : Bytes} {P : Unit → St → Prop} {E : Err → St → Prop}
    {C : Flash → Prop} (h : EntsI i st g (s :: slots)) (hi : s.it = .user k v) (h1 : g.h ≤ s.p) (h2 : s.p - g.h < 65536)
    (hP : ∀ st', st'.fl = st.fl → EntsI i st' g slots → P () st') : Tri (removeEntry s.p) st P E C := by
  have hup : upos (s :: slots) = s.p :: upos slots := by simp [upos, Slot.upos, hi]
  cases i with
  | true =>
    obtain ⟨h3, es, h4, h5⟩ := h
    rw [hup] at h5
    refine tri_removeEntry h3 h1 h2 (fun es' h6 => ?_) (fun es' h6 _ => ?_)
    · rw [h4] at h6
      cases h6
      obtain ⟨x, hx, e⟩ := List.mem_map.1 (h5.mem_iff.2 (by simp : s.p ∈ s.p :: upos slots))
      rw [show s.p - g.h = x by omega]; exact hx
    · obtain ⟨x, rfl, h7⟩ := h6 es h4
      refine hP _ rfl ⟨h3, x, rfl, ?_⟩
      have h8 := (h7.map (g.h + ·)).trans h5
      rw [List.map_cons, show g.h + (s.p - g.h) = s.p by omega] at h8
      exact h8.cons_inv
  | false =>
    refine tri_removeEntry h.1 h1 h2 (fun es' h6 => by rw [h.2] at h6; cases h6) (fun es' _ h7 => ?_)
    exact hP _ rfl ⟨h.1, h7 h.2⟩

theorem EntsI.push {i : Bool} {st : St} {g : Geo} {s : Slot} {slots : List Slot} {k : Nat} {v : Bytes} {P : Unit → St → Prop} {E : Err → St → Prop}
    {C : Flash → Prop} (h : EntsI i st g slots) (hi : s.it = .user k v) (h1 : g.h ≤ s.p) (h2 : s.p - g.h < 65536)
    (hP : ∀ st', st'.fl = st.fl → EntsI i st' g (slots ++ [s]) → P () st') : Tri (pushEntry s.p) st P E C := by
  refine tri_pushEntry h.1 h1 h2 (hP _ rfl ?_)
  cases i with
  | true =>
    have : Ents st g slots := h
    exact this.push hi h1
  | false => exact ⟨h.1, by simp [h.2]⟩

theorem copyLoop_tri (hF : Sizes F) {g : Geo} {S : List Slot} {T stop : Nat} {er : Item} {i : Bool} (hT : g.b * F.Q < T) (hsT : stop ≤ T) (hok : er.Ok F) :
    (fuel : Nat) → (src pre : List Slot) → (d : List Item) → (p : Nat) → (st : St) → stop - p ≤ fuel → S = pre ++ src → Starts src T p →
    (∀ s ∈ src, UP s ∨ (s.it = .gap ∧ s.q = stop ∧ T = stop)) →
    T + total d + total (users stop src) ≤ g.b * F.Q + F.N * F.Q →
    Prog F st.fl g (S ++ place T d) (T + total d) (users stop src ++ [er]) → EntsI i st g (src ++ place T d) →
    Tri (copyLoop F stop fuel p (T + total d)) st
      (fun r st' => r = T + total (d ++ users stop src) ∧ Prog F st'.fl g (S ++ place T (d ++ users stop src)) r [er] ∧
        EntsI i st' g (src.filter (fun s => decide (stop ≤ s.p)) ++ place T (d ++ users stop src)))
      (fun _ _ => False)
      (fun fl' => Prog F fl' g (S ++ place T d) (T + total d) (users stop src ++ [er])) := by
  have hsrc : ∀ {src pre : List Slot} {d : List Item} {p : Nat} {fl : Flash} {its : List Item}, S = pre ++ src → Starts src T p →
      Prog F fl g (S ++ place T d) (T + total d) its → Chain F fl g.h pre p ∧ Chain F fl p src T := by
    intro src pre d p fl its hS hst hP
    have hc := hP.chain
    obtain ⟨y, h1, h2⟩ := hc.of_append
    have hy : y = T := by
      cases d with
      | nil => exact h2
      | cons it d => exact h2.1.symm
    subst hy
    rw [hS] at h1
    obtain ⟨x, h3, h4⟩ := h1.of_append
    rw [h4.starts.uniq hst] at h3 h4
    exact ⟨h3, h4⟩
  have hexit : ∀ {src pre : List Slot} {d : List Item} {p : Nat} {st : St}, S = pre ++ src → Starts src T p → stop ≤ p →
      Prog F st.fl g (S ++ place T d) (T + total d) (users stop src ++ [er]) → EntsI i st g (src ++ place T d) →
      T + total d = T + total (d ++ users stop src) ∧ Prog F st.fl g (S ++ place T (d ++ users stop src)) (T + total d) [er] ∧
        EntsI i st g (src.filter (fun s => decide (stop ≤ s.p)) ++ place T (d ++ users stop src)) := by
    intro src pre d p st hS hst hp hP hE
    have hall : ∀ s ∈ src, stop ≤ s.p := fun s hs => Nat.le_trans hp ((hsrc hS hst hP).2.mem s hs).1
    have e1 : users stop src = [] := users_after hall
    have e2 : src.filter (fun s => decide (stop ≤ s.p)) = src := by
      rw [List.filter_eq_self]
      intro s hs
      simpa using hall s hs
    rw [e1] at hP ⊢
    rw [List.append_nil, e2]
    exact ⟨rfl, hP, hE⟩
  have hnq := hF.nq
  intro fuel
  induction fuel with
  | zero =>
    intro src pre d p st hf hS hst hit hfit hP hE
    exact tri_pure (hexit hS hst (by omega) hP hE)
  | succ fuel ih =>
    intro src pre d p st hf hS hst hit hfit hP hE
    simp only [copyLoop]
    by_cases hp : p < stop
    · rw [if_pos hp]
      apply tri_bind
      apply tri_bind
      refine tri_getFl ?_
      obtain ⟨hc1, hc2⟩ := hsrc hS hst hP
      have hhp := hc1.le
      cases src with
      | nil =>
        have : p = T := hst
        omega
      | cons s src =>
        have hsp : s.p = p := hst
        subst hsp
        have hsz := hc2.2.1.size
        have hS' : S = (pre ++ [s]) ++ src := by rw [hS]; simp
        have hq := hc2.2.2.starts
        have hit' : ∀ s' ∈ src, UP s' ∨ (s'.it = .gap ∧ s'.q = stop ∧ T = stop) := fun s' hs' => hit s' (List.mem_cons_of_mem _ hs')
        have hf0 : (s :: src).filter (fun s => decide (stop ≤ s.p)) = src.filter (fun s => decide (stop ≤ s.p)) := by
          rw [List.filter_cons, if_neg (by simp; omega)]
        rcases hit s (by simp) with (hi | ⟨k, v, hi⟩) | ⟨hi, hgq, hgT⟩
        · have hI := hc2.2.1
          rw [hi] at hI
          refine tri_liftE (parse_pad hI) ?_
          have hnu : ∀ k v, s.it ≠ .user k v := by rw [hi]; simp
          have e1 : users stop (s :: src) = users stop src := users_cons_skip hnu
          rw [e1] at hfit hP ⊢
          rw [hf0]
          refine ih src (pre ++ [s]) d s.q st (by omega) hS' hq hit' hfit hP (hE.congr rfl rfl ?_)
          rw [List.cons_append, show upos (s :: (src ++ place T d)) = upos (src ++ place T d) by simp [upos, Slot.upos, hi]]
        · have hI := hc2.2.1
          rw [hi] at hI
          obtain ⟨hd, hpar, _⟩ := parse_user hF hI
          refine tri_liftE hpar ?_
          have hiok : (Item.user k v).Ok F := ⟨hI.1, hI.2.1⟩
          have hwords := ((hiok.at hF).1 hI).2
          have hsize := ((hiok.at hF).1 hI).1
          have hlen := hiok.len hF
          have e1 : users stop (s :: src) = .user k v :: users stop src := users_cons_user hi hp
          rw [e1] at hfit hP ⊢
          rw [total_cons] at hfit
          have hcrash : ∀ fl', Prog F fl' g (S ++ place T d) (T + total d) (Item.user k v :: (users stop src ++ [er])) →
              Prog F fl' g (S ++ place T d) (T + total d) (Item.user k v :: users stop src ++ [er]) := fun _ h => h
          have hrd : readWords F st.fl s.p (s.q - s.p) = (Item.user k v).words := by
            rw [show s.q - s.p = (Item.user k v).words.length by omega]
            exact readWords_eq hwords
          have hhb : g.b * F.Q ≤ g.h := by
            obtain ⟨_, _, _, _, _, L, _⟩ := hP
            exact L.hb
          have hsT' : s.q ≤ T := hc2.2.2.le
          have hTN : T + total d + (Item.user k v).size ≤ g.b * F.Q + F.N * F.Q := by omega
          have hpos := (Item.user k v).pos
          apply tri_bind
          refine tri_getFl ?_
          apply tri_bind
          refine EntsI.remove (slots := src ++ place T d) hE hi hhp (by omega) ?_
          intro st1 hfl1 hE1
          rw [hrd]
          apply tri_bind
          rw [← hfl1] at hP
          refine tri_fls (hP.write hF hiok hTN) ?_ hcrash
          rintro _ st2 e3 e4 ⟨more, rest, h1, hPS⟩
          apply tri_bind
          have hE2 : EntsI i st2 g (src ++ place T d) := hE1.congr e3 e4 (List.Perm.refl _)
          refine EntsI.push (s := ⟨T + total d, T + total d + (Item.user k v).size, .user k v⟩) hE2 rfl (by simp only; omega) (by simp only; omega) ?_
          intro st3 hfl3 hE3
          apply tri_bind
          rw [← hfl3] at hPS
          rw [show T + total d + (s.q - s.p - 1) = T + total d + ((Item.user k v).size - 1) by omega]
          refine tri_fls (Prog.init hF h1 hPS hiok (by omega)) ?_ hcrash
          intro _ st4 e5 e6 hP4
          have e7 : T + total d + (s.q - s.p) = T + total (d ++ [Item.user k v]) := by
            rw [total_append, show total [Item.user k v] = (Item.user k v).size by simp [total]]; omega
          have e8 : S ++ place T d ++ [⟨T + total d, T + total d + (Item.user k v).size, .user k v⟩] = S ++ place T (d ++ [Item.user k v]) := by
            rw [place_append]; simp [place]
          have e9 : T + total d + (Item.user k v).size = T + total (d ++ [Item.user k v]) := by
            rw [total_append, show total [Item.user k v] = (Item.user k v).size by simp [total]]; omega
          have hb4 : ∀ fl', Prog F fl' g (S ++ place T (d ++ [Item.user k v])) (T + total (d ++ [Item.user k v])) (users stop src ++ [er]) →
              Prog F fl' g (S ++ place T d) (T + total d) (Item.user k v :: users stop src ++ [er]) := by
            intro fl' h
            refine Prog.cons ?_
            rw [e8, e9]; exact h
          rw [e8, e9] at hP4
          rw [e7, hf0]
          have := ih src (pre ++ [s]) (d ++ [Item.user k v]) s.q st4 (by omega) hS' hq hit' (by omega) hP4 (by
            refine hE3.congr e5 e6 ?_
            rw [List.append_assoc, place_append]
            exact List.Perm.refl _)
          rw [List.append_assoc, List.singleton_append] at this
          exact tri_mono this (fun _ _ h => h) (fun _ _ h => h) hb4
        · have hI := hc2.2.1
          rw [hi] at hI
          have hlast : src = [] := by
            cases src with
            | nil => rfl
            | cons s' src =>
              have := hc2.2.2.2.1.size
              have := hc2.2.2.2.2.le
              have := hc2.2.2.1
              omega
          subst hlast
          have hnu : ∀ k v, s.it ≠ .user k v := by rw [hi]; simp
          have e1 : users stop [s] = [] := by rw [users_cons_skip hnu]; rfl
          have hfin : T + total d = T + total (d ++ users stop [s]) ∧ Prog F st.fl g (S ++ place T (d ++ users stop [s])) (T + total d) [er] ∧
              EntsI i st g ([s].filter (fun s => decide (stop ≤ s.p)) ++ place T (d ++ users stop [s])) := by
            rw [e1] at hP ⊢
            rw [List.append_nil, hf0]
            refine ⟨rfl, hP, hE.congr rfl rfl ?_⟩
            rw [show upos ([s] ++ place T d) = upos (place T d) by simp [upos, Slot.upos, hi]]
            exact List.Perm.refl _
          rcases gap_parse hI with h5 | ⟨n, h5, h6⟩
          · refine tri_liftE h5 (tri_pure hfin)
          · refine tri_liftE h5 ?_
            show Tri (if s.p + 1 + n > stop then _ else _) st _ _ _
            rw [if_pos (by omega)]
            exact tri_pure hfin
    · rw [if_neg hp]
      exact tri_pure (hexit hS hst (by omega) hP hE)

end Verif.Store
