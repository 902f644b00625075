import Verif.Store.Tri

/-!
# The virtual storage: reading and writing by position
-/
namespace Verif.Store

variable {F : Format}

/-- The init word of a page of the log. -/
def ini (F : Format) (fl : Flash) (a : Nat) : Word := fl (a % F.N) 0
/-- The compact word of a page of the log. -/
def cmp (F : Format) (fl : Flash) (a : Nat) : Word := fl (a % F.N) 1
/-- The word at a position. -/
abbrev rd (F : Format) (fl : Flash) (x : Nat) : Word := readWord F fl x

theorem rd_eq (fl : Flash) (x : Nat) : rd F fl x = fl (x / F.Q % F.N) (2 + x % F.Q) := rfl

/-- The position is in a page of the window that starts with page `b`. -/
def InWin (F : Format) (b x : Nat) : Prop := b * F.Q ≤ x ∧ x < b * F.Q + F.N * F.Q

theorem inWin_page (hF : Sizes F) {b x : Nat} (h : InWin F b x) : b ≤ x / F.Q ∧ x / F.Q < b + F.N := by
  have hq := hF.q6
  have h1 := div_bounds (Q := F.Q) (x := x) (by omega)
  obtain ⟨h2, h3⟩ := h
  rw [← Nat.add_mul] at h3
  constructor
  · have : b * F.Q < (x / F.Q + 1) * F.Q := by rw [succ_mul']; omega
    have := lt_of_mul this
    omega
  · exact lt_of_mul (Q := F.Q) (by omega)

/-- The words of the window are distinct words of the storage. -/
theorem inWin_inj (hF : Sizes F) {b x y : Nat} (hx : InWin F b x) (hy : InWin F b y) (h : F.page x = F.page y) : x / F.Q = y / F.Q := by
  have h1 := inWin_page hF hx
  have h2 := inWin_page hF hy
  exact mod_inj h1.1 h1.2 h2.1 h2.2 h

/-- The flash is only modified in `[p, q)`. -/
structure Fr (F : Format) (b : Nat) (fl fl' : Flash) (p q : Nat) : Prop where
  ini : ∀ a, ini F fl' a = ini F fl a
  cmp : ∀ a, cmp F fl' a = cmp F fl a
  other : ∀ x, InWin F b x → (x < p ∨ q ≤ x) → rd F fl' x = rd F fl x

theorem Fr.refl (b : Nat) (fl : Flash) (p q : Nat) : Fr F b fl fl p q := ⟨fun _ => rfl, fun _ => rfl, fun _ _ _ => rfl⟩

theorem Fr.trans {b : Nat} {f1 f2 f3 : Flash} {p q : Nat} (h1 : Fr F b f1 f2 p q) (h2 : Fr F b f2 f3 p q) : Fr F b f1 f3 p q :=
  ⟨fun a => (h2.ini a).trans (h1.ini a), fun a => (h2.cmp a).trans (h1.cmp a),
    fun x hx ho => (h2.other x hx ho).trans (h1.other x hx ho)⟩

theorem Fr.widen {b : Nat} {f1 f2 : Flash} {p q p' q' : Nat} (h : Fr F b f1 f2 p q) (h1 : p' ≤ p) (h2 : q ≤ q') : Fr F b f1 f2 p' q' :=
  ⟨h.ini, h.cmp, fun x hx ho => h.other x hx (by omega)⟩

/-- After writing a slice. -/
structure Put (F : Format) (b : Nat) (fl : Flash) (p : Nat) (ws : List Word) (fl' : Flash) : Prop where
  fr : Fr F b fl fl' p (p + ws.length)
  here : ∀ i (h : i < ws.length), rd F fl' (p + i) = ws[i]

/-- After an interrupted write of a slice. -/
structure PutPartly (F : Format) (b : Nat) (fl : Flash) (p : Nat) (ws : List Word) (fl' : Flash) : Prop where
  fr : Fr F b fl fl' p (p + ws.length)
  above : ∀ i (h : i < ws.length), Le ws[i] (rd F fl' (p + i))
  below : ∀ i, i < ws.length → Le (rd F fl' (p + i)) (rd F fl (p + i))

theorem in_page (hF : Sizes F) {p i : Nat} (h : p % F.Q + i < F.Q) :
    (p + i) / F.Q = p / F.Q ∧ (p + i) % F.Q = p % F.Q + i := by
  have hq := hF.q6
  have hb := div_bounds (Q := F.Q) (x := p) (by omega)
  have hm := mod_of hb.1 hb.2
  constructor
  · exact div_of (by omega) (by omega)
  · rw [mod_of (a := p / F.Q) (by omega) (by omega)]; omega

theorem fr_of_wrote (hF : Sizes F) {b p n : Nat} {fl fl' : Flash} (hp : InWin F b p) (hn : p % F.Q + n ≤ F.Q)
    (other : ∀ pg i, (pg ≠ F.page p ∨ i < 2 + F.word p ∨ 2 + F.word p + n ≤ i) → fl' pg i = fl pg i) :
    Fr F b fl fl' p (p + n) := by
  have hq := hF.q6
  refine ⟨fun a => other _ _ (by omega), fun a => other _ _ (by omega), fun x hx ho => ?_⟩
  apply other
  by_cases hpg : F.page x = F.page p
  · have e := inWin_inj hF hx hp hpg
    have b1 := div_bounds (Q := F.Q) (x := x) (by omega)
    have b2 := div_bounds (Q := F.Q) (x := p) (by omega)
    have m1 := mod_of b1.1 b1.2
    have m2 := mod_of b2.1 b2.2
    rw [e] at m1 b1
    simp only [Format.word]
    omega
  · exact .inl hpg

theorem put_of_wrote (hF : Sizes F) {b p : Nat} {fl fl' : Flash} {ws : List Word} (hp : InWin F b p)
    (hn : p % F.Q + ws.length ≤ F.Q) (h : Wrote fl (F.page p) (2 + F.word p) ws fl') : Put F b fl p ws fl' := by
  refine ⟨fr_of_wrote hF hp hn h.other, fun i hi => ?_⟩
  have := in_page hF (p := p) (i := i) (by omega)
  rw [rd_eq, this.1, this.2, ← Nat.add_assoc]
  exact h.here i hi

theorem putPartly_of_wrote (hF : Sizes F) {b p : Nat} {fl fl' : Flash} {ws : List Word} (hp : InWin F b p)
    (hn : p % F.Q + ws.length ≤ F.Q) (h : WrotePartly fl (F.page p) (2 + F.word p) ws fl') : PutPartly F b fl p ws fl' := by
  refine ⟨fr_of_wrote hF hp hn h.other, fun i hi => ?_, fun i hi => ?_⟩
  · have := in_page hF (p := p) (i := i) (by omega)
    rw [rd_eq, this.1, this.2, ← Nat.add_assoc]
    exact h.above i hi
  · have := in_page hF (p := p) (i := i) (by omega)
    rw [rd_eq, rd_eq, this.1, this.2, ← Nat.add_assoc]
    exact h.below i hi

theorem storagePut_fls (hF : Sizes F) {b p : Nat} {fl : Flash} {ws : List Word} (hp : InWin F b p)
    (hn : p % F.Q + ws.length ≤ F.Q) (h : ∀ i (hi : i < ws.length), Le ws[i] (rd F fl (p + i))) :
    Fls (storageWrite (F.page p) (2 + F.word p) ws) fl (fun _ fl' => Put F b fl p ws fl') (fun fl' => PutPartly F b fl p ws fl') := by
  refine fls_mono (storageWrite_fls ws (2 + F.word p) fl ?_) (fun _ fl' => put_of_wrote hF hp hn)
    (fun fl' => putPartly_of_wrote hF hp hn)
  intro i hi
  have := h i hi
  have e := in_page hF (p := p) (i := i) (by omega)
  rw [rd_eq, e.1, e.2, ← Nat.add_assoc] at this
  exact this

theorem PutPartly.refl {b p : Nat} {fl : Flash} {ws : List Word} (h : ∀ i (hi : i < ws.length), Le ws[i] (rd F fl (p + i))) :
    PutPartly F b fl p ws fl := ⟨Fr.refl _ _ _ _, h, fun _ _ => Le.refl _⟩

/-- `write_slice` when only bits need to be cleared. -/
theorem writeSlice_fls (hF : Sizes F) {b p : Nat} {fl : Flash} {ws : List Word} (h1 : b * F.Q ≤ p)
    (h2 : p + ws.length ≤ b * F.Q + F.N * F.Q) (hn : ws.length ≤ F.Q)
    (h : ∀ i (hi : i < ws.length), Le ws[i] (rd F fl (p + i))) :
    Fls (writeSlice F p ws) fl (fun _ fl' => Put F b fl p ws fl') (fun fl' => PutPartly F b fl p ws fl') := by
  have hq := hF.q6
  cases hw : ws with
  | nil =>
    refine fls_mono (P := fun _ fl' => fl' = fl) (C := fun _ => False) ?_ ?_ ?_
    · show Fls (writeSlice F p []) fl _ _
      apply fls_bind
      simp only [List.take_nil, storageWrite]
      apply fls_pure
      rw [if_neg (by simp)]
      exact fls_pure rfl
    · rintro _ _ rfl
      exact ⟨Fr.refl _ _ _ _, fun i hi => absurd hi (by simp)⟩
    · exact fun _ h => h.elim
  | cons w0 ws0 =>
    rw [← hw]
    have hlen : 0 < ws.length := by rw [hw]; simp
    have hp : InWin F b p := ⟨h1, by omega⟩
    have hb := div_bounds (Q := F.Q) (x := p) (by omega)
    have hm := mod_of hb.1 hb.2
    have hroom : roomInPage F p = F.Q - p % F.Q := by
      simp only [roomInPage, Format.word, hF.pw]; omega
    have hmlt := Nat.mod_lt p (show 0 < F.Q by omega)
    apply fls_bind
    have hfirst := storagePut_fls hF (b := b) (p := p) (fl := fl) (ws := ws.take (roomInPage F p)) hp
      (by rw [List.length_take]; omega) (fun i hi => by
        rw [List.length_take] at hi
        simpa using h i (by omega))
    by_cases hs : ws.length > roomInPage F p
    · have hl1 : (ws.take (roomInPage F p)).length = roomInPage F p := by rw [List.length_take]; omega
      refine fls_mono hfirst ?_ ?_
      · intro _ fl1 hput
        rw [if_pos hs]
        have hnext : F.nextPage p = p + roomInPage F p := by
          rw [hroom]; simp only [Format.nextPage, succ_mul']; omega
        rw [hnext]
        have hp2 : InWin F b (p + roomInPage F p) := ⟨by omega, by omega⟩
        have hz : (p + roomInPage F p) % F.Q = 0 := by
          rw [← hnext, Format.nextPage, Nat.mul_mod_left]
        have hget : ∀ i (hi : i < (ws.drop (roomInPage F p)).length), roomInPage F p + i < ws.length ∧ ∀ h, (ws.drop (roomInPage F p))[i] = ws[roomInPage F p + i]'h := by
          intro i hi
          rw [List.length_drop] at hi
          exact ⟨by omega, fun h => by rw [List.getElem_drop]⟩
        have hsec := storagePut_fls hF (b := b) (p := p + roomInPage F p) (fl := fl1) (ws := ws.drop (roomInPage F p)) hp2
          (by rw [hz, List.length_drop]; omega) (fun i hi => by
            obtain ⟨h3, h4⟩ := hget i hi
            rw [h4 h3, Nat.add_assoc, hput.fr.other _ ⟨by omega, by omega⟩ (by omega)]
            exact h _ h3)
        refine fls_mono hsec ?_ ?_
        · intro _ fl2 hput2
          refine ⟨(hput.fr.widen (Nat.le_refl _) (by omega)).trans (hput2.fr.widen (by omega) (by rw [List.length_drop]; omega)), ?_⟩
          intro i hi
          by_cases hir : i < roomInPage F p
          · rw [hput2.fr.other _ ⟨by omega, by omega⟩ (by omega), hput.here i (by omega)]
            simp
          · have := hput2.here (i - roomInPage F p) (by rw [List.length_drop]; omega)
            rw [show p + roomInPage F p + (i - roomInPage F p) = p + i by omega] at this
            rw [this, List.getElem_drop]
            congr 1; omega
        · intro fl2 hput2
          refine ⟨(hput.fr.widen (Nat.le_refl _) (by omega)).trans (hput2.fr.widen (by omega) (by rw [List.length_drop]; omega)), ?_, ?_⟩
          · intro i hi
            by_cases hir : i < roomInPage F p
            · rw [hput2.fr.other _ ⟨by omega, by omega⟩ (by omega), hput.here i (by omega)]
              simp only [List.getElem_take]; exact Le.refl _
            · have := hput2.above (i - roomInPage F p) (by rw [List.length_drop]; omega)
              rw [show p + roomInPage F p + (i - roomInPage F p) = p + i by omega, List.getElem_drop] at this
              have e : roomInPage F p + (i - roomInPage F p) = i := by omega
              simpa only [e] using this
          · intro i hi
            by_cases hir : i < roomInPage F p
            · rw [hput2.fr.other _ ⟨by omega, by omega⟩ (by omega), hput.here i (by omega)]
              simp only [List.getElem_take]; exact h i hi
            · have := hput2.below (i - roomInPage F p) (by rw [List.length_drop]; omega)
              rw [show p + roomInPage F p + (i - roomInPage F p) = p + i by omega] at this
              rw [hput.fr.other _ ⟨by omega, by omega⟩ (by omega)] at this
              exact this
      · intro fl1 hput
        refine ⟨hput.fr.widen (Nat.le_refl _) (by omega), ?_, ?_⟩
        · intro i hi
          by_cases hir : i < roomInPage F p
          · have := hput.above i (by omega)
            simpa only [List.getElem_take] using this
          · rw [hput.fr.other _ ⟨by omega, by omega⟩ (by omega)]
            exact h i hi
        · intro i hi
          by_cases hir : i < roomInPage F p
          · exact hput.below i (by omega)
          · rw [hput.fr.other _ ⟨by omega, by omega⟩ (by omega)]
            exact Le.refl _
    · have ht : ws.take (roomInPage F p) = ws := List.take_of_length_le (by omega)
      rw [ht] at hfirst ⊢
      refine fls_mono hfirst ?_ (fun _ h => h)
      intro _ fl1 hput
      rw [if_neg hs]
      exact fls_pure hput

/-- Writing words that are already there. -/
theorem storageWrite_same {page : Nat} : (ws : List Word) → (idx : Nat) → (fl : Flash) →
    (∀ i (hi : i < ws.length), fl page (idx + i) = ws[i]) →
    Fls (storageWrite page idx ws) fl (fun _ fl' => fl' = fl) (fun _ => False)
  | [], _, _, _ => fls_pure rfl
  | w :: ws, idx, fl, h => by
    have h0 : fl page idx = w := h 0 (by simp)
    apply fls_bind
    apply fls_getFl
    apply fls_bind
    apply fls_liftE (writeNeeded_le (by rw [h0]; exact Le.refl _))
    rw [if_neg (by simp [h0])]
    refine storageWrite_same ws (idx + 1) fl (fun i hi => ?_)
    have := h (i + 1) (by simpa using hi)
    rw [show idx + 1 + i = idx + (i + 1) by omega]
    simpa using this

theorem writeSlice_same (hF : Sizes F) {p : Nat} {fl : Flash} {ws : List Word} (hn : ws.length ≤ F.Q)
    (h : ∀ i (hi : i < ws.length), rd F fl (p + i) = ws[i]) :
    Fls (writeSlice F p ws) fl (fun _ fl' => fl' = fl) (fun _ => False) := by
  have hq := hF.q6
  have hb := div_bounds (Q := F.Q) (x := p) (by omega)
  have hm := mod_of hb.1 hb.2
  have hroom : roomInPage F p = F.Q - p % F.Q := by
    simp only [roomInPage, Format.word, hF.pw]; omega
  have hmlt := Nat.mod_lt p (show 0 < F.Q by omega)
  apply fls_bind
  refine fls_mono (storageWrite_same (ws.take (roomInPage F p)) _ fl (fun i hi => ?_)) ?_ (fun _ h => h)
  · rw [List.length_take] at hi
    have e := in_page hF (p := p) (i := i) (by omega)
    have := h i (by omega)
    rw [rd_eq, e.1, e.2, ← Nat.add_assoc] at this
    rw [List.getElem_take]
    exact this
  · rintro _ _ rfl
    split
    · rename_i hs
      have hnext : F.nextPage p = p + roomInPage F p := by
        rw [hroom]; simp only [Format.nextPage, succ_mul']; omega
      rw [hnext]
      have hz : (p + roomInPage F p) % F.Q = 0 := by
        rw [← hnext, Format.nextPage, Nat.mul_mod_left]
      refine storageWrite_same (ws.drop (roomInPage F p)) _ _ (fun i hi => ?_)
      rw [List.length_drop] at hi
      have e := in_page hF (p := p + roomInPage F p) (i := i) (by omega)
      have := h (roomInPage F p + i) (by omega)
      rw [← Nat.add_assoc, rd_eq, e.1, e.2, ← Nat.add_assoc] at this
      rw [List.getElem_drop]
      exact this
    · exact fls_pure rfl

/-! ## Built words -/

/-- The init word with a cycle and a prefix. -/
def initWord (c p : Nat) : Word := match buildInit ⟨c, p⟩ with | .ok w => w | .error _ => erasedWord
/-- The compact word with a tail. -/
def compWord (t : Nat) : Word := match buildCompact t with | .ok w => w | .error _ => erasedWord
/-- The word of an internal entry. -/
def intWord (e : Internal) : Word := match buildInternal e with | .ok w => w | .error _ => erasedWord
/-- The words of a user entry. -/
def userWords (k : Nat) (v : Bytes) : List Word := match buildUser k v with | .ok ws => ws | .error _ => []

theorem initWord_spec {c p : Nat} (hc : c < 65536) (hp : p < 512) :
    buildInit ⟨c, p⟩ = .ok (initWord c p) ∧ Sealed (initWord c p) ∧ initCycle.get (initWord c p) = c ∧ initPrefix.get (initWord c p) = p := by
  obtain ⟨w, h1, h2, h3, h4⟩ := buildInit_ok hc hp
  have e : initWord c p = w := by simp only [initWord, h1]
  rw [e]; exact ⟨h1, h2, h3, h4⟩

theorem parse_initWord (hF : Sizes F) {c p : Nat} (hc : c ≤ F.E) (hp : p ≤ F.M) :
    parseInit F (initWord c p) = .ok (.valid ⟨c, p⟩) := by
  have := hF.e16
  have := hF.m256
  obtain ⟨h1, h2, h3, h4⟩ := initWord_spec (c := c) (p := p) (by omega) (by omega)
  rw [parseInit_sealed F h2 (by rw [h3]; exact hc) (by rw [h4]; exact hp), h3, h4]

theorem compWord_spec {t : Nat} (ht : t < 65536) :
    buildCompact t = .ok (compWord t) ∧ Sealed (compWord t) ∧ compactTail.get (compWord t) = t := by
  obtain ⟨w, h1, h2, h3⟩ := buildCompact_ok ht
  have e : compWord t = w := by simp only [compWord, h1]
  rw [e]; exact ⟨h1, h2, h3⟩

theorem parse_compWord (hF : Sizes F) {t : Nat} (ht : t ≤ F.W) : parseCompact F (compWord t) = .ok (.valid t) := by
  have := hF.nq
  have := hF.wn
  obtain ⟨_, h2, h3⟩ := compWord_spec (t := t) (by omega)
  rw [parseCompact_sealed F h2 (by rw [h3]; exact ht), h3]

theorem intWord_spec (hF : Sizes F) {e : Internal} (h : e.InRange F) :
    buildInternal e = .ok (intWord e) ∧ Sealed (intWord e) ∧ idInternal.get (intWord e) = e.fields.1 ∧
      parseWord F (intWord e) = .ok (.valid (.internal e)) := by
  obtain ⟨w, h1, h2, h3, h4⟩ := buildInternal_ok F hF.n64 (by have := hF.n3; simp only [Format.N] at this; omega) e h
  have hw : intWord e = w := by simp only [intWord, h1]
  rw [hw]; exact ⟨h1, h2, h3, parseWord_internal F h h2 h3 h4⟩

theorem userWords_spec (hF : Sizes F) {k : Nat} {v : Bytes} (hk : k ≤ maxKey) (hv : v.length ≤ F.maxValueLen) :
    ∃ hw, userWords k v = hw :: storedWords v ∧ buildUser k v = .ok (userWords k v) ∧
      IsHeader hw (needsFlip (toWords v)) v.length k (zeros ((storedWords v).getLastD erasedWord)) := by
  obtain ⟨hw, h1, h2⟩ := buildUser_ok hk (Nat.le_trans hv hF.ml)
  have e : userWords k v = hw :: storedWords v := by simp only [userWords, h1]
  exact ⟨hw, e, by rw [e]; exact h1, h2⟩

theorem userWords_length (hF : Sizes F) {k : Nat} {v : Bytes} (hk : k ≤ maxKey) (hv : v.length ≤ F.maxValueLen) :
    (userWords k v).length = 1 + bytesToWords v.length := by
  obtain ⟨hw, h1, _⟩ := userWords_spec hF hk hv
  rw [h1, List.length_cons, storedWords_length]; omega

/-! ## Init words -/

/-- The init word that an entry in `[first, stop)` requires for the page `a`. -/
def tgt (F : Format) (first stop a : Nat) : Word := initWord (a / F.N) (if a * F.Q = first then 0 else stop - a * F.Q)

/-- Only init words of pages that start in `[first, stop)` are modified. -/
structure FrI (F : Format) (b : Nat) (fl fl' : Flash) (first stop : Nat) : Prop where
  rest : ∀ p i, i ≠ 0 → fl' p i = fl p i
  other : ∀ a, b ≤ a → a < b + F.N → (a * F.Q < first ∨ stop ≤ a * F.Q) → ini F fl' a = ini F fl a

theorem FrI.refl (b : Nat) (fl : Flash) (p q : Nat) : FrI F b fl fl p q := ⟨fun _ _ _ => rfl, fun _ _ _ _ => rfl⟩

theorem FrI.rd {b : Nat} {fl fl' : Flash} {p q : Nat} (h : FrI F b fl fl' p q) (x : Nat) : rd F fl' x = rd F fl x :=
  h.rest _ _ (by omega)

theorem FrI.cmp {b : Nat} {fl fl' : Flash} {p q : Nat} (h : FrI F b fl fl' p q) (a : Nat) : cmp F fl' a = cmp F fl a :=
  h.rest _ _ (by omega)

theorem tgt_spec (hF : Sizes F) {first stop a : Nat} (h1 : first < stop) (h2 : stop ≤ first + 1 + F.M) (h3 : first ≤ a * F.Q)
    (h4 : a * F.Q < stop) (h5 : a / F.N ≤ F.E) :
    parseInit F (tgt F first stop a) = .ok (.valid ⟨a / F.N, if a * F.Q = first then 0 else stop - a * F.Q⟩) ∧ Sealed (tgt F first stop a) := by
  have := hF.e16
  have := hF.m256
  have hp : (if a * F.Q = first then 0 else stop - a * F.Q) ≤ F.M := by
    split <;> omega
  exact ⟨parse_initWord hF h5 hp, (initWord_spec (by omega) (by omega)).2.1⟩

theorem initPage_fls (hF : Sizes F) {b first stop : Nat} {fl : Flash} (h1 : first < stop) (h2 : stop ≤ first + 1 + F.M)
    (hw : InWin F b first) (hw' : stop ≤ b * F.Q + F.N * F.Q) (hE : (b + F.N - 1) / F.N ≤ F.E)
    (h : ∀ a, first ≤ a * F.Q → a * F.Q < stop → Le (tgt F first stop a) (ini F fl a)) :
    Fls (initPage F first (first + (stop - first - 1))) fl
      (fun _ fl' => FrI F b fl fl' first stop ∧ ∀ a, first ≤ a * F.Q → a * F.Q < stop → ini F fl' a = tgt F first stop a)
      (fun fl' => FrI F b fl fl' first stop ∧ ∀ a, first ≤ a * F.Q → a * F.Q < stop →
        Le (tgt F first stop a) (ini F fl' a) ∧ Le (ini F fl' a) (ini F fl a)) := by
  have hq := hF.q6
  have hm := hF.mq
  have hN := hF.n3
  have hfb := div_bounds (Q := F.Q) (x := first) (by omega)
  have hfm := mod_of hfb.1 hfb.2
  have hcyc : ∀ a, a < b + F.N → a / F.N ≤ F.E := fun a ha => Nat.le_trans (Nat.div_le_div_right (by omega)) hE
  rw [show first + (stop - first - 1) = stop - 1 by omega]
  -- the page `a` that starts in the entry, if any
  have key : ∀ a, first ≤ a * F.Q → a * F.Q < stop →
      Fls (initPageAt F (if a * F.Q = first then first else stop)) fl
      (fun _ fl' => FrI F b fl fl' first stop ∧ ∀ a, first ≤ a * F.Q → a * F.Q < stop → ini F fl' a = tgt F first stop a)
      (fun fl' => FrI F b fl fl' first stop ∧ ∀ a, first ≤ a * F.Q → a * F.Q < stop →
        Le (tgt F first stop a) (ini F fl' a) ∧ Le (ini F fl' a) (ini F fl a)) := by
    intro a ha1 ha2
    have ha : a < b + F.N := lt_of_mul (Q := F.Q) (by rw [Nat.add_mul]; omega)
    have hab : b ≤ a := by
      rcases Nat.lt_or_ge a b with h0 | h0
      · have := mul_step (Q := F.Q) h0; have := hw.1; omega
      · exact h0
    have huniq : ∀ a', first ≤ a' * F.Q → a' * F.Q < stop → a' = a := by
      intro a' h3 h4
      rcases Nat.lt_trichotomy a' a with h5 | h5 | h5
      · have := mul_step (Q := F.Q) h5; omega
      · exact h5
      · have := mul_step (Q := F.Q) h5; omega
    obtain ⟨hparse, hseal⟩ := tgt_spec hF h1 h2 ha1 ha2 (hcyc a ha)
    have hpos : (if a * F.Q = first then first else stop) / F.Q = a ∧ (if a * F.Q = first then first else stop) % F.Q = (if a * F.Q = first then 0 else stop - a * F.Q) := by
      split
      · rename_i e
        exact ⟨div_of (by omega) (by omega), by rw [mod_of (a := a) (by omega) (by omega)]; omega⟩
      · exact ⟨div_of (by omega) (by omega), mod_of (by omega) (by omega)⟩
    have hpage : F.page (if a * F.Q = first then first else stop) = a % F.N := by simp only [Format.page, hpos.1]
    have hcycle : F.cycle (if a * F.Q = first then first else stop) = a / F.N := by simp only [Format.cycle, hpos.1]
    have hword : F.word (if a * F.Q = first then first else stop) = (if a * F.Q = first then 0 else stop - a * F.Q) := by
      simp only [Format.word, hpos.2]
    simp only [initPageAt, hpage, hcycle, hword]
    apply fls_bind
    apply fls_getFl
    apply fls_bind
    have hle := h a ha1 ha2
    by_cases heq : ini F fl a = tgt F first stop a
    · apply fls_liftE (show parseInit F (fl (a % F.N) 0) = _ by
        show parseInit F (ini F fl a) = _; rw [heq]; exact hparse)
      apply fls_pure
      refine ⟨FrI.refl _ _ _ _, fun a' h3 h4 => ?_⟩
      rw [huniq a' h3 h4, heq]
    · apply fls_liftE (show parseInit F (fl (a % F.N) 0) = _ from parseInit_above F hseal hle heq)
      have hbuild : buildInit ⟨a / F.N, if a * F.Q = first then 0 else stop - a * F.Q⟩ = .ok (tgt F first stop a) := by
        have := hF.e16
        have := hF.m256
        have := hcyc a ha
        refine (initWord_spec (by omega) ?_).1
        split <;> omega
      have goal : Fls (do
            let w ← liftE (buildInit ⟨a / F.N, if a * F.Q = first then 0 else stop - a * F.Q⟩)
            storageWrite (a % F.N) 0 [w]) fl
          (fun _ fl' => FrI F b fl fl' first stop ∧ ∀ a, first ≤ a * F.Q → a * F.Q < stop → ini F fl' a = tgt F first stop a)
          (fun fl' => FrI F b fl fl' first stop ∧ ∀ a, first ≤ a * F.Q → a * F.Q < stop →
            Le (tgt F first stop a) (ini F fl' a) ∧ Le (ini F fl' a) (ini F fl a)) := by
        apply fls_bind
        apply fls_liftE hbuild
        refine fls_mono (storageWrite_fls [tgt F first stop a] 0 fl (fun i hi => ?_)) ?_ ?_
        · have : i = 0 := by simpa using hi
          subst this; exact hle
        · intro _ fl' hwr
          refine ⟨⟨fun p i hi => hwr.other p i (by simp only [List.length_singleton]; omega), fun a' h3 h4 h5 => ?_⟩, fun a' h3 h4 => ?_⟩
          · apply hwr.other
            left
            intro e
            have := mod_inj h3 h4 hab ha e
            subst this; omega
          · rw [huniq a' h3 h4]
            exact hwr.here 0 (by simp)
        · intro fl' hwr
          refine ⟨⟨fun p i hi => hwr.other p i (by simp only [List.length_singleton]; omega), fun a' h3 h4 h5 => ?_⟩, fun a' h3 h4 => ?_⟩
          · apply hwr.other
            left
            intro e
            have := mod_inj h3 h4 hab ha e
            subst this; omega
          · rw [huniq a' h3 h4]
            exact ⟨hwr.above 0 (by simp), hwr.below 0 (by simp)⟩
      by_cases he : fl (a % F.N) 0 = erasedWord
      · rw [if_pos he]; exact goal
      · rw [if_neg he]; exact goal
  by_cases hz : first % F.Q = 0
  · have ha : first / F.Q * F.Q = first := by omega
    have := key (first / F.Q) (by omega) (by omega)
    rw [if_pos ha] at this
    simp only [initPage, newFirst, Format.word, hz, if_true]
    exact this
  · by_cases hp : first / F.Q = (stop - 1) / F.Q
    · have hnone : newFirst F first (stop - 1) = none := by
        simp only [newFirst, Format.word, hz, Format.page, hp, if_true, if_false]
      simp only [initPage, hnone]
      apply fls_pure
      refine ⟨FrI.refl _ _ _ _, fun a h3 h4 => ?_⟩
      exfalso
      have hb2 := div_bounds (Q := F.Q) (x := stop - 1) (by omega)
      rw [← hp] at hb2
      rcases Nat.lt_or_ge (first / F.Q) a with h5 | h5
      · have := mul_step (Q := F.Q) h5; omega
      · have := mul_mono (Q := F.Q) h5
        omega
    · have hb2 := div_bounds (Q := F.Q) (x := stop - 1) (by omega)
      have hlt : (stop - 1) / F.Q = first / F.Q + 1 := by
        refine div_of ?_ ?_
        · rw [succ_mul']
          rcases Nat.lt_or_ge (stop - 1) (first / F.Q * F.Q + F.Q) with h5 | h5
          · exact absurd (div_of (by omega) h5).symm hp
          · exact h5
        · rw [succ_mul']; omega
      have hne : ¬ first / F.Q % F.N = (stop - 1) / F.Q % F.N := by
        intro e
        rw [hlt] at e
        have := mod_inj (N := F.N) (b := first / F.Q) (a := first / F.Q) (a' := first / F.Q + 1) (by omega) (by omega) (by omega) (by omega) e
        omega
      have := key (first / F.Q + 1) (by rw [succ_mul']; omega) (by rw [← hlt]; omega)
      rw [if_neg (by rw [succ_mul']; omega)] at this
      have hs : newFirst F first (stop - 1) = some stop := by
        simp only [newFirst, Format.word, hz, Format.page, hne, if_false]
        rw [show stop - 1 + 1 = stop by omega]
      simp only [initPage, hs]
      exact this

/-- The init word of the page is complete: nothing is written. -/
theorem initPage_done (hF : Sizes F) {b first stop : Nat} {fl : Flash} (h1 : first < stop) (h2 : stop ≤ first + 1 + F.M)
    (hw : InWin F b first) (hw' : stop ≤ b * F.Q + F.N * F.Q)
    (h : ∀ a, b ≤ a → a < b + F.N → first ≤ a * F.Q → a * F.Q < stop → ∃ i, parseInit F (ini F fl a) = .ok (.valid i)) :
    Fls (initPage F first (first + (stop - first - 1))) fl (fun _ fl' => fl' = fl) (fun _ => False) := by
  have hq := hF.q6
  have hm := hF.mq
  have hN := hF.n3
  have hfb := div_bounds (Q := F.Q) (x := first) (by omega)
  have hfm := mod_of hfb.1 hfb.2
  rw [show first + (stop - first - 1) = stop - 1 by omega]
  have key : ∀ a p, first ≤ a * F.Q → a * F.Q < stop → p / F.Q = a → Fls (initPageAt F p) fl (fun _ fl' => fl' = fl) (fun _ => False) := by
    intro a p ha1 ha2 hp
    have ha : a < b + F.N := lt_of_mul (Q := F.Q) (by rw [Nat.add_mul]; omega)
    have hab : b ≤ a := by
      rcases Nat.lt_or_ge a b with h0 | h0
      · have := mul_step (Q := F.Q) h0; have := hw.1; omega
      · exact h0
    obtain ⟨i, hi⟩ := h a hab ha ha1 ha2
    simp only [initPageAt, Format.page, hp]
    apply fls_bind
    apply fls_getFl
    apply fls_bind
    apply fls_liftE (show parseInit F (fl (a % F.N) 0) = _ from hi)
    exact fls_pure rfl
  by_cases hz : first % F.Q = 0
  · have := key (first / F.Q) first (by omega) (by omega) rfl
    simp only [initPage, newFirst, Format.word, hz, if_true]
    exact this
  · by_cases hp : first / F.Q % F.N = (stop - 1) / F.Q % F.N
    · have hnone : newFirst F first (stop - 1) = none := by
        simp only [newFirst, Format.word, hz, Format.page, hp, if_true, if_false]
      simp only [initPage, hnone]
      exact fls_pure rfl
    · have hlt : (stop - 1) / F.Q = first / F.Q + 1 := by
        have hb2 := div_bounds (Q := F.Q) (x := stop - 1) (by omega)
        refine div_of ?_ ?_
        · rw [succ_mul']
          rcases Nat.lt_or_ge (stop - 1) (first / F.Q * F.Q + F.Q) with h5 | h5
          · exact absurd (by rw [div_of (a := first / F.Q) (by omega) h5]) hp
          · exact h5
        · rw [succ_mul']; omega
      have hb2 := div_bounds (Q := F.Q) (x := stop - 1) (by omega)
      rw [hlt, succ_mul'] at hb2
      have := key (first / F.Q + 1) stop (by rw [succ_mul']; omega) (by rw [succ_mul']; omega)
        (div_of (by rw [succ_mul']; omega) (by rw [succ_mul']; omega))
      have hs : newFirst F first (stop - 1) = some stop := by
        simp only [newFirst, Format.word, hz, Format.page, hp, if_false]
        rw [show stop - 1 + 1 = stop by omega]
      simp only [initPage, hs]
      exact this

end Verif.Store
