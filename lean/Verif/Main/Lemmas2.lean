import Verif.Main.Lemmas

/-!
# More lemmas about the main loop
-/
namespace Verif.Main
open Verif.Ctap hiding Transport Input
open Verif.Hid (Message Transport Splitter IsInit)
open Verif.Usb (Device)

/-! ## Orderly histories -/

theorem snoc_split {α : Type} {h : List α} {e f : α} {h1 h2 : List α} (he : h ++ [e] = h1 ++ f :: h2) :
    (h2 = [] ∧ e = f ∧ h = h1) ∨ ∃ h3, h2 = h3 ++ [e] ∧ h = h1 ++ f :: h3 := by
  rcases List.eq_nil_or_concat h2 with rfl | ⟨h3, y, rfl⟩
  · left
    have := List.append_inj' he rfl
    exact ⟨rfl, by simpa using this.2, this.1⟩
  · right
    have h4 : h ++ [e] = (h1 ++ f :: h3) ++ [y] := by simpa using he
    have h5 := List.append_inj' h4 rfl
    obtain rfl : e = y := by simpa using h5.2
    exact ⟨h3, by simp, h5.1⟩

theorem orderly_prefix {h : List Event} {t : Transport} {qs : List Bytes} (ho : Orderly h t qs) :
    ∀ h1 h2, h = h1 ++ h2 → ∃ u rs, Orderly h1 u rs := by
  have step : ∀ {g : List Event} {e : Event} {u : Transport} {rs : List Bytes}, Orderly (g ++ [e]) u rs →
      (∀ h1 h2, g = h1 ++ h2 → ∃ u rs, Orderly h1 u rs) → ∀ h1 h2, g ++ [e] = h1 ++ h2 → ∃ u rs, Orderly h1 u rs := by
    intro g e u rs hg ih h1 h2 he
    rcases List.eq_nil_or_concat h2 with rfl | ⟨h3, y, rfl⟩
    · rw [List.append_nil] at he
      exact ⟨_, _, he ▸ hg⟩
    · have h4 : g ++ [e] = (h1 ++ h3) ++ [y] := by simpa using he
      exact ih h1 h3 (List.append_inj' h4 rfl).1
  induction ho with
  | start t =>
    intro h1 h2 he
    have : h1 = [] := by
      cases h1 with
      | nil => rfl
      | cons a l => cases he
    subst this
    exact ⟨.main, [], .start _⟩
  | packet t' p answer h ih => exact step (.packet t' p answer h) ih
  | sent h ih => exact step (.sent h) ih
  | lost h ih => exact step (.lost h) ih
  | touch h ih => exact step (.touch h) ih

theorem orderly_last {h : List Event} {e : Event} {t : Transport} {qs : List Bytes} (ho : Orderly (h ++ [e]) t qs) :
    (∃ p u, e = .packet t p qs ∧ Orderly h u []) ∨ (∃ q, e = .sent t q ∧ Orderly h t (q :: qs)) ∨
    (∃ q rs, e = .lost t q ∧ qs = [] ∧ Orderly h t (q :: rs)) ∨ (e = .touch ∧ Orderly h t qs) := by
  generalize hg : h ++ [e] = g at ho
  cases ho with
  | start => simp at hg
  | packet t' p answer h' =>
    have := List.append_inj' hg rfl
    obtain rfl := this.1
    left
    exact ⟨_, _, by simpa using this.2, h'⟩
  | sent h' =>
    have := List.append_inj' hg rfl
    obtain rfl := this.1
    right; left
    exact ⟨_, by simpa using this.2, h'⟩
  | lost h' =>
    have := List.append_inj' hg rfl
    obtain rfl := this.1
    right; right; left
    exact ⟨_, _, by simpa using this.2, rfl, h'⟩
  | touch h' =>
    have := List.append_inj' hg rfl
    obtain rfl := this.1
    right; right; right
    exact ⟨by simpa using this.2, h'⟩

theorem orderly_nil {t : Transport} {qs : List Bytes} (ho : Orderly [] t qs) : qs = [] := by
  generalize hg : ([] : List Event) = g at ho
  cases ho with
  | start => rfl
  | _ => simp at hg

theorem orderly_unique : ∀ (n : Nat) {h : List Event} {t u : Transport} {qs rs : List Bytes}, h.length = n → Orderly h t qs → Orderly h u rs →
    qs = rs ∧ (qs ≠ [] → t = u) := by
  intro n
  induction n with
  | zero =>
    intro h t u qs rs hl h1 h2
    obtain rfl := List.eq_nil_of_length_eq_zero hl
    rw [orderly_nil h1, orderly_nil h2]
    exact ⟨rfl, fun h => absurd rfl h⟩
  | succ n ih =>
    intro h t u qs rs hl h1 h2
    rcases List.eq_nil_or_concat h with rfl | ⟨g, e, rfl⟩
    · simp at hl
    · have hl' : g.length = n := by simpa using hl
      rw [List.concat_eq_append] at h1 h2
      rcases orderly_last h1 with ⟨p, w, rfl, h3⟩ | ⟨q, rfl, h3⟩ | ⟨q, ss, rfl, rfl, h3⟩ | ⟨rfl, h3⟩ <;>
        rcases orderly_last h2 with ⟨p', w', h4, h5⟩ | ⟨q', h4, h5⟩ | ⟨q', ss', h4, rfl, h5⟩ | ⟨h4, h5⟩ <;> cases h4
      · exact ⟨rfl, fun _ => rfl⟩
      · have := ih hl' h3 h5
        simp only [List.cons.injEq, true_and] at this
        exact ⟨this.1, fun _ => rfl⟩
      · exact ⟨rfl, fun _ => rfl⟩
      · exact ih hl' h3 h5

/-- What was sent since the last packet came in. -/
theorem orderly_since {h : List Event} {t : Transport} {qs : List Bytes} (ho : Orderly h t qs) :
    ∀ h1 u p ans h2, h = h1 ++ .packet u p ans :: h2 → (∀ e ∈ h2, e.isPacket = false) →
      u = t ∧ ((∃ k, k ≤ ans.length ∧ qs = ans.drop k ∧ h2.filter (·.isOutput) = (ans.take k).map (.sent t)) ∨
        (qs = [] ∧ ∃ k, ∃ hk : k < ans.length, h2.filter (·.isOutput) = (ans.take k).map (.sent t) ++ [.lost t ans[k]])) := by
  induction ho with
  | start => intro h1 u p ans h2 he; simp at he
  | packet t' p' answer h ih =>
    intro h1 u p ans h2 he hn
    rcases snoc_split he with ⟨rfl, h3, _⟩ | ⟨h3, rfl, _⟩
    · cases h3
      exact ⟨rfl, .inl ⟨0, Nat.zero_le _, rfl, rfl⟩⟩
    · have := hn _ (List.mem_append_right _ (List.mem_singleton.2 rfl))
      simp [Event.isPacket] at this
  | @sent h t q qs h' ih =>
    intro h1 u p ans h2 he hn
    rcases snoc_split he with ⟨_, h3, _⟩ | ⟨h3, rfl, rfl⟩
    · cases h3
    · obtain ⟨rfl, h4 | ⟨h4, _⟩⟩ := ih h1 u p ans h3 rfl (fun e he => hn e (List.mem_append_left _ he))
      · obtain ⟨k, hk, hd, hf⟩ := h4
        have hlt : k < ans.length := by
          by_cases hlt : k < ans.length
          · exact hlt
          · rw [List.drop_eq_nil_of_le (by omega)] at hd; cases hd
        rw [List.drop_eq_getElem_cons hlt] at hd
        simp only [List.cons.injEq] at hd
        refine ⟨rfl, .inl ⟨k + 1, hlt, hd.2, ?_⟩⟩
        rw [List.filter_append, hf, List.take_succ_eq_append_getElem hlt, ← hd.1]
        simp [Event.isOutput]
      · cases h4
  | @lost h t q qs h' ih =>
    intro h1 u p ans h2 he hn
    rcases snoc_split he with ⟨_, h3, _⟩ | ⟨h3, rfl, rfl⟩
    · cases h3
    · obtain ⟨rfl, h4 | ⟨h4, _⟩⟩ := ih h1 u p ans h3 rfl (fun e he => hn e (List.mem_append_left _ he))
      · obtain ⟨k, hk, hd, hf⟩ := h4
        have hlt : k < ans.length := by
          by_cases hlt : k < ans.length
          · exact hlt
          · rw [List.drop_eq_nil_of_le (by omega)] at hd; cases hd
        rw [List.drop_eq_getElem_cons hlt] at hd
        simp only [List.cons.injEq] at hd
        refine ⟨rfl, .inr ⟨rfl, k, hlt, ?_⟩⟩
        rw [List.filter_append, hf, hd.1]
        simp [Event.isOutput]
      · cases h4
  | @touch h t qs h' ih =>
    intro h1 u p ans h2 he hn
    rcases snoc_split he with ⟨_, h3, _⟩ | ⟨h3, rfl, rfl⟩
    · cases h3
    · have := ih h1 u p ans h3 rfl (fun e he => hn e (List.mem_append_left _ he))
      rw [List.filter_append]
      simpa [Event.isOutput] using this

/-! ## The device behind the loop -/

variable [Dev]

/-- A device that goes through these inputs. -/
def Follows (d : Device) (evs : List Event) (d' : Device) : Prop := ∃ tr, Steps d tr d' ∧ tr.filterMap asked' = evs.filterMap asked

theorem Follows.snoc {d d' : Device} {evs evs' : List Event} (h : Follows d evs d') (o : Oracle) (i : Usb.Input)
    (hi : ∀ t p, i = .packet t p → p.length = 64) (ha : (Usb.step i (d'.withOracle o)).1.alive = true)
    (he : (asked' ⟨d'.st.env.now, i, (Usb.step i (d'.withOracle o)).1⟩).toList = evs'.filterMap asked) :
    Follows d (evs ++ evs') (Usb.step i (d'.withOracle o)).2 := by
  obtain ⟨tr, h1, h2⟩ := h
  refine ⟨_, .step o i h1 hi ha, ?_⟩
  rw [List.filterMap_append, List.filterMap_append, h2, ← he]
  simp only [List.filterMap_cons, List.filterMap_nil]
  cases asked' ⟨d'.st.env.now, i, (Usb.step i (d'.withOracle o)).1⟩ <;> rfl

theorem grant_follows {d : Device} {evs : List Event} {l : Loop} (h : Follows d evs l.dev) (o : Oracle) (b : Bool) :
    Follows d (evs ++ if b then [.touch] else []) (grant o b l).dev := by
  cases b
  · simpa [grant] using h
  · exact h.snoc o .touch (by intro t p h; cases h) rfl rfl

theorem serve_follows {d : Device} {evs es : List Event} {o : Oracle} {x : Option (Transport × Bytes)} {l l' : Loop}
    (h : Follows d evs l.dev) (hx : ∀ t p, x = some (t, p) → p.length = 64) (hs : serve o x l = (.ok es, l')) :
    Follows d (evs ++ es) l'.dev := by
  rcases serve_ok hs with ⟨_, rfl, rfl⟩ | ⟨t, p, it, rfl, h1, rfl, h2, _⟩
  · simpa using h
  · rw [h2]
    have h3 : Usb.step (.packet t p) (l.dev.withOracle o) = (.ok it.rest, (processPacket t p (l.dev.withOracle o)).2) := by
      show Usb.processPacket t p _ = _
      rw [processPacket_rest, h1]
      rfl
    have := h.snoc (evs' := [.packet t p it.rest]) o (.packet t p) (by rintro _ _ ⟨⟩; exact hx t p rfl) (by rw [h3]; rfl)
      (by rw [h3]; rfl)
    rw [h3] at this
    exact this

theorem finish_follows {d : Device} {evs evs' : List Event} {o : Oracle} {bs : List Bool} {x : Option (Transport × Bytes)} {l l' : Loop}
    (h : Follows d evs l.dev) (hx : ∀ t p, x = some (t, p) → p.length = 64) (hf : finish o bs evs x l = (.ok evs', l')) :
    Follows d evs' l'.dev := by
  obtain ⟨es, h1, rfl, rfl⟩ := finish_ok hf
  rw [(showLeds_same _).1]
  exact serve_follows (grant_follows h o _) hx h1

theorem turn_follows {x : Turn} {l l' : Loop} {evs : List Event} (hx : ∀ e p, x.recv = .received e p → p.length = 64)
    (ht : turn x l = (.ok evs, l')) : Follows l.dev evs l'.dev := by
  have h0 : ∀ evs : List Event, evs.filterMap asked = [] → Follows l.dev evs (Usb.step (.wait x.ms) (l.dev.withOracle x.o)).2 := by
    intro evs he
    exact ⟨_, .step x.o (.wait x.ms) (.refl _) (by intro t p h; cases h) rfl, by rw [he]; rfl⟩
  unfold turn at ht
  cases hb : x.buttons with
  | none => rw [hb] at ht; simp at ht
  | some bs =>
    rw [hb] at ht
    simp only at ht
    cases hn : l.replies.nextPacket with
    | some r =>
      obtain ⟨⟨u, p⟩, rs⟩ := r
      rw [hn] at ht
      simp only at ht
      cases hs : x.send with
      | sent => rw [hs] at ht; exact finish_follows (h0 [.sent u p] rfl) (by intro t p h; cases h) ht
      | timeout => rw [hs] at ht; exact finish_follows (h0 [.lost u p] rfl) (by intro t p h; cases h) ht
      | fail => rw [hs] at ht; simp at ht
    | none =>
      rw [hn] at ht
      simp only at ht
      cases hs : x.recv with
      | received e p =>
        rw [hs] at ht
        refine finish_follows (h0 [] rfl) ?_ ht
        intro t q h
        simp only [Option.map_eq_some_iff, Prod.mk.injEq] at h
        obtain ⟨_, _, _, rfl⟩ := h
        exact hx e _ hs
      | timeout => rw [hs] at ht; exact finish_follows (h0 [] rfl) (by intro t p h; cases h) ht
      | fail => rw [hs] at ht; simp at ht

theorem run_trace {h : List Event} {l : Loop} (hr : Run h l) : ∃ tr, Usb.Trace tr l.dev ∧ tr.filterMap asked' = h.filterMap asked := by
  induction hr with
  | boot d h => exact ⟨[], .boot d h, rfl⟩
  | turn x _ hx ht ih =>
    obtain ⟨tr, h1, h2⟩ := ih
    obtain ⟨tr', h3, h4⟩ := turn_follows hx ht
    exact ⟨tr ++ tr', h3.trace h1, by rw [List.filterMap_append, List.filterMap_append, h2, h4]⟩

end Verif.Main
