import Verif.Ctap.NamesSpec

/-!
# C55: stored strings; C34: stored credentials
-/
namespace Verif.Ctap
open Verif.Utf8 (encodeChar IsScalar)
set_option linter.unusedSectionVars false

/-! ## Character boundaries -/

/-- A continuation byte. -/
def isCont (b : UInt8) : Bool := b &&& 0xC0 == 0x80

theorem cont_byte : ∀ m, m < 64 → isCont (UInt8.ofNat (0x80 + m)) = true := by decide
theorem first1 : ∀ m, m < 128 → isCont (UInt8.ofNat m) = false := by decide
theorem first2 : ∀ m, m < 32 → isCont (UInt8.ofNat (0xC0 + m)) = false := by decide
theorem first3 : ∀ m, m < 16 → isCont (UInt8.ofNat (0xE0 + m)) = false := by decide
theorem first4 : ∀ m, m < 8 → isCont (UInt8.ofNat (0xF0 + m)) = false := by decide

/-- Only the first byte of a character is not a continuation byte. -/
theorem encodeChar_shape {c : Nat} (h : IsScalar c) :
    ∃ b t, encodeChar c = b :: t ∧ isCont b = false ∧ ∀ x ∈ t, isCont x = true := by
  have hc : c < 0x110000 := by rcases h with h | h <;> omega
  unfold encodeChar
  split
  · exact ⟨_, _, rfl, first1 _ ‹_›, by simp⟩
  · split
    · exact ⟨_, _, rfl, first2 _ (by omega), List.forall_mem_cons.2 ⟨cont_byte (c % 64) (by omega), by simp⟩⟩
    · split
      · exact ⟨_, _, rfl, first3 _ (by omega),
          List.forall_mem_cons.2 ⟨cont_byte (c / 64 % 64) (by omega), List.forall_mem_cons.2 ⟨cont_byte (c % 64) (by omega), by simp⟩⟩⟩
      · exact ⟨_, _, rfl, first4 _ (by omega),
          List.forall_mem_cons.2 ⟨cont_byte (c / 4096 % 64) (by omega), List.forall_mem_cons.2
            ⟨cont_byte (c / 64 % 64) (by omega), List.forall_mem_cons.2 ⟨cont_byte (c % 64) (by omega), by simp⟩⟩⟩⟩

theorem isCharBoundary_iff {s : Bytes} {i : Nat} :
    isCharBoundary s i = true ↔ i = 0 ∨ i = s.length ∨ ∃ b, s[i]? = some b ∧ isCont b = false := by
  simp only [isCharBoundary, Bool.or_eq_true, beq_iff_eq, Bool.and_eq_true, decide_eq_true_eq, or_assoc]
  refine or_congr Iff.rfl (or_congr Iff.rfl ⟨fun ⟨h1, h2⟩ => ⟨s[i], List.getElem?_eq_getElem h1, ?_⟩, fun ⟨b, h1, h2⟩ => ?_⟩)
  · simpa [isCont, List.getD_eq_getElem?_getD, List.getElem?_eq_getElem h1] using h2
  · obtain ⟨h3, rfl⟩ := List.getElem?_eq_some_iff.1 h1
    exact ⟨h3, by simpa [isCont, List.getD_eq_getElem?_getD, h1] using h2⟩

/-- Up to a boundary there are whole characters. -/
theorem take_boundary {cs : List Nat} (hc : ∀ c ∈ cs, IsScalar c) {i : Nat} (hi : i ≤ (cs.flatMap encodeChar).length)
    (hb : isCharBoundary (cs.flatMap encodeChar) i = true) : ∃ k, (cs.flatMap encodeChar).take i = (cs.take k).flatMap encodeChar := by
  induction cs generalizing i with
  | nil => exact ⟨0, by simp⟩
  | cons c cs ih =>
    obtain ⟨b, t, he, h1, h2⟩ := encodeChar_shape (hc c (by simp))
    cases hi0 : i with
    | zero => exact ⟨0, by simp⟩
    | succ j =>
      rw [← hi0]
      by_cases hlt : i < (encodeChar c).length
      · exfalso
        rcases isCharBoundary_iff.1 hb with h | h | ⟨x, h3, h4⟩
        · omega
        · rw [h, List.flatMap_cons, List.length_append] at hlt; omega
        · rw [List.flatMap_cons, List.getElem?_append_left hlt] at h3
          rw [he, hi0, List.getElem?_cons_succ] at h3
          rw [h2 x (List.mem_of_getElem? h3)] at h4
          cases h4
      · have hle : (encodeChar c).length ≤ i := Nat.le_of_not_lt hlt
        rw [List.flatMap_cons, List.length_append] at hi
        have hb' : isCharBoundary (cs.flatMap encodeChar) (i - (encodeChar c).length) = true := by
          rw [isCharBoundary_iff] at hb ⊢
          rcases hb with h | h | ⟨x, h3, h4⟩
          · exact .inl (by omega)
          · refine .inr (.inl ?_)
            rw [List.flatMap_cons, List.length_append] at h
            omega
          · refine .inr (.inr ⟨x, ?_, h4⟩)
            rw [List.flatMap_cons, List.getElem?_append_right hle] at h3
            exact h3
        obtain ⟨k, hk⟩ := ih (fun c h => hc c (by simp [h])) (by omega) hb'
        refine ⟨k + 1, ?_⟩
        rw [List.flatMap_cons, List.take_append, List.take_of_length_le hle, hk, List.take_succ_cons, List.flatMap_cons]

/-- What follows a text inside a text is a text. -/
theorem valid_rest {t u : Bytes} (ht : Verif.Utf8.valid t = true) (h : Verif.Utf8.valid (t ++ u) = true) :
    Verif.Utf8.valid u = true := by
  obtain ⟨ds, hd, rfl⟩ := (Verif.Utf8.valid_iff _).1 ht
  clear ht
  induction ds with
  | nil => simpa using h
  | cons d ds ih =>
    refine ih (fun c hc => hd c (by simp [hc])) ?_
    have hs := Verif.Utf8.decode_of_step (Verif.Utf8.step_encodeChar d (hd d (by simp)) (ds.flatMap encodeChar ++ u))
    rw [List.flatMap_cons, List.append_assoc] at h
    unfold Verif.Utf8.valid at h ⊢
    rw [hs, Option.isSome_map] at h
    exact h

theorem valid_boundary {t u : Bytes} (ht : Verif.Utf8.valid t = true) (h : Verif.Utf8.valid (t ++ u) = true) :
    isCharBoundary (t ++ u) t.length = true := by
  obtain ⟨cs, hc, rfl⟩ := (Verif.Utf8.valid_iff _).1 (valid_rest ht h)
  rw [isCharBoundary_iff]
  cases cs with
  | nil => exact .inr (.inl (by simp))
  | cons c cs =>
    obtain ⟨b, t', he, h1, _⟩ := encodeChar_shape (hc c (by simp))
    refine .inr (.inr ⟨b, ?_, h1⟩)
    rw [List.getElem?_append_right (Nat.le_refl _), Nat.sub_self, List.flatMap_cons, he]
    rfl

theorem boundaryBelow_spec (s : Bytes) (n : Nat) :
    charBoundaryBelow s n ≤ n ∧ isCharBoundary s (charBoundaryBelow s n) = true ∧
      ∀ i, i ≤ n → isCharBoundary s i = true → i ≤ charBoundaryBelow s n := by
  induction n with
  | zero => exact ⟨Nat.le_refl _, by simp [charBoundaryBelow, isCharBoundary], fun i h _ => h⟩
  | succ n ih =>
    unfold charBoundaryBelow
    by_cases h : isCharBoundary s (n + 1) = true
    · rw [if_pos h]
      exact ⟨Nat.le_refl _, h, fun i h _ => h⟩
    · rw [if_neg h]
      refine ⟨by omega, ih.2.1, fun i h1 h2 => ih.2.2 i ?_ h2⟩
      rcases Nat.lt_or_eq_of_le h1 with h3 | rfl
      · omega
      · exact absurd h2 h

/-- **C55.** A text is cut at the last character boundary that leaves at most `max` bytes. -/
theorem C55_truncate {s : Bytes} (max : Nat) (hs : Verif.Utf8.valid s = true) :
    LongestPrefix max s (truncateToCharBoundary s max) := by
  unfold truncateToCharBoundary
  split
  · exact ⟨List.prefix_refl _, hs, ‹_›, fun t h _ _ => h⟩
  · rename_i hlt
    obtain ⟨h1, h2, h3⟩ := boundaryBelow_spec s max
    refine ⟨List.take_prefix _ _, ?_, ?_, fun t ⟨u, hu⟩ ht hl => ?_⟩
    · obtain ⟨cs, hc, he⟩ := (Verif.Utf8.valid_iff _).1 hs
      rw [he] at h2 ⊢
      obtain ⟨k, hk⟩ := take_boundary hc (by rw [← he]; omega) h2
      rw [he] at hlt
      rw [hk, Verif.Utf8.valid_iff]
      exact ⟨cs.take k, fun c h => hc c (List.mem_of_mem_take h), rfl⟩
    · rw [List.length_take]; omega
    · have := h3 t.length hl (by rw [← hu] at hs ⊢; exact valid_boundary ht hs)
      rw [← hu, List.take_append]
      rw [← hu] at this
      rw [List.take_of_length_le this]
      exact List.prefix_append _ _

/-! ## Texts in requests -/

section
variable [Dev] {P : Oracle → Prop} {s s' : St} {ch : Channel}
open Verif.Cbor (Value)

theorem peekValue_mem {n : Value} : ∀ {m : List (Value × Value)} {x : Value},
    ((Verif.Cbor.peekValue n m).1 = some x → ∃ k, (k, x) ∈ m) ∧ ∀ e ∈ (Verif.Cbor.peekValue n m).2, e ∈ m
  | [], x => by simp [Verif.Cbor.peekValue]
  | (k, v) :: t, x => by
    unfold Verif.Cbor.peekValue
    have ih := peekValue_mem (n := n) (m := t) (x := x)
    split
    · exact ⟨fun h => (ih.1 h).imp fun k h => List.mem_cons_of_mem _ h, fun e h => List.mem_cons_of_mem _ (ih.2 e h)⟩
    · refine ⟨fun h => ⟨k, ?_⟩, fun e h => List.mem_cons_of_mem _ h⟩
      rw [← Option.some.inj h]; exact List.mem_cons_self ..
    · exact ⟨fun h => (by cases h), fun e h => h⟩

theorem destructure_mem {ns : List Value} {m : List (Value × Value)} {x : Value} (h : some x ∈ Verif.Cbor.destructure ns m) :
    ∃ k, (k, x) ∈ m := by
  induction ns generalizing m with
  | nil => cases h
  | cons n ns ih =>
    simp only [Verif.Cbor.destructure, List.mem_cons] at h
    rcases h with h | h
    · exact (peekValue_mem (x := x)).1 h.symm
    · obtain ⟨k, hk⟩ := ih h
      exact ⟨k, (peekValue_mem (x := x)).2 _ hk⟩

/-- The fields of a well-formed value are well-formed. -/
theorem fields_wf {w : Nat} {ks : List Value} {v x : Value} {f : Nat → Option Value} {i : Nat} (hv : v.WF w)
    (h : fields ks v = .ok f) (hx : f i = some x) : x.WF w := by
  unfold fields extractMap at h
  cases v with
  | map m =>
    cases h
    have : some x ∈ Verif.Cbor.destructure ks m := by
      replace hx : (Verif.Cbor.destructure ks m).getD i none = some x := hx
      rw [List.getD_eq_getElem?_getD] at hx
      cases hg : (Verif.Cbor.destructure ks m)[i]? with
      | none => rw [hg] at hx; cases hx
      | some y => rw [hg] at hx; rw [← hx]; exact List.mem_of_getElem? hg
    obtain ⟨k, hk⟩ := destructure_mem this
    exact (Verif.Cbor.WFMap_iff.1 hv.2.1 _ hk).2
  | _ => cases h

theorem cborRead_wf {b : Bytes} {v : Value} (h : cborRead b = .ok v) : v.WF Dev.wordBits := by
  unfold cborRead at h
  cases hr : Verif.Cbor.readNested Dev.wordBits b (some 4) with
  | ok v' =>
    rw [hr] at h
    cases h
    exact (Verif.Cbor.C02_any_usize_partial (by rcases Dev.wordBits_eq with h | h <;> rw [h] <;> decide) _ _ _ hr).1
  | error e => rw [hr] at h; cases h

theorem optText_valid {w : Nat} {o : Option Value} {t : Bytes} (hv : ∀ x, o = some x → x.WF w)
    (h : optE extractText o = .ok (some t)) : Verif.Utf8.valid t = true := by
  unfold optE at h
  cases o with
  | none => cases h
  | some v =>
    cases v with
    | text b =>
      cases h
      exact (Verif.Utf8.valid_iff _).2 (hv _ rfl).2
    | _ => cases h

theorem ebind_ok {α β : Type} {x : Except Status α} {f : α → Except Status β} {b : β} :
    (x >>= f) = .ok b ↔ ∃ a, x = .ok a ∧ f a = .ok b := by
  cases x with
  | ok a => exact ⟨fun h => ⟨a, rfl, h⟩, fun ⟨_, h1, h2⟩ => by cases h1; exact h2⟩
  | error e => exact ⟨fun h => (by cases h), fun ⟨_, h1, _⟩ => by cases h1⟩

/-- The names in a registration request are texts. -/
theorem names_text {msg : Bytes} {a : McParams} (h : Command.deserialize msg = .ok (.makeCredential a)) : a.user.IsText := by
  cases msg with
  | nil => cases h
  | cons c rest =>
    unfold Command.deserialize at h
    repeat' split at h
    all_goals try (simp only [ebind_ok] at h)
    all_goals first | (cases h; done) | skip
    · obtain ⟨v, hv, a', ha, he⟩ := h
      cases he
      have hw := cborRead_wf hv
      simp only [McParams.ofCbor, ebind_ok] at ha
      obtain ⟨f, hf, cdh, _, rp, _, user, ⟨u, hu, huser⟩, ps, _, ex, _, ext, _, op, _, pa, _, pr, _, ep, _, he⟩ := ha
      cases he
      have hwu : u.WF Dev.wordBits := by
        cases hf2 : f 2 with
        | none => rw [hf2] at hu; cases hu
        | some u' => rw [hf2] at hu; cases hu; exact fields_wf hw hf hf2
      simp only [UserEntity.ofCbor, ebind_ok] at huser
      obtain ⟨g, hg, id, _, name, hn, dn, hd, ic, hi, he⟩ := huser
      cases he
      rintro t (ht | ht | ht) <;> simp only at ht <;> subst ht
      · exact optText_valid (fun x hx => fields_wf hwu hg hx) hn
      · exact optText_valid (fun x hx => fields_wf hwu hg hx) hd
      · exact optText_valid (fun x hx => fields_wf hwu hg hx) hi
    all_goals (obtain ⟨_, _, _, _, he⟩ := h; cases he)

/-- A successful registration of a discoverable credential. -/
theorem stored_drawn {a : McParams} {m : McResponse}
    (h : processParsed (.makeCredential a) ch s = (.ok (.makeCredential m), s')) (hrk : a.options.rk = true) :
    ∃ c ∈ s'.stored, c.id = credentialIdIn m.authData ∧ c.rpId = a.rp.id ∧ c.userHandle = a.user.id ∧
      c.userName = a.user.name.map (truncateToCharBoundary · 64) ∧
      c.userDisplayName = a.user.displayName.map (truncateToCharBoundary · 64) ∧
      c.userIcon = a.user.icon.map (truncateToCharBoundary · 64) ∧
      c.policy = mcPolicy a.ext.credProtect ∧ c.credBlob = mcCredBlob a ∧ PublicKeyIn m.authData c.sk ∧ Drawn s.env.o c.sk := by
  obtain ⟨_, h⟩ := processParsed_ok h (by simp)
  obtain ⟨ep, s1, s2, s3, s4, _, h1, h2, h3, h4, h5⟩ := makeCredential_ok h
  simp only [mcFinish, bind_ok, mcCreate, hrk, if_true, pure_ok] at h5
  obtain ⟨mp, s5, a1, lbk, s6, a2, sk, s7, a3, _, s8, ⟨id, sa, b1, order, sb, b2, _, sc, b3, rfl, rfl⟩, ad, s9, a5, ⟨sig, x5c⟩, s10, a6, a7, rfl⟩ := h5
  cases a7
  have hid := mcAuthData_ok a5
  have hidl : id.length = 32 := rng_length b1
  have hdr : Drawn s.env.o sk := by
    have ho : s6.env.o = s.env.o := (keepEnv a2).2.trans ((keepEnv a1).2.trans
      (show s4.env.o = _ from (keepEnv h4).2.trans ((keepEnv h3).2.trans ((keepEnv h2).2.trans (keepEnv h1).2))))
    exact ⟨s6.env.k, by rw [← ho]; exact (rng_ok a3).1⟩
  obtain ⟨k, mk, e, l, _, _, _, _, _, rfl⟩ := storeCredential_ok b3
  have hst : s10.p.creds = (k, mcCred a id sk order lbk) :: sb.p.creds.filter fun e => e.1 != k :=
    (keepCreds a6).trans ((keepCreds a5).trans rfl)
  refine ⟨mcCred a id sk order lbk, ?_, hid.symm, rfl, rfl, rfl, rfl, rfl, rfl, rfl, ?_, hdr⟩
  · unfold St.stored; rw [hst]; exact List.mem_cons_self ..
  simp only [mcAuthData, generateAuthData, bind_ok, pure_ok, guardE_ok, liftE_ok] at a5
  obtain ⟨base, _, ⟨c, _, _, rfl, rfl⟩, _, _, ⟨_, rfl⟩, pk, _, ⟨hpk, rfl⟩, cose, s3', hcose, ext, _, _, rfl, _⟩ := a5
  simp only [pubKey] at hpk
  cases hpub : Dev.ecdsaPub sk with
  | none => rw [hpub] at hpk; cases hpk
  | some xy =>
    obtain ⟨x, y⟩ := xy
    rw [hpub] at hpk
    cases hpk
    obtain ⟨_, v, hv, hcose⟩ := cborWriteM_ok hcose
    refine ⟨x, y, v, cose, hpub, hv, hcose, ?_⟩
    simp only [hid]
    rw [List.append_assoc, List.drop_left']
    · exact List.prefix_append _ _
    · simp [Dev.sha256_len, Dev.aaguid_len, Verif.Cbor.beBytes, hidl]

theorem stored_registered {a : McParams} {m : McResponse}
    (h : processParsed (.makeCredential a) ch s = (.ok (.makeCredential m), s')) (hrk : a.options.rk = true) :
    ∃ c ∈ s'.stored, c.id = credentialIdIn m.authData ∧ c.rpId = a.rp.id ∧ c.userHandle = a.user.id ∧
      c.userName = a.user.name.map (truncateToCharBoundary · 64) ∧
      c.userDisplayName = a.user.displayName.map (truncateToCharBoundary · 64) ∧
      c.userIcon = a.user.icon.map (truncateToCharBoundary · 64) ∧
      c.policy = mcPolicy a.ext.credProtect ∧ c.credBlob = mcCredBlob a ∧ PublicKeyIn m.authData c.sk := by
  obtain ⟨c, hc, h1, h2, h3, h4, h5, h6, h7, h8, h9, _⟩ := stored_drawn h hrk
  exact ⟨c, hc, h1, h2, h3, h4, h5, h6, h7, h8, h9⟩

/-- **C55.** A successful registration of a discoverable credential stores the names of the request, each cut to the
longest text of at most 64 bytes that is a beginning of it. -/
theorem C55_stored {msg : Bytes} {a : McParams} {m : McResponse} (hm : Command.deserialize msg = .ok (.makeCredential a))
    (h : processParsed (.makeCredential a) ch s = (.ok (.makeCredential m), s')) (hrk : a.options.rk = true) :
    ∃ c ∈ s'.stored, c.id = credentialIdIn m.authData ∧ OptPrefix 64 a.user.name c.userName ∧
      OptPrefix 64 a.user.displayName c.userDisplayName ∧ OptPrefix 64 a.user.icon c.userIcon := by
  obtain ⟨c, hc, h1, _, _, h2, h3, h4, _⟩ := stored_registered h hrk
  have ht := names_text hm
  have key : ∀ {o : Option Bytes}, (∀ s, o = some s → Verif.Utf8.valid s = true) →
      OptPrefix 64 o (o.map (truncateToCharBoundary · 64)) := by
    intro o ho
    cases o with
    | none => rfl
    | some t => exact ⟨_, rfl, C55_truncate 64 (ho t rfl)⟩
  refine ⟨c, hc, h1, ?_, ?_, ?_⟩
  · rw [h2]; exact key fun t h => ht t (.inl h)
  · rw [h3]; exact key fun t h => ht t (.inr (.inl h))
  · rw [h4]; exact key fun t h => ht t (.inr (.inr h))

/-- **C34**, discoverable credentials: what is stored is for the relying party and the user of the request, has the
protection policy and the credential blob, and the private key that belongs to the public key in the answer. -/
theorem C34_stored {a : McParams} {m : McResponse}
    (h : processParsed (.makeCredential a) ch s = (.ok (.makeCredential m), s')) (hrk : a.options.rk = true) :
    ∃ c ∈ s'.stored, c.id = credentialIdIn m.authData ∧ c.rpId = a.rp.id ∧ c.userHandle = a.user.id ∧
      c.policy = mcPolicy a.ext.credProtect ∧ c.credBlob = mcCredBlob a ∧ PublicKeyIn m.authData c.sk := by
  obtain ⟨c, hc, h1, h2, h3, _, _, _, h4⟩ := stored_registered h hrk
  exact ⟨c, hc, h1, h2, h3, h4⟩

end

end Verif.Ctap

namespace Verif.Ctap.Toy
open Verif.Cbor (Value)
set_option maxRecDepth 100000

/-- A text of 66 bytes, in which a character of three bytes starts at byte 63. -/
def longText : Bytes := List.replicate 63 0x61 ++ [0xE2, 0x82, 0xAC]

example : truncateToCharBoundary longText 64 = List.replicate 63 0x61 ∧ truncateToCharBoundary longText 66 = longText ∧
    truncateToCharBoundary (longText.drop 1) 65 = longText.drop 1 := by decide +kernel

example : Verif.Utf8.valid longText = true := by
  rw [Verif.Utf8.valid_iff]
  exact ⟨List.replicate 63 0x61 ++ [0x20AC], by simp [Verif.Utf8.IsScalar], by decide +kernel⟩

/-- C55: a registration with this name. -/
def registerNamed : Input :=
  send 0x01 (map [(.unsigned 1, .bytes cdh), (.unsigned 2, map [(.text (b! "id"), .text rpA)]),
    (.unsigned 3, map [(.text (b! "id"), .bytes [1]), (.text (b! "name"), .text longText)]), (.unsigned 4, .array [param]),
    (.unsigned 7, map [(.text (b! "rk"), cborBool true)])])

example : accepted good registerNamed booted = true ∧
    ((step good registerNamed booted).stored.map (·.userName)) = [some (List.replicate 63 0x61)] := by decide +kernel

end Verif.Ctap.Toy
