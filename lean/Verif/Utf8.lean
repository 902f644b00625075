/-!
# UTF-8

Model of `core::str::from_utf8` (Rust standard library; used at `libraries/cbor/src/reader.rs:160`,
`libraries/opensk/src/ctap/client_pin.rs:96`) on lists of bytes, and of `str::chars().count()`.

The standard library is outside `/repo`; this is the documented behaviour (RFC 3629, well-formed byte
sequences of Unicode table 3-7).  `Verif.Utf8.Spec` below is the independent specification.
-/
namespace Verif.Utf8

abbrev Bytes := List UInt8

/-- A continuation byte `10xxxxxx`. -/
abbrev isCont (b : UInt8) : Prop := 0x80 ≤ b.toNat ∧ b.toNat ≤ 0xBF

/-- Bounds of the second byte of a three-byte sequence (excludes overlong forms and surrogates). -/
def lo3 (x0 : Nat) : Nat := if x0 = 0xE0 then 0xA0 else 0x80
@[inherit_doc lo3] def hi3 (x0 : Nat) : Nat := if x0 = 0xED then 0x9F else 0xBF
/-- Bounds of the second byte of a four-byte sequence (excludes overlong forms and > U+10FFFF). -/
def lo4 (x0 : Nat) : Nat := if x0 = 0xF0 then 0x90 else 0x80
@[inherit_doc lo4] def hi4 (x0 : Nat) : Nat := if x0 = 0xF4 then 0x8F else 0xBF

/-- One decoding step: the code point and the remaining bytes, or `none` if ill-formed.
Models the accepted ranges of `core::str::from_utf8` (Unicode table 3-7). -/
def step : Bytes → Option (Nat × Bytes)
  | [] => none
  | b0 :: t =>
    let x0 := b0.toNat
    if x0 < 0x80 then some (x0, t)
    else if 0xC2 ≤ x0 ∧ x0 ≤ 0xDF then
      match t with
      | b1 :: t => if isCont b1 then some ((x0 - 0xC0) * 64 + (b1.toNat - 0x80), t) else none
      | _ => none
    else if 0xE0 ≤ x0 ∧ x0 ≤ 0xEF then
      match t with
      | b1 :: b2 :: t =>
        if lo3 x0 ≤ b1.toNat ∧ b1.toNat ≤ hi3 x0 ∧ isCont b2 then
          some ((x0 - 0xE0) * 4096 + (b1.toNat - 0x80) * 64 + (b2.toNat - 0x80), t)
        else none
      | _ => none
    else if 0xF0 ≤ x0 ∧ x0 ≤ 0xF4 then
      match t with
      | b1 :: b2 :: b3 :: t =>
        if lo4 x0 ≤ b1.toNat ∧ b1.toNat ≤ hi4 x0 ∧ isCont b2 ∧ isCont b3 then
          some ((x0 - 0xF0) * 262144 + (b1.toNat - 0x80) * 4096 + (b2.toNat - 0x80) * 64
            + (b3.toNat - 0x80), t)
        else none
      | _ => none
    else none

theorem step_lt {bs : Bytes} {c t} (h : step bs = some (c, t)) : t.length < bs.length := by
  unfold step at h
  split at h
  · simp at h
  · next b0 t' =>
    simp only at h
    repeat' split at h
    all_goals simp at h
    all_goals (obtain ⟨_, rfl⟩ := h; simp <;> omega)

/-- All code points, or `none` if the bytes are not valid UTF-8. -/
def decode (bs : Bytes) : Option (List Nat) :=
  match h : bs with
  | [] => some []
  | _ :: _ =>
    match h2 : step bs with
    | none => none
    | some (c, t) => (decode t).map (c :: ·)
termination_by bs.length
decreasing_by
  have := step_lt h2
  subst h; exact this

/-- `str::from_utf8(bytes).is_ok()`. -/
def valid (bs : Bytes) : Bool := (decode bs).isSome

/-! ## Specification: UTF-8 as the image of an encoder of Unicode scalar values -/

/-- Unicode scalar values. -/
def IsScalar (c : Nat) : Prop := c < 0xD800 ∨ (0xE000 ≤ c ∧ c ≤ 0x10FFFF)

/-- RFC 3629 section 3, encoding of one scalar value. -/
def encodeChar (c : Nat) : Bytes :=
  if c < 0x80 then [UInt8.ofNat c]
  else if c < 0x800 then [UInt8.ofNat (0xC0 + c / 64), UInt8.ofNat (0x80 + c % 64)]
  else if c < 0x10000 then
    [UInt8.ofNat (0xE0 + c / 4096), UInt8.ofNat (0x80 + c / 64 % 64), UInt8.ofNat (0x80 + c % 64)]
  else
    [UInt8.ofNat (0xF0 + c / 262144), UInt8.ofNat (0x80 + c / 4096 % 64),
      UInt8.ofNat (0x80 + c / 64 % 64), UInt8.ofNat (0x80 + c % 64)]

theorem toNat_ofNat (n : Nat) (h : n < 256) : (UInt8.ofNat n).toNat = n := by
  simp [Nat.mod_eq_of_lt h]

theorem byte_ext {a : UInt8} {n : Nat} (h : a.toNat = n) : a = UInt8.ofNat n := by
  subst h; simp

theorem step_encodeChar (c : Nat) (hc : IsScalar c) (t : Bytes) :
    step (encodeChar c ++ t) = some (c, t) := by
  unfold IsScalar at hc
  unfold encodeChar
  split
  · simp only [List.cons_append, List.nil_append, step]
    rw [toNat_ofNat _ (by omega), if_pos (by omega)]
  split
  · simp only [List.cons_append, List.nil_append, step]
    simp only [isCont, toNat_ofNat (0xC0 + c / 64) (by omega), toNat_ofNat (0x80 + c % 64) (by omega)]
    rw [if_neg (by omega), if_pos (by omega), if_pos (by omega)]
    simp; omega
  split
  · simp only [List.cons_append, List.nil_append, step]
    simp only [isCont, toNat_ofNat (0xE0 + c / 4096) (by omega), toNat_ofNat (0x80 + c / 64 % 64) (by omega),
      toNat_ofNat (0x80 + c % 64) (by omega)]
    rw [if_neg (by omega), if_neg (by omega), if_pos (by omega), if_pos ?_]
    · simp; omega
    · unfold lo3 hi3; split <;> split <;> omega
  · simp only [List.cons_append, List.nil_append, step]
    simp only [isCont, toNat_ofNat (0xF0 + c / 262144) (by omega), toNat_ofNat (0x80 + c / 4096 % 64) (by omega),
      toNat_ofNat (0x80 + c / 64 % 64) (by omega), toNat_ofNat (0x80 + c % 64) (by omega)]
    rw [if_neg (by omega), if_neg (by omega), if_neg (by omega), if_pos (by omega), if_pos ?_]
    · simp; omega
    · unfold lo4 hi4; split <;> split <;> omega

theorem step_some {bs : Bytes} {c t} (h : step bs = some (c, t)) :
    IsScalar c ∧ bs = encodeChar c ++ t := by
  unfold step at h
  split at h
  · simp at h
  next b0 t' =>
  have h0 := b0.toNat_lt
  simp only at h
  split at h
  · simp at h; obtain ⟨rfl, rfl⟩ := h
    refine ⟨Or.inl (by omega), ?_⟩
    simp [encodeChar, *]
  split at h
  · split at h
    · next b1 t1 =>
      split at h <;> simp at h
      next hc =>
      obtain ⟨rfl, rfl⟩ := h
      refine ⟨Or.inl (by omega), ?_⟩
      rw [encodeChar, if_neg (by omega), if_pos (by omega)]
      simp only [List.cons_append, List.nil_append, List.cons.injEq, and_true]
      exact ⟨byte_ext (by omega), byte_ext (by omega)⟩
    · simp at h
  split at h
  · split at h
    · next b1 b2 t1 =>
      split at h <;> simp at h
      next hc =>
      obtain ⟨rfl, rfl⟩ := h
      obtain ⟨h1, h2, h3⟩ := hc
      unfold lo3 at h1; unfold hi3 at h2
      have hs : IsScalar ((b0.toNat - 0xE0) * 4096 + (b1.toNat - 0x80) * 64 + (b2.toNat - 0x80)) := by
        unfold IsScalar
        split at h1 <;> split at h2 <;> omega
      refine ⟨hs, ?_⟩
      have hlo : ¬ ((b0.toNat - 0xE0) * 4096 + (b1.toNat - 0x80) * 64 + (b2.toNat - 0x80) < 0x800) := by
        split at h1 <;> omega
      have hb1 : 0x80 ≤ b1.toNat := by split at h1 <;> omega
      have hb2 : b1.toNat ≤ 0xBF := by split at h2 <;> omega
      rw [encodeChar, if_neg (by omega), if_neg hlo, if_pos (by omega)]
      simp only [List.cons_append, List.nil_append, List.cons.injEq, and_true]
      exact ⟨byte_ext (by omega), byte_ext (by omega), byte_ext (by omega)⟩
    · simp at h
  split at h
  · split at h
    · next b1 b2 b3 t1 =>
      split at h <;> simp at h
      next hc =>
      obtain ⟨rfl, rfl⟩ := h
      obtain ⟨h1, h2, h3, h4⟩ := hc
      unfold lo4 at h1; unfold hi4 at h2
      have hb1 : 0x80 ≤ b1.toNat := by split at h1 <;> omega
      have hb2 : b1.toNat ≤ 0xBF := by split at h2 <;> omega
      have hlo : 0x10000 ≤ ((b0.toNat - 0xF0) * 262144 + (b1.toNat - 0x80) * 4096
          + (b2.toNat - 0x80) * 64 + (b3.toNat - 0x80)) := by
        split at h1 <;> omega
      have hhi : ((b0.toNat - 0xF0) * 262144 + (b1.toNat - 0x80) * 4096
          + (b2.toNat - 0x80) * 64 + (b3.toNat - 0x80)) ≤ 0x10FFFF := by
        split at h2 <;> omega
      refine ⟨Or.inr ⟨by omega, hhi⟩, ?_⟩
      rw [encodeChar, if_neg (by omega), if_neg (by omega), if_neg (by omega)]
      simp only [List.cons_append, List.nil_append, List.cons.injEq, and_true]
      exact ⟨byte_ext (by omega), byte_ext (by omega), byte_ext (by omega), byte_ext (by omega)⟩
    · simp at h
  · simp at h

theorem decode_nil : decode [] = some [] := by rw [decode]

theorem decode_of_step {bs : Bytes} {c t} (h : step bs = some (c, t)) :
    decode bs = (decode t).map (c :: ·) := by
  cases bs with
  | nil => simp [step] at h
  | cons b bs =>
    rw [decode]
    split
    · next h' => rw [h] at h'; simp at h'
    · next h' => rw [h] at h'; simp at h'; obtain ⟨rfl, rfl⟩ := h'; rfl

theorem decode_of_step_none {bs : Bytes} (h0 : bs ≠ []) (h : step bs = none) :
    decode bs = none := by
  cases bs with
  | nil => exact absurd rfl h0
  | cons b bs =>
    rw [decode]
    split
    · rfl
    · next h' => rw [h] at h'; simp at h'

/-- The checker accepts exactly the encodings of sequences of Unicode scalar values, and returns
that sequence. -/
theorem decode_eq_some_iff (bs : Bytes) (cs : List Nat) :
    decode bs = some cs ↔ (∀ c ∈ cs, IsScalar c) ∧ bs = cs.flatMap encodeChar := by
  constructor
  · intro h
    induction hn : bs.length using Nat.strongRecOn generalizing bs cs with
    | ind n IH =>
    cases bs with
    | nil => rw [decode_nil] at h; cases h; simp
    | cons b bs =>
      rcases h2 : step (b :: bs) with _ | ⟨c, t⟩
      · rw [decode_of_step_none (by simp) h2] at h; cases h
      rw [decode_of_step h2, Option.map_eq_some_iff] at h
      obtain ⟨cs', h, rfl⟩ := h
      obtain ⟨i1, i2⟩ := IH _ (hn ▸ step_lt h2) _ _ h rfl
      obtain ⟨s1, s2⟩ := step_some h2
      refine ⟨?_, ?_⟩
      · intro c hc; simp at hc; rcases hc with rfl | hc
        · exact s1
        · exact i1 _ hc
      · rw [s2, i2]; simp
  · rintro ⟨h1, rfl⟩
    induction cs with
    | nil => simp [decode_nil]
    | cons c cs ih =>
      rw [List.flatMap_cons, decode_of_step (step_encodeChar c (h1 c (by simp)) _),
        ih (fun c hc => h1 c (by simp [hc]))]
      rfl

theorem valid_iff (bs : Bytes) :
    valid bs = true ↔ ∃ cs : List Nat, (∀ c ∈ cs, IsScalar c) ∧ bs = cs.flatMap encodeChar := by
  simp only [valid, Option.isSome_iff_exists, decode_eq_some_iff]

end Verif.Utf8
