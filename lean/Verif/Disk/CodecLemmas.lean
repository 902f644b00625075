import Verif.Disk.Spec
import Verif.Ctap.KeyLemmas
import Verif.Ctap.MapLemmas

/-!
# The entries are decoded to what was encoded
-/
namespace Verif.Disk
open Verif.Cbor (Value)
open Verif.Ctap (Dev Cred Status Policy cborMapOptions cborRead cborWrite depthMap_lt depthList_lt read_written mapOptions_parts)
variable [Dev]

/-! ## Credentials -/

/-- The entries of the encoding of a credential. -/
def credParts (c : Cred) (sk : Value) : List (Value × Option Value) :=
  [(.unsigned 0, some (.bytes c.id)), (.unsigned 2, some (.text c.rpId)), (.unsigned 3, some (.bytes c.userHandle)),
    (.unsigned 4, c.userDisplayName.map .text), (.unsigned 6, c.policy.map Policy.toCbor), (.unsigned 7, some (.unsigned c.order)),
    (.unsigned 8, c.userName.map .text), (.unsigned 9, c.userIcon.map .text), (.unsigned 10, c.credBlob.map .bytes),
    (.unsigned 11, c.largeBlobKey.map .bytes), (.unsigned 12, some sk)]

theorem wf_bytes {b : Bytes} (h : IsBytes b) : (Value.bytes b).WF Dev.wordBits := by
  simp only [Value.WF]
  exact Nat.lt_of_lt_of_le h Ctap.pow_w

theorem wf_text {b : Bytes} (h : IsString b) : (Value.text b).WF Dev.wordBits := by
  simp only [Value.WF]
  exact ⟨Nat.lt_of_lt_of_le h.1 Ctap.pow_w, (Utf8.valid_iff b).1 h.2⟩

theorem wf_sk {w : Bytes} (h : IsBytes w) : (Value.array [Ctap.cborInt Ctap.es256, .bytes w]).WF Dev.wordBits := by
  have := wf_bytes h
  simp [Value.WF, Value.WFList, Ctap.cborInt, Ctap.es256] at this ⊢
  exact this

/-- What a value in the encoding of a credential is. -/
def PartOk (v : Value) : Prop := v.WF Dev.wordBits ∧ v.depth < 2

theorem credParts_ok {c : Cred} (hc : IsCred c) {w : Bytes} (hw : IsBytes w) :
    ∀ e ∈ credParts c (.array [Ctap.cborInt Ctap.es256, .bytes w]), ∀ v, e.2 = some v → PartOk v := by
  have ht : ∀ {o : Option Bytes}, (∀ b, o = some b → IsString b) → ∀ v, o.map Value.text = some v → PartOk v := by
    intro o h v hv
    cases o with
    | none => cases hv
    | some b => cases hv; exact ⟨wf_text (h b rfl), by simp [Value.depth]⟩
  have hb : ∀ {o : Option Bytes}, (∀ b, o = some b → IsBytes b) → ∀ v, o.map Value.bytes = some v → PartOk v := by
    intro o h v hv
    cases o with
    | none => cases hv
    | some b => cases hv; exact ⟨wf_bytes (h b rfl), by simp [Value.depth]⟩
  intro e he v hv
  simp only [credParts, List.mem_cons, List.not_mem_nil, or_false] at he
  rcases he with rfl | rfl | rfl | rfl | rfl | rfl | rfl | rfl | rfl | rfl | rfl
  · cases hv; exact ⟨wf_bytes hc.id, by simp [Value.depth]⟩
  · cases hv; exact ⟨wf_text hc.rpId, by simp [Value.depth]⟩
  · cases hv; exact ⟨wf_bytes hc.userHandle, by simp [Value.depth]⟩
  · exact ht hc.userDisplayName v hv
  · dsimp only at hv
    cases hp : c.policy with
    | none => rw [hp] at hv; cases hv
    | some p => rw [hp] at hv; cases hv; cases p <;> simp [PartOk, Policy.toCbor, Policy.toNat, Value.WF, Value.depth]
  · cases hv
    have := hc.order
    exact ⟨by simpa only [Value.WF] using this, by simp [Value.depth]⟩
  · exact ht hc.userName v hv
  · exact ht hc.userIcon v hv
  · exact hb hc.credBlob v hv
  · exact hb hc.largeBlobKey v hv
  · cases hv
    exact ⟨wf_sk hw, by simp [Value.depth, Value.depthList, Ctap.cborInt, Ctap.es256]⟩

theorem credParts_keys (c : Cred) (sk : Value) : (credParts c sk).map (·.1) = [.unsigned 0, .unsigned 2, .unsigned 3, .unsigned 4,
    .unsigned 6, .unsigned 7, .unsigned 8, .unsigned 9, .unsigned 10, .unsigned 11, .unsigned 12] := rfl

theorem credToCbor_parts {c : Cred} (hc : IsCred c) {w : Bytes} (hw : IsBytes w) :
    ∃ m, credToCbor c (.array [Ctap.cborInt Ctap.es256, .bytes w]) = some (.map m) ∧ (Value.map m).WF Dev.wordBits ∧ (Value.map m).depth ≤ 4 ∧
      Verif.Cbor.destructure ((credParts c (.array [Ctap.cborInt Ctap.es256, .bytes w])).map (·.1)) m =
        (credParts c (.array [Ctap.cborInt Ctap.es256, .bytes w])).map (·.2) := by
  have hok := credParts_ok hc hw
  have hkeys : ∀ e ∈ credParts c (.array [Ctap.cborInt Ctap.es256, .bytes w]), PartOk e.1 := by
    intro e he
    have := List.mem_map_of_mem (f := (·.1)) he
    rw [credParts_keys] at this
    simp only [List.mem_cons, List.not_mem_nil, or_false] at this
    rcases this with h | h | h | h | h | h | h | h | h | h | h <;> rw [h] <;> simp [PartOk, Value.WF, Value.depth]
  obtain ⟨m, h1, h2, h3, h4⟩ := mapOptions_parts (es := credParts c (.array [Ctap.cborInt Ctap.es256, .bytes w]))
    (by simp [credParts]) (fun e he => (hkeys e he).1) (fun e he v hv => (hok e he v hv).1)
    (by rw [credParts_keys]; decide)
  refine ⟨m, h1, h2, ?_, h4⟩
  simp only [Value.depth]
  refine Nat.le_trans (depthMap_lt (n := 2) fun e he => ?_) (by decide)
  obtain ⟨k, v⟩ := e
  have := (h3 k v).1 he
  exact ⟨(hkeys _ this).2, (hok _ this v rfl).2⟩

theorem optE_map {α : Type} {f : α → Value} {g : Value → Except Status α} (h : ∀ a, g (f a) = .ok a) (o : Option α) :
    Ctap.optE g (o.map f) = .ok o := by
  cases o <;> simp [Ctap.optE, h]

theorem optE_text (o : Option Bytes) : Ctap.optE Ctap.extractText (o.map .text) = .ok o := by cases o <;> rfl
theorem optE_bytes (o : Option Bytes) : Ctap.optE Ctap.extractBytes (o.map .bytes) = .ok o := by cases o <;> rfl
theorem optE_policy (o : Option Policy) : Ctap.optE Policy.ofCbor (o.map Policy.toCbor) = .ok o :=
  optE_map (f := Policy.toCbor) Ctap.policy_ofCbor o

theorem skFromCbor_encrypted {ek iv sk w : Bytes} (hi : iv.length = 16) (hl : sk.length = 32)
    (h : Crypto.aesCbcEncrypt (Dev.aesEnc ek) iv sk true = .ok w) :
    IsBytes w ∧ Ctap.skFromCbor ek (.array [Ctap.cborInt Ctap.es256, .bytes w]) = .ok sk := by
  obtain ⟨a1, a2, _⟩ := Ctap.aesDecrypt_of_encrypt hi h
  refine ⟨by simp only [IsBytes]; omega, ?_⟩
  simp [Ctap.cborInt, Ctap.skFromCbor, Ctap.extractArray, Ctap.extractBytes, a1, Ctap.extractInteger, Ctap.es256, hl, bind, Except.bind]

/-- A credential is decoded from what it is encoded to, and encoding never fails. -/
theorem cred_roundtrip {c : Cred} (hc : IsCred c) {ek iv w : Bytes} (hi : iv.length = 16)
    (h : Crypto.aesCbcEncrypt (Dev.aesEnc ek) iv c.sk true = .ok w) :
    ∃ v b, credToCbor c (.array [Ctap.cborInt Ctap.es256, .bytes w]) = some v ∧ cborWrite v = .ok b ∧ deserializeCredential ek b = some c := by
  obtain ⟨hw, hsk⟩ := skFromCbor_encrypted hi hc.sk h
  obtain ⟨m, h1, h2, h3, h4⟩ := credToCbor_parts hc hw
  obtain ⟨b, h5, h6⟩ := read_written h2 h3
  refine ⟨_, b, h1, h5, ?_⟩
  rw [credParts_keys] at h4
  simp only [deserializeCredential, h6, credFromCbor, Ctap.fields, Ctap.extractMap, h4, bind, Except.bind, credParts, List.map_cons,
    List.map_nil, List.getD_cons_zero, List.getD_cons_succ, Ctap.okOrMissing, Ctap.extractBytes, Ctap.extractText, hsk]
  simp only [optE_text, optE_bytes, optE_policy]
  rfl

/-- The private key is encrypted: encryption never fails. -/
theorem encrypt_sk (ek iv : Bytes) {sk : Bytes} (hl : sk.length = 32) : ∃ w, Crypto.aesCbcEncrypt (Dev.aesEnc ek) iv sk true = .ok w := by
  obtain ⟨x, hx⟩ := Crypto.cbcEncrypt_isSome (Dev.aesEnc ek) 2 iv sk hl
  simp [Crypto.aesCbcEncrypt, hl, hx, Crypto.WrapRes.ofOption, Crypto.WrapRes.map]

/-! ## The other entries -/

omit [Dev] in
theorem mapE_text (ids : List Bytes) : Ctap.mapE Ctap.extractText (ids.map .text) = .ok ids := by
  induction ids with
  | nil => rfl
  | cons b l ih => simp [Ctap.mapE, ih, Ctap.extractText, bind, Except.bind]

theorem rpIds_roundtrip {ids : List Bytes} (hl : ids.length < 2 ^ 64) (h : ∀ b ∈ ids, IsString b) :
    ∃ b, serializeRpIds ids = .ok b ∧ deserializeRpIds b = some ids := by
  obtain ⟨b, h1, h2⟩ := read_written (v := .array (ids.map .text)) (by
    refine ⟨by simpa using hl, Verif.Cbor.WFList_iff.2 fun x hx => ?_⟩
    obtain ⟨y, hy, rfl⟩ := List.mem_map.1 hx
    exact wf_text (h y hy)) (by
    simp only [Value.depth]
    refine Nat.le_trans (depthList_lt (n := 1) fun x hx => ?_) (by decide)
    obtain ⟨y, hy, rfl⟩ := List.mem_map.1 hx
    simp [Value.depth])
  refine ⟨b, h1, ?_⟩
  simp [deserializeRpIds, h2, Ctap.arrayOf, Ctap.extractArray, bind, Except.bind, mapE_text, Except.toOption]

omit [Dev] in
theorem u32_roundtrip {n : Nat} (h : n < 2 ^ 32) : u32Of (u32Bytes n) = some n := by
  simp only [u32Bytes, u32Of, UInt8.toNat_ofNat', Option.some.injEq]
  omega

end Verif.Disk
