import Verif.Ctap.PropsKept
import Verif.Ctap.PanicLemmas
import Verif.Ctap.LiveSpec

/-!
# When computations succeed
-/
namespace Verif.Ctap
set_option linter.unusedSectionVars false

section
variable [Dev]

/-- The computation succeeds. -/
def Ok (m : M α) (s : St) : Prop := ∃ a s', m s = (.ok a, s')

theorem ok_bind {m : M α} {f : α → M β} {s : St} (h : Ok m s) (h2 : ∀ a s1, m s = (.ok a, s1) → Ok (f a) s1) : Ok (m >>= f) s := by
  obtain ⟨a, s1, h1⟩ := h
  obtain ⟨b, s2, h3⟩ := h2 a s1 h1
  exact ⟨b, s2, bind_ok.2 ⟨a, s1, h1, h3⟩⟩

theorem ok_pure (a : α) (s : St) : Ok (M.pure a) s := ⟨a, s, rfl⟩

theorem ok_guard {c : Bool} {e : Status} {s : St} (h : c = true) : Ok (guardE c e) s := ⟨(), s, guardE_ok.2 ⟨h, rfl⟩⟩

theorem ok_req {o : Option α} {e : Status} {s : St} {a : α} (h : o = some a) : Ok (req o e) s := ⟨a, s, req_ok.2 ⟨h, rfl⟩⟩

theorem ok_liftE {x : Except Status α} {s : St} {a : α} (h : x = .ok a) : Ok (liftE x) s := ⟨a, s, liftE_ok.2 ⟨h, rfl⟩⟩

theorem ok_mapErr {f : Status → Status} {m : M α} {s : St} (h : Ok m s) : Ok (mapErr f m) s := by
  obtain ⟨a, s1, h⟩ := h
  exact ⟨a, s1, mapErr_ok.2 h⟩

theorem ok_when {c : Bool} {m : M Unit} {s : St} (h : c = true → Ok m s) : Ok (whenM c m) s := by
  cases c with
  | false => exact ⟨(), s, rfl⟩
  | true => exact h rfl

/-- Nothing fails, and the master keys, if there are any, have the right length. -/
def Smooth (s : St) : Prop := s.env.o.Calm ∧ ∀ x, s.p.master = some x → x.length = 128

instance : SEnv Smooth := ⟨fun _ _ _ ho h => ⟨by rw [show _ = _ from ho]; exact h.1, h.2⟩⟩
stable_instances Smooth under SCreds SMinPin SRpIds SForce SEp SAlwaysUv SLargeBlob SPin SRetries STok SMis SKeys SU2f SSp SLb SPresence
  SCompare SIssued SConsumed SU2fPrompt SU2fConsume SU2fTouch SCounterEv SCounter
instance : SMaster Smooth := ⟨fun s x h => ⟨h.1, fun y hy => by cases hy; exact x.2.1⟩⟩
instance : SErase Smooth := ⟨fun s h => ⟨h.1, fun y hy => by cases hy⟩⟩

theorem smooth_of {m : M α} {s s' : St} {r : Res α} (h : m s = (r, s')) (hs : Smooth s) [hp : Pres Smooth m] : Smooth s' := by
  have := hp.out s hs; rwa [h] at this

/-- The computation succeeds if nothing fails. -/
class Go (m : M α) : Prop where
  out : ∀ s, Smooth s → Ok m s

theorem Go.bindE {m : M α} {f : α → M β} (hp : Pres Smooth m) (h1 : Go m) (h2 : ∀ a, Go (f a)) : Go (m >>= f) :=
  ⟨fun s hs => ok_bind (h1.out s hs) fun a s1 h => (h2 a).out s1 (smooth_of h hs)⟩

instance (a : α) : Go (M.pure a) := ⟨fun s _ => ok_pure a s⟩
instance : Go getV := ⟨fun _ _ => ⟨_, _, rfl⟩⟩
instance : Go clock := ⟨fun _ _ => ⟨_, _, rfl⟩⟩
instance (f : Vol → Vol) : Go (modV f) := ⟨fun _ _ => ⟨_, _, rfl⟩⟩
instance (f : ClientPin → ClientPin) : Go (modPin f) := ⟨fun _ _ => ⟨_, _, rfl⟩⟩
instance (f : TokenState → TokenState) : Go (modTok f) := ⟨fun _ _ => ⟨_, _, rfl⟩⟩
instance (f : StatefulPerm → StatefulPerm) : Go (modSp f) := ⟨fun _ _ => ⟨_, _, rfl⟩⟩
instance (e : Ev) : Go (logE e) := ⟨fun _ _ => ⟨_, _, rfl⟩⟩
instance (f : St → α) : Go (effect fun s => .ok (f s)) := ⟨fun s hs => ⟨f s, _, effect_ok.2 ⟨hs.1.cut _, rfl, rfl⟩⟩⟩
instance (a : α) : Go (effect fun _ => .ok a) := ⟨fun _ hs => ⟨a, _, effect_ok.2 ⟨hs.1.cut _, rfl, rfl⟩⟩⟩
instance : Go readP := ⟨fun s hs => ⟨s.p, _, effect_ok.2 ⟨hs.1.cut _, by rw [hs.1.read], rfl⟩⟩⟩
instance (n : Nat) : Go (rng n) := ⟨fun _ hs => ⟨_, _, effect_ok.2 ⟨hs.1.cut _, rfl, rfl⟩⟩⟩
instance (f : Persist → Persist) (evs : List Ev) : Go (writeP f evs) := ⟨fun s hs => by
  refine ⟨(), ⟨s.env.next, f s.p, s.v, evs ++ s.log⟩, ?_⟩
  simp only [writeP, hs.1.cut, hs.1.write, Bool.false_eq_true, if_false]⟩
theorem Go.whenE {c : Bool} {m : M Unit} (h : Go m) : Go (whenM c m) := ⟨fun s hs => ok_when fun _ => h.out s hs⟩
theorem Go.iteE {c : Prop} [Decidable c] {m n : M α} (h1 : Go m) (h2 : Go n) : Go (if c then m else n) := by
  split <;> assumption
theorem Go.mapErrE {f : Status → Status} {m : M α} (h : Go m) : Go (mapErr f m) := ⟨fun s hs => ok_mapErr (h.out s hs)⟩

/-- The rule application for `Go`. -/
macro "go" : tactic => `(tactic| repeat (first
  | infer_instance
  | with_reducible refine Go.bindE (by pres) ?_ ?_
  | with_reducible refine Go.mapErrE ?_
  | with_reducible refine Go.whenE ?_
  | with_reducible refine Go.iteE ?_ ?_
  | intro _
  | split
  | dsimp only))

instance : Go getMasterKeys := by
  constructor
  intro s hs
  unfold getMasterKeys
  refine ok_mapErr (ok_bind (Go.out s hs) fun p s1 h1 => ?_)
  have hs1 := smooth_of h1 hs
  obtain ⟨rfl, rfl⟩ := readP_ok h1
  cases hm : s.p.master with
  | some x => exact ok_bind (ok_guard (by simpa using hs.2 x hm)) fun _ s2 _ => ok_pure x s2
  | none =>
    refine ok_bind (Go.out _ hs1) fun x s2 h2 => ?_
    have hs2 : Smooth s2 := smooth_of h2 hs1
    exact ok_bind (Go.out _ hs2) fun _ s3 _ => ok_pure x s3

instance (u : Bool) : Go (credRandom u) := by unfold credRandom; go
instance : Go newSk := by unfold newSk; go
instance : Go iterCredentials := by unfold iterCredentials; go
instance : Go countCredentials := by unfold countCredentials; go
instance : Go newCreationOrder := by unfold newCreationOrder; go
instance : Go signatureCounter := by unfold signatureCounter; go
instance (n : Nat) : Go (incrSignatureCounter n) := by unfold incrSignatureCounter; go
instance : Go incrementGlobalCounter := by unfold incrementGlobalCounter; go
instance : Go pinHash := by unfold pinHash; go
instance (h : Bytes) (n : Nat) : Go (setPin h n) := by unfold setPin; go
instance : Go pinRetries := by unfold pinRetries; go
instance : Go decrPinRetries := by unfold decrPinRetries; go
instance : Go resetPinRetries := by unfold resetPinRetries; go
instance : Go minPinLength := by unfold minPinLength; go
instance : Go minPinLengthRpIds := by unfold minPinLengthRpIds; go
instance : Go hasForcePinChange := by unfold hasForcePinChange; go
instance : Go hasAlwaysUv := by unfold hasAlwaysUv; go
instance : Go enterpriseAttestation := by unfold enterpriseAttestation; go
instance (pr : Proto) : Go (regenerate pr) := by unfold regenerate; go
instance (pr : Proto) : Go (resetToken pr) := by unfold resetToken; go
instance (b : Bytes) (e : Bool) : Go (drawIv b e) := by unfold drawIv; go
instance : Go clearTokenFlags := by unfold clearTokenFlags; go
instance (h : Bytes) (f : UInt8) : Go (generateAuthData h f) := by unfold generateAuthData; go
instance (c : Stateful) (ch : Channel) : Go (setCommand c ch) := by unfold setCommand; go
instance (i : AssertionInput) (l : List Nat) (ch : Channel) : Go (gaRemember i l ch) := by unfold gaRemember; go
instance : Go logIssued := by unfold logIssued; go
instance : Go updateTimeouts := by unfold updateTimeouts; go
instance (r : Response) : Go (logCounter r) := by unfold logCounter; go

/-- Encryption of whole blocks succeeds. -/
theorem ok_encrypt {s : St} (hs : Smooth s) {key pt : Bytes} {b : Bool} (hl : pt.length % 16 = 0) : Ok (aesEncrypt key pt b) s := by
  unfold aesEncrypt
  refine ok_bind (Go.out _ hs) fun iv s1 _ => ?_
  have hn := aesCbcEncrypt_no_panic (Dev.aesEnc key) iv pt b
  cases h : Verif.Crypto.aesCbcEncrypt (Dev.aesEnc key) iv pt b with
  | ok c => exact ⟨c, s1, rfl⟩
  | panic => exact absurd h hn
  | invalidParameter =>
    exfalso
    unfold Verif.Crypto.aesCbcEncrypt at h
    rw [if_neg (by omega)] at h
    split at h
    · revert h; cases Verif.Crypto.cbcEncrypt _ iv pt <;> simp [Verif.Crypto.WrapRes.ofOption, Verif.Crypto.WrapRes.map]
    · revert h; cases Verif.Crypto.cbcEncrypt _ (List.replicate 16 0) pt <;> simp [Verif.Crypto.WrapRes.ofOption]

/-- The loop of the presence check. -/
theorem presence_ok {s : St} (hs : Smooth s) {n m : Nat} (hm : m < n) (hw : s.env.o.wait (s.env.k + 2 * m) = .touched)
    (hb : ∀ j, j < m → s.env.o.wait (s.env.k + 2 * j) = .timeout ∧ s.env.o.keep (s.env.k + 2 * j + 1) = .ok) :
    ∃ s', presenceLoop n s = (.ok (.ok ()), s') := by
  induction m generalizing n s with
  | zero =>
    obtain ⟨n, rfl⟩ : ∃ k, n = k + 1 := ⟨n - 1, by omega⟩
    refine ⟨{ s with env := s.env.next, log := .presence s.env.next.now :: s.log }, ?_⟩
    simp only [presenceLoop, bind_def, M.bind, effect, hs.1.cut, Bool.false_eq_true, if_false]
    have : s.env.o.wait s.env.k = .touched := by simpa using hw
    simp only [this]
    rfl
  | succ m ih =>
    obtain ⟨n, rfl⟩ : ∃ k, n = k + 1 := ⟨n - 1, by omega⟩
    obtain ⟨h1, h2⟩ := hb 0 (by omega)
    have e1 : s.env.o.wait s.env.k = .timeout := by simpa using h1
    have e2 : s.env.o.keep s.env.next.k = .ok := by simpa [Env.next] using h2
    obtain ⟨s', h'⟩ := ih (s := { s with env := s.env.next.next }) (n := n) hs (by omega)
      (by have : s.env.next.next.k + 2 * m = s.env.k + 2 * (m + 1) := by simp [Env.next]; omega
          show s.env.o.wait (s.env.next.next.k + 2 * m) = _
          rw [this]; exact hw)
      (fun j hj => by
        have : s.env.next.next.k + 2 * j = s.env.k + 2 * (j + 1) := by simp [Env.next]; omega
        show s.env.o.wait (s.env.next.next.k + 2 * j) = _ ∧ s.env.o.keep (s.env.next.next.k + 2 * j + 1) = _
        rw [this]; exact hb (j + 1) (by omega))
    refine ⟨s', ?_⟩
    have e3 : s.env.next.o = s.env.o := rfl
    simp only [presenceLoop, bind_def, M.bind, effect, hs.1.cut, Bool.false_eq_true, if_false, e1, e2, e3]
    exact h'

theorem ok_presence {s : St} (hs : Smooth s) (hc : s.env.o.Confirms) : Ok checkPresenceE s := by
  obtain ⟨n, hn, h1, h2⟩ := hc s.env.k
  obtain ⟨s', h⟩ := presence_ok hs (n := 30000 / 100 + 1) (m := n) (by omega) h1 h2
  exact ⟨(), s', by simp only [checkPresenceE, bind_ok, liftE_ok]; exact ⟨_, _, h, rfl, rfl⟩⟩

/-! ## Encoding -/

mutual
theorem write_ok : ∀ (v : CVal) (d : Int), (v.depth : Int) ≤ d → ∃ b, v.write (some d) = .ok b
  | .unsigned n, d, h => by
    have : ¬ d < 0 := by simp [Verif.Cbor.Value.depth] at h; omega
    simp [Verif.Cbor.Value.write, Verif.Cbor.Depth.exhausted, this]
  | .negative n, d, h => by
    have : ¬ d < 0 := by simp [Verif.Cbor.Value.depth] at h; omega
    simp [Verif.Cbor.Value.write, Verif.Cbor.Depth.exhausted, this]
  | .bytes n, d, h => by
    have : ¬ d < 0 := by simp [Verif.Cbor.Value.depth] at h; omega
    simp [Verif.Cbor.Value.write, Verif.Cbor.Depth.exhausted, this]
  | .text n, d, h => by
    have : ¬ d < 0 := by simp [Verif.Cbor.Value.depth] at h; omega
    simp [Verif.Cbor.Value.write, Verif.Cbor.Depth.exhausted, this]
  | .simple n, d, h => by
    have : ¬ d < 0 := by simp [Verif.Cbor.Value.depth] at h; omega
    simp [Verif.Cbor.Value.write, Verif.Cbor.Depth.exhausted, this]
  | .array l, d, h => by
    simp only [Verif.Cbor.Value.depth] at h
    have : ¬ d < 0 := by omega
    obtain ⟨b, hb⟩ := writeList_ok l (d - 1) (by omega)
    simp [Verif.Cbor.Value.write, Verif.Cbor.Depth.exhausted, this, Verif.Cbor.Depth.pred, hb, bind, Except.bind]
  | .map l, d, h => by
    simp only [Verif.Cbor.Value.depth] at h
    have : ¬ d < 0 := by omega
    obtain ⟨b, hb⟩ := writeMap_ok l (d - 1) (by omega)
    simp [Verif.Cbor.Value.write, Verif.Cbor.Depth.exhausted, this, Verif.Cbor.Depth.pred, hb, bind, Except.bind]
  | .tag n v, d, h => by
    simp only [Verif.Cbor.Value.depth] at h
    have : ¬ d < 0 := by omega
    obtain ⟨b, hb⟩ := write_ok v (d - 1) (by omega)
    simp [Verif.Cbor.Value.write, Verif.Cbor.Depth.exhausted, this, Verif.Cbor.Depth.pred, hb, bind, Except.bind]
theorem writeList_ok : ∀ (l : List CVal) (d : Int), (Verif.Cbor.Value.depthList l : Int) ≤ d + 1 →
    ∃ b, Verif.Cbor.Value.writeList l (some d) = .ok b
  | [], _, _ => ⟨_, rfl⟩
  | x :: l, d, h => by
    simp only [Verif.Cbor.Value.depthList] at h
    obtain ⟨b, hb⟩ := write_ok x d (by omega)
    obtain ⟨c, hc⟩ := writeList_ok l d (by omega)
    simp [Verif.Cbor.Value.writeList, hb, hc, bind, Except.bind]
theorem writeMap_ok : ∀ (l : List (CVal × CVal)) (d : Int), (Verif.Cbor.Value.depthMap l : Int) ≤ d + 1 →
    ∃ b, Verif.Cbor.Value.writeMap l (some d) = .ok b
  | [], _, _ => ⟨_, rfl⟩
  | (k, v) :: l, d, h => by
    simp only [Verif.Cbor.Value.depthMap] at h
    obtain ⟨a, ha⟩ := write_ok k d (by omega)
    obtain ⟨b, hb⟩ := write_ok v d (by omega)
    obtain ⟨c, hc⟩ := writeMap_ok l d (by omega)
    simp [Verif.Cbor.Value.writeMap, ha, hb, hc, bind, Except.bind]
end

theorem cborWrite_ok {v : CVal} (h : v.depth ≤ 4) : ∃ b, cborWrite v = .ok b := by
  obtain ⟨b, hb⟩ := write_ok v 4 (by omega)
  exact ⟨b, by simp only [cborWrite, hb]⟩

/-! ## Every response can be encoded -/

open Verif.Cbor (Value)

theorem depthMap_le {n : Nat} : ∀ {l : List (Value × Value)},
    (∀ e ∈ l, e.1.depth + 1 ≤ n ∧ e.2.depth + 1 ≤ n) → Value.depthMap l ≤ n
  | [], _ => Nat.zero_le _
  | (k, v) :: l, h => by
    have h1 := h _ (List.mem_cons_self ..)
    have h2 := depthMap_le (l := l) fun e he => h e (List.mem_cons_of_mem _ he)
    simp only [Value.depthMap]
    simp only at h1
    omega

theorem depthList_le {n : Nat} : ∀ {l : List Value}, (∀ e ∈ l, e.depth + 1 ≤ n) → Value.depthList l ≤ n
  | [], _ => Nat.zero_le _
  | v :: l, h => by
    have h1 := h _ (List.mem_cons_self ..)
    have h2 := depthList_le (l := l) fun e he => h e (List.mem_cons_of_mem _ he)
    simp only [Value.depthList]
    omega

theorem mkMap_depth {n : Nat} {l : List (Value × Value)} {v : Value} (hv : Verif.Cbor.mkMap l = some v)
    (h : ∀ e ∈ l, e.1.depth ≤ n ∧ e.2.depth ≤ n) : v.depth ≤ n + 1 := by
  unfold Verif.Cbor.mkMap at hv
  split at hv
  · cases hv
  · cases hv
    refine depthMap_le fun e he => ?_
    have := h e ((sortEntries_perm l).mem_iff.1 he)
    omega

/-- All values have at most this depth. -/
def OptDepth (n : Nat) (o : Option Value) : Prop := ∀ x, o = some x → x.depth ≤ n

theorem optDepth_none (n : Nat) : OptDepth n none := fun _ h => by cases h
theorem optDepth_some {n : Nat} {v : Value} (h : v.depth ≤ n) : OptDepth n (some v) := fun _ e => by cases e; exact h
theorem optDepth_map {n : Nat} {o : Option α} {f : α → Value} (h : ∀ a, (f a).depth ≤ n) : OptDepth n (o.map f) := by
  intro x hx
  obtain ⟨a, _, rfl⟩ := Option.map_eq_some_iff.1 hx
  exact h a
theorem optDepth_ite {n : Nat} {c : Prop} [Decidable c] {a b : Option Value} (ha : OptDepth n a) (hb : OptDepth n b) :
    OptDepth n (if c then a else b) := by
  split <;> assumption
theorem OptDepth.mono {n m : Nat} {o : Option Value} (h : OptDepth n o) (hm : n ≤ m) : OptDepth m o :=
  fun x hx => Nat.le_trans (h x hx) hm

theorem mapOptions_depth {n : Nat} {es : List (Value × Option Value)} {v : Value} (hv : cborMapOptions es = some v)
    (h : ∀ e ∈ es, e.1.depth ≤ n ∧ OptDepth n e.2) : v.depth ≤ n + 1 := by
  refine mkMap_depth hv fun e he => ?_
  obtain ⟨x, hx, hy⟩ := List.mem_filterMap.1 he
  obtain ⟨a, ha, rfl⟩ := Option.map_eq_some_iff.1 hy
  exact ⟨(h x hx).1, (h x hx).2 a ha⟩

theorem optP_depth {n : Nat} {α : Type} {f : α → Option Value} (h : ∀ a v, f a = some v → v.depth ≤ n) {o : Option α} {r : Option Value}
    (hr : optP f o = some r) : OptDepth n r := by
  cases o with
  | none => simp only [optP, Option.some.injEq] at hr; subst hr; exact optDepth_none n
  | some a =>
    cases hf : f a with
    | none => simp [optP, hf] at hr
    | some v =>
      simp only [optP, hf, Option.map_some, Option.some.injEq] at hr
      subst hr
      exact optDepth_some (h a v hf)

theorem cborInt_depth (i : Int) : (cborInt i).depth = 0 := by unfold cborInt; split <;> simp [Value.depth]
theorem cborBool_depth (b : Bool) : (cborBool b).depth = 0 := by simp [cborBool, Value.depth]

/-- Entries of a map that are scalars or known. -/
macro "entries" : tactic => `(tactic| (
  repeat' (first | refine List.forall_mem_cons.2 ⟨?_, ?_⟩ | exact fun _ h => nomatch h)
  all_goals (refine ⟨by simp [Value.depth], ?_⟩)
  all_goals (first
    | assumption
    | exact optDepth_none _
    | exact optDepth_some (by simp [Value.depth, cborInt_depth, cborBool_depth])
    | (refine optDepth_map fun _ => ?_; simp [Value.depth, cborInt_depth, cborBool_depth, Policy.toCbor]; done)
    | exact optDepth_ite (optDepth_some (by simp [Value.depth, cborInt_depth, cborBool_depth])) (optDepth_none _)
    | skip)))

theorem RpEntity.depth (r : RpEntity) {v : Value} (h : r.toCbor = some v) : v.depth ≤ 1 := mapOptions_depth (n := 0) h (by entries)
theorem UserEntity.depth (r : UserEntity) {v : Value} (h : r.toCbor = some v) : v.depth ≤ 1 := mapOptions_depth (n := 0) h (by entries)
theorem CoseKey.depth (r : CoseKey) {v : Value} (h : r.toCbor = some v) : v.depth ≤ 1 := mapOptions_depth (n := 0) h (by entries)
theorem Descriptor.depth (r : Descriptor) {v : Value} (h : r.toCbor = some v) : v.depth ≤ 2 := by
  refine mapOptions_depth (n := 1) h ?_
  entries
  · exact optDepth_some (by unfold credTypeToCbor; split <;> simp [Value.depth])
  · refine optDepth_map fun l => depthList_le fun e he => ?_
    obtain ⟨t, _, rfl⟩ := List.mem_map.1 he
    simp [Value.depth]

theorem GaResponse.depth (r : GaResponse) {v : Value} (h : r.toCbor = some v) : v.depth ≤ 3 := by
  obtain ⟨d, hd⟩ := Descriptor.toCbor_some r.credential
  obtain ⟨u, hu⟩ := optP_some UserEntity.toCbor_some r.user
  simp only [GaResponse.toCbor, hd, hu, Option.bind_eq_bind, Option.bind_some] at h
  have h1 : OptDepth 2 (some d) := optDepth_some (r.credential.depth hd)
  have h2 : OptDepth 2 u := (optP_depth UserEntity.depth hu).mono (by omega)
  exact mapOptions_depth (n := 2) h (by entries)

theorem attStmt_depth {a : Bytes} {b : Option Bytes} {v : Value} (h : attStmtCbor a b = some v) : v.depth ≤ 2 := by
  have h1 : OptDepth 1 (b.map fun c => .array [.bytes c]) := optDepth_map fun _ => by simp [Value.depth, Value.depthList]
  exact mapOptions_depth (n := 1) h (by entries)

theorem McResponse.depth (r : McResponse) {v : Value} (h : r.toCbor = some v) : v.depth ≤ 3 := by
  obtain ⟨d, hd⟩ := attStmtCbor_some r.sig r.x5c
  simp only [McResponse.toCbor, hd, Option.bind_eq_bind, Option.bind_some] at h
  have h1 : OptDepth 2 (some d) := optDepth_some (attStmt_depth hd)
  exact mapOptions_depth (n := 2) h (by entries)

theorem PinResponse.depth (r : PinResponse) {v : Value} (h : r.toCbor = some v) : v.depth ≤ 2 := by
  obtain ⟨d, hd⟩ := optP_some CoseKey.toCbor_some r.keyAgreement
  simp only [PinResponse.toCbor, hd, Option.bind_eq_bind, Option.bind_some] at h
  have h1 : OptDepth 1 d := optP_depth CoseKey.depth hd
  exact mapOptions_depth (n := 1) h (by entries)

theorem CmResponse.depth (r : CmResponse) {v : Value} (h : r.toCbor = some v) : v.depth ≤ 3 := by
  obtain ⟨a, ha⟩ := optP_some RpEntity.toCbor_some r.rp
  obtain ⟨d, hd⟩ := optP_some Descriptor.toCbor_some r.credentialId
  obtain ⟨u, hu⟩ := optP_some UserEntity.toCbor_some r.user
  obtain ⟨k, hk⟩ := optP_some CoseKey.toCbor_some r.publicKey
  simp only [CmResponse.toCbor, ha, hd, hu, hk, Option.bind_eq_bind, Option.bind_some] at h
  have h1 : OptDepth 2 a := (optP_depth RpEntity.depth ha).mono (by omega)
  have h2 : OptDepth 2 d := optP_depth Descriptor.depth hd
  have h3 : OptDepth 2 u := (optP_depth UserEntity.depth hu).mono (by omega)
  have h4 : OptDepth 2 k := (optP_depth CoseKey.depth hk).mono (by omega)
  exact mapOptions_depth (n := 2) h (by entries)

theorem texts_depth (l : List Bytes) : (Value.array (l.map .text)).depth ≤ 2 := by
  refine Nat.le_trans (depthList_le (n := 1) fun e he => ?_) (by omega)
  obtain ⟨t, _, rfl⟩ := List.mem_map.1 he
  simp [Value.depth]

theorem InfoResponse.depth (r : InfoResponse) {v : Value} (h : r.toCbor = some v) : v.depth ≤ 3 := by
  simp only [InfoResponse.toCbor, Option.bind_eq_bind, Option.bind_eq_some_iff] at h
  obtain ⟨o, ho, a, ha, h⟩ := h
  have h1 : OptDepth 2 (some o) := optDepth_some (Nat.le_trans (mkMap_depth (n := 0) ho fun e he => by
    obtain ⟨x, _, rfl⟩ := List.mem_map.1 he
    simp [Value.depth, cborBool_depth]) (by omega))
  have h2 : OptDepth 2 (some (.array [a])) := by
    have : a.depth ≤ 1 := mapOptions_depth (n := 0) ha (by entries)
    refine optDepth_some (depthList_le fun e he => ?_)
    simp only [List.mem_cons, List.not_mem_nil, or_false] at he
    subst he; omega
  have h3 : OptDepth 2 (some (.array (r.versions.map .text))) := optDepth_some (texts_depth _)
  have h4 : OptDepth 2 (some (.array (.unsigned 2 :: if Dev.allowsPinV1 then [.unsigned 1] else []))) := by
    split <;> exact optDepth_some (by simp [Value.depth, Value.depthList])
  have h5 : OptDepth 2 (some (.array [.text (b! "usb")])) := optDepth_some (by simp [Value.depth, Value.depthList])
  have h6 : OptDepth 2 (some (.array [.text (b! "hmac-secret"), .text (b! "credProtect"), .text (b! "minPinLength"),
        .text (b! "credBlob"), .text (b! "largeBlobKey")])) := optDepth_some (by simp [Value.depth, Value.depthList])
  exact mapOptions_depth (n := 2) h (by entries)

theorem Response.depth (r : Response) {v : Value} (h : r.toCbor = some (some v)) : v.depth ≤ 3 := by
  have fin : ∀ {o : Option Value}, o.map some = some (some v) → o = some v := by
    intro o h; cases o <;> simp_all
  cases r with
  | makeCredential r => exact r.depth (fin h)
  | getAssertion r => exact r.depth (fin h)
  | getNextAssertion r => exact r.depth (fin h)
  | getInfo r => exact r.depth (fin h)
  | clientPin r => exact Nat.le_trans (optP_depth PinResponse.depth h _ rfl) (by omega)
  | credMgmt r => exact optP_depth CmResponse.depth h _ rfl
  | largeBlobs r => exact Nat.le_trans (optP_depth (n := 1) (fun b v h => mapOptions_depth (n := 0) h (by entries)) h _ rfl) (by omega)
  | reset => cases h
  | selection => cases h
  | config => cases h

/-- The encoding of a successful response always succeeds. -/
theorem encodeResponse_eq (r : Response) : ∃ o, r.toCbor = some o ∧
    (match o with
     | none => ∀ s, encodeResponse r s = (.ok [0x00], s)
     | some v => ∃ b, cborWrite v = .ok b ∧ ∀ s, encodeResponse r s = (.ok (0x00 :: b), s)) := by
  obtain ⟨o, ho⟩ := r.toCbor_some
  refine ⟨o, ho, ?_⟩
  cases o with
  | none => intro s; simp only [encodeResponse, ho]; rfl
  | some v =>
    obtain ⟨b, hb⟩ := cborWrite_ok (v := v) (Nat.le_trans (r.depth ho) (by omega))
    refine ⟨b, hb, fun s => ?_⟩
    simp only [encodeResponse, ho, hb]; rfl

end
end Verif.Ctap
