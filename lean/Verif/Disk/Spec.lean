import Verif.Disk.Model
import Verif.Store.Spec
import Verif.Store.SpecFragment
import Verif.Ctap.Step
import Verif.Utf8

/-!
# Specification of the stored data

`Holds m p`: the map `m` of entries of the store holds the data `p`. A call of a storage function on the store corresponds to the
same function on the data (`Verif/Ctap/Storage.lean`, the functions that the commands use).
-/
namespace Verif.Disk
open Verif.Ctap (Dev Cred Res Persist Attestation)
open Verif.Store (Format KV Contains Reopen Held)
variable [Dev]

/-! ## The Rust types -/

/-- A byte string: its length is a `usize`, of 32 bits. -/
def IsBytes (b : Bytes) : Prop := b.length < 2 ^ 32

/-- A `String`. -/
def IsString (b : Bytes) : Prop := b.length < 2 ^ 32 ∧ Utf8.valid b = true

/-- A `PublicKeyCredentialSource`. -/
structure IsCred (c : Cred) : Prop where
  id : IsBytes c.id
  sk : c.sk.length = 32
  rpId : IsString c.rpId
  userHandle : IsBytes c.userHandle
  userDisplayName : ∀ b, c.userDisplayName = some b → IsString b
  order : c.order < 2 ^ 64
  userName : ∀ b, c.userName = some b → IsString b
  userIcon : ∀ b, c.userIcon = some b → IsString b
  credBlob : ∀ b, c.credBlob = some b → IsBytes b
  largeBlobKey : ∀ b, c.largeBlobKey = some b → IsBytes b

/-! ## What the entries hold -/

/-- The entries 1700 to 1999 hold the credentials: each one has an entry, from which it is decoded with the encryption key, and
there are no other entries. -/
structure HoldsCreds (m : KV) (p : Persist) : Prop where
  nodup : (p.creds.map (·.1)).Nodup
  stored : ∀ e ∈ p.creds, 1700 ≤ e.1 ∧ e.1 < 2000 ∧ IsCred e.2 ∧
    ∃ mk b, p.master = some mk ∧ m e.1 = some b ∧ deserializeCredential (Ctap.encKey mk) b = some e.2
  only : ∀ k, 1700 ≤ k → k < 2000 → m k ≠ none → ∃ c, (k, c) ∈ p.creds

/-- The other entries, and the sizes of the data. -/
structure HoldsRest (m : KV) (p : Persist) : Prop where
  attestationKey : m 1 = p.attestation.map (·.sk)
  attestationCert : m 2 = p.attestation.map (·.certificate)
  attestationSize : ∀ a, p.attestation = some a → a.sk.length = 32
  alwaysUv : m 2038 = if p.alwaysUv then some [] else none
  enterprise : m 2039 = if p.enterprise then some [] else none
  forcePinChange : m 2040 = if p.forcePinChange then some [] else none
  rpIds : (p.minPinRpIds = none ∧ m 2042 = none) ∨ ∃ l b, p.minPinRpIds = some l ∧ m 2042 = some b ∧ deserializeRpIds b = some l
  minPinLength : m 2043 = p.minPinLength.map fun n => [UInt8.ofNat n]
  minPinSize : ∀ n, p.minPinLength = some n → n < 256
  pinRetries : m 2044 = p.pinRetries.map fun n => [UInt8.ofNat n]
  retriesSize : ∀ n, p.pinRetries = some n → n < 256
  pin : m 2045 = p.pin.map fun x => pinBytes x.1 x.2
  pinSize : ∀ x, p.pin = some x → x.1.length = 16 ∧ x.2 < 256
  master : m 2046 = p.master
  masterSize : ∀ mk, p.master = some mk → mk.length = 128
  counter : m 2047 = p.counter.map u32Bytes
  counterSize : ∀ n, p.counter = some n → n < 2 ^ 32

/-- The entries hold the data. -/
structure Holds (m : KV) (p : Persist) : Prop where
  creds : HoldsCreds m p
  largeBlob : Held shards m p.largeBlob
  rest : HoldsRest m p

/-- The store is in a state that it reaches, after any history with any loss of power, and its entries hold the data. -/
def Keeps (F : Format) (x : St) (p : Persist) : Prop := Store.Reach F x.st ∧ ∃ m, Contains F x.st m ∧ Holds m p

/-! ## The calls -/

/-- The storage functions, with the type of their results. -/
inductive Call : Type → Type
  | masterKeys : Call Bytes
  | iterCredentials : Call (List (Nat × Cred))
  | getCredential (key : Nat) : Call Cred
  | findCredentialItem (id : Bytes) : Call (Nat × Cred)
  | findCredential (rpId id : Bytes) : Call (Option Cred)
  | storeCredential (c : Cred) : Call Unit
  | deleteCredential (id : Bytes) : Call Unit
  | updateCredential (id : Bytes) (name displayName icon : Option Bytes) : Call Unit
  | countCredentials : Call Nat
  | remainingCredentials : Call Nat
  | newCreationOrder : Call Nat
  | signatureCounter : Call Nat
  | incrSignatureCounter (n : Nat) : Call Unit
  | pinHash : Call (Option Bytes)
  | pinCodePointLength : Call (Option Nat)
  | setPin (hash : Bytes) (len : Nat) : Call Unit
  | pinRetries : Call Nat
  | decrPinRetries : Call Unit
  | resetPinRetries : Call Unit
  | minPinLength : Call Nat
  | setMinPinLength (n : Nat) : Call Unit
  | minPinLengthRpIds : Call (List Bytes)
  | setMinPinLengthRpIds (ids : List Bytes) : Call Unit
  | getLargeBlobArray (offset count : Nat) : Call Bytes
  | commitLargeBlobArray (b : Bytes) : Call Unit
  | reset : Call Unit
  | hasForcePinChange : Call Bool
  | forcePinChange : Call Unit
  | enterpriseAttestation : Call Bool
  | attestationGet : Call (Option Attestation)
  | attestationSet (a : Attestation) : Call Unit
  | enableEnterpriseAttestation : Call Unit
  | hasAlwaysUv : Call Bool
  | toggleAlwaysUv : Call Unit

/-- The function on the store. -/
def Call.onDisk (F : Format) : Call α → M α
  | .masterKeys => Disk.getMasterKeys F
  | .iterCredentials => Disk.iterCredentials F
  | .getCredential k => Disk.getCredential F k
  | .findCredentialItem id => Disk.findCredentialItem F id
  | .findCredential rpId id => Disk.findCredential F rpId id
  | .storeCredential c => Disk.storeCredential F c
  | .deleteCredential id => Disk.deleteCredential F id
  | .updateCredential id n d i => Disk.updateCredential F id n d i
  | .countCredentials => Disk.countCredentials F
  | .remainingCredentials => Disk.remainingCredentials F
  | .newCreationOrder => Disk.newCreationOrder F
  | .signatureCounter => Disk.signatureCounter F
  | .incrSignatureCounter n => Disk.incrSignatureCounter F n
  | .pinHash => Disk.pinHash F
  | .pinCodePointLength => Disk.pinCodePointLength F
  | .setPin h n => Disk.setPin F h n
  | .pinRetries => Disk.pinRetries F
  | .decrPinRetries => Disk.decrPinRetries F
  | .resetPinRetries => Disk.resetPinRetries F
  | .minPinLength => Disk.minPinLength F
  | .setMinPinLength n => Disk.setMinPinLength F n
  | .minPinLengthRpIds => Disk.minPinLengthRpIds F
  | .setMinPinLengthRpIds ids => Disk.setMinPinLengthRpIds F ids
  | .getLargeBlobArray a b => Disk.getLargeBlobArray F a b
  | .commitLargeBlobArray b => Disk.commitLargeBlobArray F b
  | .reset => Disk.resetStorage F
  | .hasForcePinChange => Disk.hasForcePinChange F
  | .forcePinChange => Disk.forcePinChange F
  | .enterpriseAttestation => Disk.enterpriseAttestation F
  | .attestationGet => Disk.attestationGet F
  | .attestationSet a => Disk.attestationSet F a
  | .enableEnterpriseAttestation => Disk.enableEnterpriseAttestation F
  | .hasAlwaysUv => Disk.hasAlwaysUv F
  | .toggleAlwaysUv => Disk.toggleAlwaysUv F

/-- The function on the data, as the commands use it. -/
def Call.onData : Call α → Ctap.M α
  | .masterKeys => Ctap.getMasterKeys
  | .iterCredentials => Ctap.iterCredentials
  | .getCredential k => Ctap.getCredential k
  | .findCredentialItem id => Ctap.findCredentialItem id
  | .findCredential rpId id => Ctap.findCredential rpId id
  | .storeCredential c => Ctap.storeCredential c
  | .deleteCredential id => Ctap.deleteCredential id
  | .updateCredential id n d i => Ctap.updateCredential id n d i
  | .countCredentials => Ctap.countCredentials
  | .remainingCredentials => Ctap.remainingCredentials
  | .newCreationOrder => Ctap.newCreationOrder
  | .signatureCounter => Ctap.signatureCounter
  | .incrSignatureCounter n => Ctap.incrSignatureCounter n
  | .pinHash => Ctap.pinHash
  | .pinCodePointLength => Ctap.pinCodePointLength
  | .setPin h n => Ctap.setPin h n
  | .pinRetries => Ctap.pinRetries
  | .decrPinRetries => Ctap.decrPinRetries
  | .resetPinRetries => Ctap.resetPinRetries
  | .minPinLength => Ctap.minPinLength
  | .setMinPinLength n => Ctap.setMinPinLength n
  | .minPinLengthRpIds => Ctap.minPinLengthRpIds
  | .setMinPinLengthRpIds ids => Ctap.setMinPinLengthRpIds ids
  | .getLargeBlobArray a b => Ctap.getLargeBlobArray a b
  | .commitLargeBlobArray b => Ctap.commitLargeBlobArray b
  | .reset => Ctap.resetStorage
  | .hasForcePinChange => Ctap.hasForcePinChange
  | .forcePinChange => Ctap.forcePinChange
  | .enterpriseAttestation => Ctap.enterpriseAttestation
  | .attestationGet => Ctap.attestationGet
  | .attestationSet a => Ctap.attestationSet a
  | .enableEnterpriseAttestation => Ctap.enableEnterpriseAttestation
  | .hasAlwaysUv => Ctap.hasAlwaysUv
  | .toggleAlwaysUv => Ctap.toggleAlwaysUv

/-- The arguments have their Rust types. A large blob array is not empty (the command refuses it, C33). -/
def Call.Typed : Call α → Prop
  | .storeCredential c => IsCred c
  | .updateCredential _ n d i => (∀ b, n = some b → IsString b) ∧ (∀ b, d = some b → IsString b) ∧ ∀ b, i = some b → IsString b
  | .setPin h n => h.length = 16 ∧ n < 256
  | .setMinPinLength n => n < 256
  | .setMinPinLengthRpIds ids => ids.length < 2 ^ 32 ∧ ∀ b ∈ ids, IsString b
  | .commitLargeBlobArray b => b ≠ []
  | .attestationSet a => a.sk.length = 32
  | _ => True

/-- The customization has its Rust types. -/
structure TypedConfig : Prop where
  rpIds : ∀ b ∈ Dev.defaultMinPinRpIds, IsString b
  many : Dev.defaultMinPinRpIds.length < 2 ^ 32

/-! ## Histories -/

/-- A call and what it returned; `none` if power was lost during the call. -/
structure Entry where
  type : Type
  call : Call type
  result : Option (Res type)

/-- Calls on the store one after the other. When power is lost, at any interaction with the flash, the store is opened again, which may
also be interrupted. -/
inductive OnDisk (F : Format) : St → List Entry → St → Prop
  | nil {x} : OnDisk F x [] x
  | call {x x' x'' α l} (c : Call α) (r : Res α) (hc : c.Typed) (hr : r ≠ .crash) (h : c.onDisk F x = (r, x')) (h' : OnDisk F x' l x'') :
      OnDisk F x (⟨α, c, some r⟩ :: l) x''
  | lost {x x' y x'' α l} (c : Call α) (hc : c.Typed) (h : c.onDisk F x = (.crash, x')) (ho : Reopen F x'.st.fl y.st)
      (h' : OnDisk F y l x'') : OnDisk F x (⟨α, c, none⟩ :: l) x''
  | cycle {x y x'' l} (ho : Reopen F x.st.fl y.st) (h' : OnDisk F y l x'') : OnDisk F x l x''

/-- Calls on the data one after the other, each in any environment. When power is lost during a call, the data is what the call has made of
it up to any point. -/
inductive OnData : Persist → List Entry → Persist → Prop
  | nil {p} : OnData p [] p
  | call {p p' α l} (c : Call α) (r : Res α) (t : Ctap.St) (o : Ctap.Oracle) (ht : t.p = p) (h : (c.onData (t.withOracle o)).1 = r)
      (h' : OnData (c.onData (t.withOracle o)).2.p l p') : OnData p (⟨α, c, some r⟩ :: l) p'
  | lost {p p' α l} (c : Call α) (t : Ctap.St) (o : Ctap.Oracle) (ht : t.p = p)
      (h' : OnData (c.onData (t.withOracle o)).2.p l p') : OnData p (⟨α, c, none⟩ :: l) p'

end Verif.Disk
