import Verif.Ctap.RequestSpec
import Verif.Ctap.Core

/-!
# What an answer says

The tables of CTAP 2.1 sections 6.1 to 6.11 for the answers, as relations between CBOR values and responses, with the vocabulary of
`RequestSpec.lean`. Nothing here refers to the functions that build the answers.
-/
namespace Verif.Ctap
open Verif.Cbor (Value)

/-- The map has no other keys than these. -/
def OnlyKeys (m : Entries) (ks : List Value) : Prop := ∀ e ∈ m, e.1 ∈ ks

/-- The keys of the tables that are numbers. -/
def numbered (l : List Nat) : List Value := l.map .unsigned

/-- An integer. -/
def SaysInteger (v : Value) (i : Int) : Prop := (∃ n : Nat, i = n ∧ v = .unsigned n) ∨ (i < 0 ∧ v = .negative i)

/-- An attestation statement in the format "packed" (WebAuthn section 8.2): the algorithm is ES256. There is no chain of
certificates but at most the one of the attestation key. -/
def SaysStatement (v : Value) (a : Bytes × Option Bytes) : Prop := ∃ m, v = .map m ∧ Must SaysInteger m (.text (b! "alg")) (-7) ∧
  Must SaysBytes m (.text (b! "sig")) a.1 ∧ May (ArrayOf SaysBytes) m (.text (b! "x5c")) (a.2.map fun c => [c]) ∧
  OnlyKeys m [.text (b! "alg"), .text (b! "sig"), .text (b! "x5c")]

/-- Section 6.1.2. -/
def McResponse.Says (v : Value) (r : McResponse) : Prop := ∃ m, v = .map m ∧
  Must SaysText m (.unsigned 1) (b! "packed") ∧ Must SaysBytes m (.unsigned 2) r.authData ∧
  Must SaysStatement m (.unsigned 3) (r.sig, r.x5c) ∧ May SaysBool m (.unsigned 4) r.epAtt ∧
  May SaysBytes m (.unsigned 5) r.largeBlobKey ∧ OnlyKeys m (numbered [1, 2, 3, 4, 5])

/-- Section 6.2.2. -/
def GaResponse.Says (v : Value) (r : GaResponse) : Prop := ∃ m, v = .map m ∧
  Must Descriptor.Says m (.unsigned 1) r.credential ∧ Must SaysBytes m (.unsigned 2) r.authData ∧
  Must SaysBytes m (.unsigned 3) r.signature ∧ May UserEntity.Says m (.unsigned 4) r.user ∧ May SaysNat m (.unsigned 5) r.number ∧
  May SaysBytes m (.unsigned 7) r.largeBlobKey ∧ OnlyKeys m (numbered [1, 2, 3, 4, 5, 7])

/-- A key of COSE, as it is sent. -/
def CoseKey.Shows (v : Value) (k : CoseKey) : Prop := ∃ m, v = .map m ∧ Must SaysInteger m (.unsigned 1) k.kty ∧ Must SaysInteger m (.unsigned 3) k.alg ∧
  Must SaysInteger m (.negative (-1)) k.crv ∧ Must SaysBytes m (.negative (-2)) k.x ∧ Must SaysBytes m (.negative (-3)) k.y ∧
  OnlyKeys m [.unsigned 1, .unsigned 3, .negative (-1), .negative (-2), .negative (-3)]

/-- Section 6.5.5. -/
def PinResponse.Says (v : Value) (r : PinResponse) : Prop := ∃ m, v = .map m ∧
  May CoseKey.Shows m (.unsigned 1) r.keyAgreement ∧ May SaysBytes m (.unsigned 2) r.token ∧ May SaysNat m (.unsigned 3) r.retries ∧
  May SaysBool m (.unsigned 4) r.powerCycleState ∧ OnlyKeys m (numbered [1, 2, 3, 4])

/-- Section 6.8. -/
def CmResponse.Says (v : Value) (r : CmResponse) : Prop := ∃ m, v = .map m ∧
  May SaysNat m (.unsigned 1) r.existing ∧ May SaysNat m (.unsigned 2) r.remaining ∧ May RpEntity.Says m (.unsigned 3) r.rp ∧
  May SaysBytes m (.unsigned 4) r.rpIdHash ∧ May SaysNat m (.unsigned 5) r.totalRps ∧ May UserEntity.Says m (.unsigned 6) r.user ∧
  May Descriptor.Says m (.unsigned 7) r.credentialId ∧ May CoseKey.Shows m (.unsigned 8) r.publicKey ∧
  May SaysNat m (.unsigned 9) r.totalCredentials ∧ May Policy.Says m (.unsigned 10) r.credProtect ∧
  May SaysBytes m (.unsigned 11) r.largeBlobKey ∧ OnlyKeys m (numbered [1, 2, 3, 4, 5, 6, 7, 8, 9, 10, 11])

/-- Section 6.10. -/
def SaysBlob (v : Value) (b : Bytes) : Prop := ∃ m, v = .map m ∧ Must SaysBytes m (.unsigned 1) b ∧ OnlyKeys m (numbered [1])

/-- Section 6.4, the options: those that are constant, and those of the response. -/
def InfoResponse.SaysOptions (v : Value) (r : InfoResponse) : Prop := ∃ m, v = .map m ∧
  (∀ k ∈ [b! "rk", b! "up", b! "credMgmt", b! "authnrCfg", b! "largeBlobs", b! "pinUvAuthToken", b! "setMinPINLength"],
    Must SaysBool m (.text k) true) ∧
  Must SaysBool m (.text (b! "alwaysUv")) r.alwaysUv ∧ Must SaysBool m (.text (b! "makeCredUvNotRqd")) (!r.alwaysUv) ∧
  Must SaysBool m (.text (b! "clientPin")) r.clientPin ∧ May SaysBool m (.text (b! "ep")) r.ep

/-- The only algorithm is ES256. -/
def SaysAlgorithm (v : Value) (c : CredParam) : Prop := CredParam.Says v c ∧ c = ⟨true, true⟩

/-- Section 6.4. -/
def InfoResponse.Says [Dev] (v : Value) (r : InfoResponse) : Prop := ∃ m, v = .map m ∧
  Must (ArrayOf SaysText) m (.unsigned 1) ((if r.alwaysUv then [] else [b! "U2F_V2"]) ++ [b! "FIDO_2_0", b! "FIDO_2_1"]) ∧
  Must (ArrayOf SaysText) m (.unsigned 2) [b! "hmac-secret", b! "credProtect", b! "minPinLength", b! "credBlob", b! "largeBlobKey"] ∧
  Must SaysBytes m (.unsigned 3) Dev.aaguid ∧ Must InfoResponse.SaysOptions m (.unsigned 4) r ∧
  Must SaysNat m (.unsigned 5) Dev.maxMsgSize ∧
  Must (ArrayOf Proto.Says) m (.unsigned 6) (.v2 :: if Dev.allowsPinV1 then [.v1] else []) ∧
  May SaysNat m (.unsigned 7) Dev.maxCredCountInList ∧ Must SaysNat m (.unsigned 8) 241 ∧
  Must (ArrayOf Transport.Says) m (.unsigned 9) [.usb] ∧ Must (ArrayOf SaysAlgorithm) m (.unsigned 10) [⟨true, true⟩] ∧
  Must SaysNat m (.unsigned 11) Dev.maxLargeBlob ∧ Must SaysBool m (.unsigned 12) r.forcePinChange ∧
  Must SaysNat m (.unsigned 13) r.minPinLength ∧ May SaysNat m (.unsigned 14) Dev.firmwareVersion ∧
  Must SaysNat m (.unsigned 15) Dev.maxCredBlobLength ∧ Must SaysNat m (.unsigned 16) Dev.maxRpIds ∧
  Must SaysNat m (.unsigned 20) r.remaining ∧ OnlyKeys m (numbered [1, 2, 3, 4, 5, 6, 7, 8, 9, 10, 11, 12, 13, 14, 15, 16, 20])

/-- The value stands for the response, for the responses that carry data. -/
def Response.Carried [Dev] (v : Value) : Response → Prop
  | .makeCredential r => McResponse.Says v r
  | .getAssertion r | .getNextAssertion r => GaResponse.Says v r
  | .getInfo r => InfoResponse.Says v r
  | .clientPin (some r) => PinResponse.Says v r
  | .credMgmt (some r) => CmResponse.Says v r
  | .largeBlobs (some b) => SaysBlob v b
  | _ => False

/-- The response carries no data. -/
def Response.Empty : Response → Prop
  | .reset | .selection | .config | .clientPin none | .credMgmt none | .largeBlobs none => True
  | _ => False

/-- The answer says the response: the status byte of success, and then nothing or a value in the canonical encoding. -/
def Response.SaidBy [Dev] (r : Response) (ans : Bytes) : Prop :=
  (r.Empty ∧ ans = [0]) ∨ ∃ v, v.WF 64 ∧ v.depth ≤ 4 ∧ ans = 0 :: v.enc ∧ r.Carried v

end Verif.Ctap
