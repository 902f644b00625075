import Verif.Ctap.Step

/-!
# A device for the examples

The cryptographic functions are simple stand-ins with the right lengths (the theorems hold for every `Dev`), so
that the kernel can run whole sessions of the model in the examples beside the theorems.
-/
namespace Verif.Ctap.Toy
open Verif.Cbor (Value beBytes)

def pad32 (b : Bytes) : Bytes := (b ++ List.replicate 32 0).take 32

theorem pad32_len (b : Bytes) : (pad32 b).length = 32 := by simp [pad32]

def xor (a b : Bytes) : Bytes := List.zipWith (· ^^^ ·) a b

/-- Stand-in for a hash: XOR of the 32-byte chunks, with the length added. -/
def hash (b : Bytes) : Bytes :=
  pad32 ([UInt8.ofNat b.length] ++ xor (pad32 b) (xor (pad32 (b.drop 32)) (pad32 (b.drop 64))))

@[reducible] def dev : Dev where
  wordBits := 32
  wordBits_eq := .inl rfl
  sha256 := hash
  sha256_len _ := pad32_len _
  hmac k m := pad32 (xor (pad32 k) (hash m))
  hmac_len _ _ := pad32_len _
  hkdf k s i := pad32 (xor (pad32 k) (hash (s ++ i)))
  hkdf_len _ _ _ := pad32_len _
  hkdfEmptySalt k i := pad32 (xor (pad32 k) (hash i))
  hkdfEmptySalt_len _ _ := pad32_len _
  aesEnc _ b := b.reverse
  aesDec _ b := b.reverse
  aesEnc_len _ b h := by simpa using h
  aesDec_len _ b h := by simpa using h
  aes_inv _ b _ := by simp
  ecdh _ x _ := some x
  ecdhPub sk := (sk, sk)
  ecdsaPub sk := some (sk, sk)
  ecdsaSign sk m := some (0x30 :: xor sk (hash m))
  aaguid := List.replicate 16 0xAA
  aaguid_len := rfl
  allowsPinV1 := true
  defaultCredProtect := none
  defaultMinPinLength := 4
  defaultMinPinLength_ge := by decide
  defaultMinPinLength_le := by decide
  defaultMinPinRpIds := []
  enforceAlwaysUv := false
  epMode := none
  epRpIds := []
  maxMsgSize := 7609
  maxMsgSize_ge := by decide
  maxMsgSize_le := by decide
  maxPinRetries := 8
  maxPinRetries_le := by decide
  useBatchAttestation := false
  useSignatureCounter := true
  maxCredBlobLength := 32
  maxCredBlobLength_ge := by decide
  maxCredBlobLength_le := by decide
  maxCredCountInList := none
  maxLargeBlob := 2048
  maxLargeBlob_ge := by decide
  maxRpIds := 8
  maxResidentKeys := 3
  maxResidentKeys_le := by decide
  firmwareVersion := none

instance : Dev := dev

/-- Nothing fails, each interaction takes 1 ms, the user confirms, random bytes depend on the interaction. -/
def good : Oracle where
  cut _ := false
  rfail _ := none
  wfail _ := none
  adv _ := 1
  rnd k i := UInt8.ofNat (k * 7 + i + 1)
  wait _ := .touched
  keep _ := .ok
  shuffle _ l := l
  shuffle_perm _ _ := .refl _

/-- As `good`, but power is cut at interaction `n`. -/
def cutAt (n : Nat) : Oracle := { good with cut := fun k => k == n }

/-- As `good`, but the user does nothing. -/
def idle : Oracle := { good with wait := fun _ => .timeout }

def env0 : Env := { o := good, k := 0, now := 0 }

/-- A device fresh from the factory. -/
def factory : St := { env := env0, p := { attestation := some ⟨List.replicate 32 7, [1, 2, 3]⟩ }, v := Vol.off, log := [] }

/-- Power-up with an oracle. -/
def boot (o : Oracle) (s : St) : St := (bootM (s.withOracle o)).2

/-- One input with an oracle. -/
def step (o : Oracle) (i : Input) (s : St) : St := (stepM i (s.withOracle o)).2

/-- The answer to one input. -/
def reply (o : Oracle) (i : Input) (s : St) : Res Reply := (stepM i (s.withOracle o)).1

/-- The bytes of a CTAP2 answer. -/
def bytes (o : Oracle) (i : Input) (s : St) : Option Bytes :=
  match reply o i s with
  | .ok (.ctap2 b) => some b
  | _ => none

def map (es : List (Value × Value)) : Value := .map es

/-- A CTAP2 message. -/
def msg (cmd : UInt8) (v : Value) : Bytes := cmd :: (match v.write (some 4) with | .ok b => b | .error _ => [])

def ch : Channel := .main [1, 2, 3, 4]

def send (cmd : UInt8) (v : Value) : Input := .ctap2 ch (msg cmd v)

/-- The platform's key agreement key; its x coordinate is the shared secret of the stand-in. -/
def x : Bytes := List.replicate 32 9
def cose : Value := map [(.unsigned 1, .unsigned 2), (.unsigned 3, .negative (-25)), (.negative (-1), .unsigned 1),
  (.negative (-2), .bytes x), (.negative (-3), .bytes x)]
def secret : SharedSecret := SharedSecret.new .v1 x

/-- Encryption under protocol 1. -/
def enc (pt : Bytes) : Bytes :=
  match Verif.Crypto.aesCbcEncrypt (Dev.aesEnc secret.aesKey) [] pt false with
  | .ok b => b
  | _ => []

def newPinEnc (pin : Bytes) : Bytes := enc ((pin ++ List.replicate 64 0).take 64)
def pinHashEnc (pin : Bytes) : Bytes := enc ((Dev.sha256 pin).take 16)
def mac (m : Bytes) : Bytes := (Dev.hmac secret.hmacKey m).take 16

def setPin (pin : Bytes) : Input :=
  send 0x06 (map [(.unsigned 1, .unsigned 1), (.unsigned 2, .unsigned 3), (.unsigned 3, cose),
    (.unsigned 4, .bytes (mac (newPinEnc pin))), (.unsigned 5, .bytes (newPinEnc pin))])

def changePin (old new : Bytes) : Input :=
  send 0x06 (map [(.unsigned 1, .unsigned 1), (.unsigned 2, .unsigned 4), (.unsigned 3, cose),
    (.unsigned 4, .bytes (mac (newPinEnc new ++ pinHashEnc old))), (.unsigned 5, .bytes (newPinEnc new)),
    (.unsigned 6, .bytes (pinHashEnc old))])

def getToken (pin : Bytes) : Input :=
  send 0x06 (map [(.unsigned 1, .unsigned 1), (.unsigned 2, .unsigned 5), (.unsigned 3, cose),
    (.unsigned 6, .bytes (pinHashEnc pin))])

def getTokenPerm (pin : Bytes) (perm : Nat) (rp : Option Bytes) : Input :=
  send 0x06 (map ([(.unsigned 1, .unsigned 1), (.unsigned 2, .unsigned 9), (.unsigned 3, cose),
    (.unsigned 6, .bytes (pinHashEnc pin)), (.unsigned 9, .unsigned perm)] ++
    (match rp with | some r => [(.unsigned 10, .text r)] | none => [])))

/-- The authentication of a message with the current token of protocol 1. -/
def tokenMac (s : St) (m : Bytes) : Bytes := (Dev.hmac s.v.pin.p1.token m).take 16

def cdh : Bytes := List.replicate 32 5

def param : Value := map [(.text (b! "alg"), .negative (-7)), (.text (b! "type"), .text (b! "public-key"))]

def register (rp user : Bytes) (rk : Bool) (auth : Option Bytes) : Input :=
  send 0x01 (map ([(.unsigned 1, .bytes cdh), (.unsigned 2, map [(.text (b! "id"), .text rp)]),
    (.unsigned 3, map [(.text (b! "id"), .bytes user)]), (.unsigned 4, .array [param]),
    (.unsigned 7, map [(.text (b! "rk"), cborBool rk)])] ++
    (match auth with | some a => [(.unsigned 8, .bytes a), (.unsigned 9, .unsigned 1)] | none => [])))

def assert (rp : Bytes) (allow : Option (List Bytes)) (auth : Option Bytes) : Input :=
  send 0x02 (map ([(.unsigned 1, .text rp), (.unsigned 2, .bytes cdh)] ++
    (match allow with
     | some l => [(.unsigned 3, .array (l.map fun i =>
        map [(.text (b! "id"), .bytes i), (.text (b! "type"), .text (b! "public-key"))]))]
     | none => []) ++
    (match auth with | some a => [(.unsigned 6, .bytes a), (.unsigned 7, .unsigned 1)] | none => [])))

/-- An assertion without user presence. -/
def assertSilent (rp : Bytes) (auth : Option Bytes) : Input :=
  send 0x02 (map ([(.unsigned 1, .text rp), (.unsigned 2, .bytes cdh),
    (.unsigned 5, map [(.text (b! "up"), cborBool false)])] ++
    (match auth with | some a => [(.unsigned 6, .bytes a), (.unsigned 7, .unsigned 1)] | none => [])))

/-- The command in a message. -/
def parse : Input → Command
  | .ctap2 _ m => (match Command.deserialize m with | .ok c => c | .error _ => .getInfo)
  | _ => .getInfo

/-- Is the command accepted? -/
def accepted (o : Oracle) (i : Input) (s : St) : Bool :=
  match (processParsed (parse i) ch (s.withOracle o)).1 with
  | .ok _ => parse i != .getInfo
  | _ => false

theorem reach_boot {P : Oracle → Prop} {b : Bool} {s : St} (o : Oracle) (ho : P o) (h : Reach P b s)
    (ha : (bootM (s.withOracle o)).1.alive = true) : Reach P true (boot o s) := ha ▸ Reach.boot o ho h

theorem reach_step {P : Oracle → Prop} {s : St} (o : Oracle) (ho : P o) (i : Input) (h : Reach P true s)
    (ha : (stepM i (s.withOracle o)).1.alive = true) : Reach P true (step o i s) := ha ▸ Reach.step o ho i h

end Verif.Ctap.Toy
