import Verif.Ctap.BlindSpec
import Verif.Ctap.GuessSpec
import Verif.Ctap.PinSpec

/-!
# Devices with different PINs (C89)

The PIN of the user is a secret of the device: it keeps the first half of its hash (`storage.rs:214-240`), and its
number of code points, which is needed for the minimum length. What a client learns about the hash is described by
running two devices that differ in the hash only.
-/
namespace Verif.Ctap

/-- The devices differ only in the hash of the PIN: both have a PIN, of as many code points, or none has. What was
recorded about the past is not compared, as no answer depends on it. -/
structure AlikeButPin (s1 s2 : St) : Prop where
  env : s2.env = s1.env
  volatile : s2.v = s1.v
  data : ∀ pin, { s2.p with pin := pin } = { s1.p with pin := pin }
  pin : s2.p.pin.map (·.2) = s1.p.pin.map (·.2)

/-- A guess was compared with the stored hash and was found to be right. -/
def Ev.isRightGuess : Ev → Bool
  | .pinCompare b => b
  | _ => false

/-- The device after the inputs and power losses of `session`. -/
def after [Dev] : List (Oracle × Option Input) → St → St
  | [], s => s
  | (o, none) :: l, s => after l (bootM (s.withOracle o)).2
  | (o, some i) :: l, s => after l (stepM i (s.withOracle o)).2

/-- The input carries a guess of the hash: a command for the PIN, with a key for the agreement and a ciphertext that is
an encryption of `hash` under the agreed secret. -/
def Input.GuessOf [Dev] (hash : Bytes) (s : St) : Input → Prop
  | .ctap2 _ msg => ∃ a ka phe z, Command.deserialize msg = .ok (.clientPin a) ∧ a.keyAgreement = some ka ∧
      a.pinHashEnc = some phe ∧ Dev.ecdh (s.v.pin.proto a.proto).sk ka.x ka.y = some z ∧
      PinSpec.decrypt a.proto z phe = some hash
  | _ => False

/-- One of the inputs of the session carries a guess of what is then the hash of the PIN. -/
def RightGuessIn [Dev] : List (Oracle × Option Input) → St → Prop
  | [], _ => False
  | (o, none) :: l, s => RightGuessIn l (bootM (s.withOracle o)).2
  | (o, some i) :: l, s =>
    (∃ hash n, s.p.pin = some (hash, n) ∧ i.GuessOf hash s) ∨ RightGuessIn l (stepM i (s.withOracle o)).2

/-- During the session, a client guessed the PIN of the device. -/
def GuessedIn [Dev] (l : List (Oracle × Option Input)) (s : St) : Prop :=
  HappenedSince s.log Ev.isRightGuess (after l s).log

end Verif.Ctap
