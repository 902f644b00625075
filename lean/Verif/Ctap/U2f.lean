import Verif.Ctap.Core

/-!
# Model of `libraries/opensk/src/ctap/apdu.rs`, `ctap1.rs` and `u2f_up.rs`
-/
namespace Verif.Ctap
open Verif.Cbor (beNat)
variable [Dev]

/-! ## `apdu.rs` -/

/-- `ApduStatusCode` (`apdu.rs:22-40`); codes that are never returned are omitted. -/
inductive Sw
  | success | memErr | wrongData | wrongLength | condUseNotSatisfied | commandNotAllowed | insInvalid | claInvalid
  | internalException
deriving DecidableEq, Repr

/-- Discriminants (`apdu.rs:25-40`). -/
def Sw.toNat : Sw → Nat
  | .success => 0x9000 | .memErr => 0x6501 | .wrongData => 0x6A80 | .wrongLength => 0x6700
  | .condUseNotSatisfied => 0x6985 | .commandNotAllowed => 0x6986 | .insInvalid => 0x6D00 | .claInvalid => 0x6E00
  | .internalException => 0x6F00

/-- `Case` and `ApduType` (`apdu.rs:86-105`). -/
inductive ApduType
  | instruction | shortLe1 | shortLc1Data | shortLc1DataLe1 | extLc3Data | extLc3DataLe1 | extLc3DataLe2 | extLe3
deriving DecidableEq, Repr

/-- `Apdu` (`apdu.rs:107-115`). -/
structure Apdu where
  cla : UInt8
  ins : UInt8
  p1 : UInt8
  p2 : UInt8
  lc : Nat
  data : Bytes
  le : Nat
  type : ApduType
deriving DecidableEq, Repr

/-- One-byte `Le` (`apdu.rs:147-152`, 176, 205-211). -/
def le1 (b : UInt8) : Nat := if b = 0 then 0x100 else b.toNat

/-- Two-byte `Le` (`apdu.rs:212-219`, 225-230). -/
def le2 (b : Bytes) : Nat := if beNat b = 0 then 0x10000 else beNat b

/-- The extended case (`apdu.rs:181-246`). -/
def Apdu.parseExt (h0 h1 h2 h3 : UInt8) (payload : Bytes) : Except Sw Apdu :=
  let lc := beNat ((payload.drop 1).take 2)
  let n := payload.length
  if n < lc + 3 then .error .wrongLength
  else
    let leLen := n - (lc + 3)
    if leLen > 3 then .error .wrongLength
    else if payload.headD 0 ≠ 0 then .error .internalException
    else
      let data := (payload.take (n - leLen)).drop 3
      match leLen with
      | 0 => .ok ⟨h0, h1, h2, h3, lc, data, 0, .extLc3Data⟩
      | 1 => .ok ⟨h0, h1, h2, h3, lc, data, le1 (payload.getLastD 0), .extLc3DataLe1⟩
      | 2 => .ok ⟨h0, h1, h2, h3, lc, data, le2 (payload.drop (n - 2)), .extLc3DataLe2⟩
      | _ =>
        if payload.getD (n - 3) 0 ≠ 0 then .error .internalException
        else .ok ⟨h0, h1, h2, h3, lc, data, le2 (payload.drop (n - 2)), .extLe3⟩

/-- `Apdu::try_from` (`apdu.rs:117-249`). -/
def Apdu.parse : Bytes → Except Sw Apdu
  | h0 :: h1 :: h2 :: h3 :: payload =>
    match payload with
    | [] => .ok ⟨h0, h1, h2, h3, 0, [], 0, .instruction⟩
    | [b] => .ok ⟨h0, h1, h2, h3, 0, [], le1 b, .shortLe1⟩
    | b :: rest =>
      let n := payload.length
      if n = 1 + b.toNat ∧ b ≠ 0 then .ok ⟨h0, h1, h2, h3, b.toNat, rest, 0, .shortLc1Data⟩
      else if n = 2 + b.toNat ∧ b ≠ 0 then
        .ok ⟨h0, h1, h2, h3, b.toNat, rest.dropLast, le1 (rest.getLastD 0), .shortLc1DataLe1⟩
      else if n > 2 then Apdu.parseExt h0 h1 h2 h3 payload
      else .error .internalException
  | _ => .error .wrongData

/-! ## `ctap1.rs`: commands -/

/-- `Ctap1Flags` (`ctap1.rs:34-38`). -/
inductive U2fFlags | checkOnly | enforce | dontEnforce
deriving DecidableEq, Repr

/-- `ctap1.rs:40-51`. -/
def U2fFlags.parse (b : UInt8) : Except Sw U2fFlags :=
  if b = 0x07 then .ok .checkOnly
  else if b = 0x03 then .ok .enforce
  else if b = 0x08 then .ok .dontEnforce
  else .error .wrongData

/-- `U2fCommand` (`ctap1.rs:60-75`). -/
inductive U2fCommand
  | register (challenge application : Bytes)
  | authenticate (challenge application keyHandle : Bytes) (flags : U2fFlags)
  | version
  | vendor (payload : Bytes)
deriving DecidableEq, Repr

/-- The match on the instruction (`ctap1.rs:105-157`). -/
def U2fCommand.ofApdu (a : Apdu) : Except Sw U2fCommand :=
  if a.ins = 0x01 then
    if a.lc ≠ 64 then .error .wrongLength
    else .ok (.register (a.data.take 32) ((a.data.drop 32).take 32))
  else if a.ins = 0x02 then
    if a.lc < 65 then .error .wrongLength
    else if a.lc ≠ 65 + (a.data.getD 64 0).toNat then .error .wrongLength
    else
      match U2fFlags.parse a.p1 with
      | .error e => .error e
      | .ok f => .ok (.authenticate (a.data.take 32) ((a.data.drop 32).take 32) (a.data.drop 65) f)
  else if a.ins = 0x03 then
    if a.lc ≠ 0 then .error .wrongLength else .ok .version
  else if 0x40 ≤ a.ins ∧ a.ins ≤ 0xBF then .ok (.vendor a.data)
  else .error .insInvalid

/-- `U2fCommand::try_from` (`ctap1.rs:77-159`). -/
def U2fCommand.parse (m : Bytes) : Except Sw U2fCommand :=
  match Apdu.parse m with
  | .error e => .error e
  | .ok a =>
    if a.cla ≠ 0 then .error .claInvalid
    else if a.lc ≠ a.data.length ∧ a.lc + 2 ≠ a.data.length then .error .wrongLength
    else U2fCommand.ofApdu a

/-! ## `u2f_up.rs` -/

/-- `grant_up` (`u2f_up.rs:40-45`). -/
def U2fUp.grant (u : U2fUp) (now : Nat) : U2fUp :=
  if Verif.Hid.Timer.isElapsed u.needsUp now then u
  else { needsUp := none, hasUp := makeTimer now 30000 }

/-- `consume_up` (`u2f_up.rs:48-56`). -/
def U2fUp.consume (u : U2fUp) (now : Nat) : Bool × U2fUp :=
  if Verif.Hid.Timer.isElapsed u.hasUp now then (false, { u with needsUp := makeTimer now 10000 })
  else (true, { u with hasUp := none })

/-- `is_up_needed` (`u2f_up.rs:62-64`). -/
def U2fUp.isNeeded (u : U2fUp) (now : Nat) : Bool := !Verif.Hid.Timer.isElapsed u.needsUp now

/-- `ctap_state.u2f_up_state.consume_up(env)`; recorded in the history. -/
def consumeUp : M Bool := do
  let t ← clock
  let v ← getV
  modV fun v => { v with u2f := (v.u2f.consume t).2 }
  logE (if (v.u2f.consume t).1 then .u2fConsume t else .u2fPrompt t)
  M.pure (v.u2f.consume t).1

/-! ## `ctap1.rs`: processing

A `Ctap1StatusCode` error is a value here (`Except Sw`), so that a computation in `M` can end with one. -/

/-- `m.map_err(|_| sw)`, as a value. -/
def orSw (m : M α) (sw : Sw) : M (Except Sw α) := fun s =>
  match m s with
  | (.ok a, s') => (.ok (.ok a), s')
  | (.err _, s') => (.ok (.error sw), s')
  | (.panic, s') => (.panic, s')
  | (.crash, s') => (.crash, s')

/-- `?` on such a value. -/
def bindSw (m : M (Except Sw α)) (f : α → M (Except Sw β)) : M (Except Sw β) := do
  let r ← m
  match r with
  | .ok a => f a
  | .error e => M.pure (.error e)

/-- `to_uncompressed` (`ctap1.rs:161-170`). -/
def toUncompressed (x y : Bytes) : Bytes := 0x04 :: x ++ y

/-- The signed message of `process_register` (`ctap1.rs:292-298`). -/
def registerData (application challenge handle pk : Bytes) : Bytes :=
  0x00 :: application ++ challenge ++ handle ++ pk

/-- The end of `process_register` (`ctap1.rs:283-305`). -/
def u2fRegisterResponse (challenge application handle pk : Bytes) (att : Attestation) : M (Except Sw Bytes) :=
  match Dev.ecdsaSign att.sk (registerData application challenge handle pk) with
  | none => panicM
  | some sig =>
    M.pure (.ok (0x05 :: pk ++ [UInt8.ofNat handle.length] ++ handle ++ att.certificate ++ sig))

/-- The attestation of `process_register` (`ctap1.rs:275-281`). A store error is `Error::Storage`
(`api/attestation_store.rs:105-116`), that is `SW_MEMERR`. -/
def u2fAttestation : M (Except Sw Attestation) :=
  bindSw (orSw attestationGet .memErr) fun o =>
    match o with
    | none => M.pure (.error .internalException)
    | some a => M.pure (.ok a)

/-- `process_register` (`ctap1.rs:252-306`). -/
def u2fRegister (challenge application : Bytes) : M (Except Sw Bytes) := do
  let sk ← newSk
  match Dev.ecdsaPub sk with
  | none => M.pure (.error .internalException)
  | some (x, y) =>
    bindSw (orSw (wrapCredential { sk := sk, rpIdHash := application, policy := none, credBlob := none })
        .internalException) fun handle =>
      if handle.length > 0xFF then M.pure (.error .internalException)
      else bindSw u2fAttestation fun att =>
        u2fRegisterResponse challenge application handle (toUncompressed x y) att

/-- The end of `process_authenticate` (`ctap1.rs:339-357`). -/
def u2fSign (challenge application sk : Bytes) : M (Except Sw Bytes) :=
  bindSw (orSw incrementGlobalCounter .wrongData) fun _ =>
    bindSw (orSw (generateAuthData application 0x01) .wrongData) fun ad =>
      bindSw (orSw (liftE (signEncode sk (ad ++ challenge))) .internalException) fun sig =>
        M.pure (.ok (((ad ++ challenge).drop application.length).take 5 ++ sig))

/-- `process_authenticate` (`ctap1.rs:322-358`). -/
def u2fAuthenticate (challenge application handle : Bytes) (flags : U2fFlags) : M (Except Sw Bytes) :=
  bindSw (orSw (unwrapCredential handle application) .wrongData) fun w =>
    match w.filter fun c => listedOk c.policy false with
    | none => M.pure (.error .wrongData)
    | some c =>
      if flags = .checkOnly then M.pure (.error .condUseNotSatisfied)
      else u2fSign challenge application c.sk

/-- The user presence check before `process_authenticate` (`ctap1.rs:218-221`). -/
def u2fCheckUp (flags : U2fFlags) : M Bool :=
  if flags = .enforce then consumeUp else M.pure true

/-- The match of `process_command` (`ctap1.rs:200-238`). -/
def u2fDispatch : U2fCommand → M (Except Sw Bytes)
  | .register challenge application => do
    let up ← consumeUp
    if up then u2fRegister challenge application else M.pure (.error .condUseNotSatisfied)
  | .authenticate challenge application handle flags => do
    let up ← u2fCheckUp flags
    if up then u2fAuthenticate challenge application handle flags else M.pure (.error .condUseNotSatisfied)
  | .version => M.pure (.ok (b! "U2F_V2"))
  | .vendor _ => M.pure (.error .success)

/-- `Ctap1Command::process_command` (`ctap1.rs:189-239`). -/
def u2fCommand (msg : Bytes) : M (Except Sw Bytes) :=
  bindSw (orSw hasAlwaysUv .internalException) fun al =>
    if al then M.pure (.error .commandNotAllowed)
    else
      match U2fCommand.parse msg with
      | .error e => M.pure (.error e)
      | .ok c => u2fDispatch c

end Verif.Ctap
