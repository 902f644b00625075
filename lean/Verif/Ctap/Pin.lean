import Verif.Ctap.Storage

/-!
# Model of `libraries/opensk/src/ctap/client_pin.rs`, `pin_protocol.rs` and `token_state.rs`
-/
namespace Verif.Ctap
variable [Dev]

/-! ## PIN protocols (`pin_protocol.rs`) -/

/-- `PinProtocol::new` (`pin_protocol.rs:42-50`). `EcdhSk::random` is 32 random bytes here. -/
def PinProtocol.fresh : M PinProtocol := do
  let sk ← rng 32
  let token ← rng 32
  M.pure { sk := sk, token := token }

def ClientPin.setProto (c : ClientPin) (pr : Proto) (p : PinProtocol) : ClientPin :=
  match pr with
  | .v1 => { c with p1 := p }
  | .v2 => { c with p2 := p }

/-- `regenerate` (`pin_protocol.rs:53-55`). -/
def regenerate (pr : Proto) : M Unit := do
  let sk ← rng 32
  modPin fun c => c.setProto pr { c.proto pr with sk := sk }

/-- `reset_pin_uv_auth_token` (`pin_protocol.rs:58-60`). -/
def resetToken (pr : Proto) : M Unit := do
  let t ← rng 32
  modPin fun c => c.setProto pr { c.proto pr with token := t }

/-- `verify_v1` and `verify_v2` (`pin_protocol.rs:180-208`). -/
def verifyMac (pr : Proto) (key msg sig : Bytes) : Except Status Unit :=
  match pr with
  | .v1 =>
    if sig.length ≠ 16 then .error .invalidParameter
    else if (Dev.hmac key msg).take 16 = sig then .ok () else .error .pinAuthInvalid
  | .v2 =>
    if sig.length ≠ 32 then .error .invalidParameter
    else if Dev.hmac key msg = sig then .ok () else .error .pinAuthInvalid

/-- `SharedSecret` (`pin_protocol.rs:129-132`, 210-214, 247-250). -/
structure SharedSecret where
  proto : Proto
  aesKey : Bytes
  hmacKey : Bytes
deriving DecidableEq, Repr

/-- `SharedSecret::new` (`pin_protocol.rs:138-143`, 218-226, 254-264). The literals are "CTAP2 AES key" and
"CTAP2 HMAC key". -/
def SharedSecret.new (pr : Proto) (handshake : Bytes) : SharedSecret :=
  match pr with
  | .v1 => { proto := .v1, aesKey := Dev.sha256 handshake, hmacKey := Dev.sha256 handshake }
  | .v2 => { proto := .v2
             aesKey := Dev.hkdfEmptySalt handshake (b! "CTAP2 AES key")
             hmacKey := Dev.hkdfEmptySalt handshake (b! "CTAP2 HMAC key") }

/-- Whether ciphertexts embed their IV (`pin_protocol.rs:228-234`, 266-272). -/
def Proto.embedsIv : Proto → Bool
  | .v1 => false
  | .v2 => true

/-- `SharedSecret::encrypt` (`pin_protocol.rs:146-151`). -/
def SharedSecret.encrypt (s : SharedSecret) (pt : Bytes) : M Bytes := aesEncrypt s.aesKey pt s.proto.embedsIv

/-- `SharedSecret::decrypt` (`pin_protocol.rs:154-159`). -/
def SharedSecret.decrypt (s : SharedSecret) (ct : Bytes) : Except Status Bytes :=
  aesDecrypt s.aesKey ct s.proto.embedsIv

/-- `SharedSecret::verify` (`pin_protocol.rs:162-167`). -/
def SharedSecret.verify (s : SharedSecret) (msg sig : Bytes) : Except Status Unit :=
  verifyMac s.proto s.hmacKey msg sig

/-- `CoseKey::try_into_ecdh_coordinates` (`data_formats.rs:769-793`). -/
def CoseKey.ecdhCoordinates (k : CoseKey) : Except Status (Bytes × Bytes) :=
  if k.alg ≠ -25 ∧ k.alg ≠ -7 then .error .unsupportedAlgorithm
  else if k.kty ≠ 2 ∨ k.crv ≠ 1 then .error .unsupportedAlgorithm
  else .ok (k.x, k.y)

/-- `PinProtocol::decapsulate` (`pin_protocol.rs:68-81`). -/
def PinProtocol.decapsulate (p : PinProtocol) (pr : Proto) (k : CoseKey) : Except Status SharedSecret :=
  match k.ecdhCoordinates with
  | .error e => .error e
  | .ok (x, y) =>
    match Dev.ecdh p.sk x y with
    | none => .error .invalidParameter
    | some h => .ok (SharedSecret.new pr h)

/-- `get_shared_secret` (`client_pin.rs:163-170`). -/
def getSharedSecret (pr : Proto) (k : CoseKey) : M SharedSecret := do
  let v ← getV
  liftE ((v.pin.proto pr).decapsulate pr k)

/-! ## Token state (`token_state.rs`) -/

/-- `has_permission` (`token_state.rs:62-68`). -/
def TokenState.hasPermission (t : TokenState) (perm : UInt8) : Bool := perm &&& t.permissions != 0

/-- `begin_using_pin_uv_auth_token` (`token_state.rs:113-117`). -/
def TokenState.beginUsing (t : TokenState) (now : Nat) : TokenState :=
  { t with userVerified := true, timer := makeTimer now 30000, inUse := true }

/-- `pin_uv_auth_token_usage_timer_observer` (`token_state.rs:120-127`). -/
def TokenState.observe (t : TokenState) (now : Nat) : TokenState :=
  if t.inUse && Verif.Hid.Timer.isElapsed t.timer now then TokenState.new else t

/-- `clear_user_verified_flag` and `clear_pin_uv_auth_token_permissions_except_lbw` (`token_state.rs:135-142`). -/
def TokenState.clearFlags (t : TokenState) : TokenState :=
  { t with userVerified := false, permissions := t.permissions &&& 0x10 }

/-! ## Client PIN (`client_pin.rs`) -/

/-- `ClientPin::new` (`client_pin.rs:134-141`). -/
def ClientPin.fresh : M ClientPin := do
  let p1 ← PinProtocol.fresh
  let p2 ← PinProtocol.fresh
  M.pure { p1 := p1, p2 := p2, mismatches := 0, tok := TokenState.new }

/-- `decrypt_pin` (`client_pin.rs:64-82`). -/
def decryptPin (ss : SharedSecret) (newPinEnc : Bytes) : Except Status Bytes :=
  match ss.decrypt newPinEnc with
  | .error e => .error e
  | .ok d => if d.length ≠ 64 then .error .invalidParameter else .ok (d.takeWhile (· != 0))

/-- `str::from_utf8(&pin).unwrap_or("").chars().count()` (`client_pin.rs:96`). -/
def pinChars (pin : Bytes) : Nat := ((Verif.Utf8.decode pin).getD []).length

/-- `check_and_store_new_pin` (`client_pin.rs:89-112`). `encrypt_pin_hash` is the identity
(`api/key_store.rs:234-236`). -/
def checkAndStoreNewPin (ss : SharedSecret) (newPinEnc : Bytes) : M Unit := do
  let pin ← liftE (decryptPin ss newPinEnc)
  let minLen ← minPinLength
  guardE (!(decide (pinChars pin < minLen) || pin.length == 64)) .pinPolicyViolation
  setPin ((Dev.sha256 pin).take 16) (pinChars pin)

/-- The comparison in `verify_pin_hash_enc` (`client_pin.rs:196`); recorded in the history. -/
def comparePin (stored dec : Bytes) : M Bool := do
  logE (.pinCompare (stored == dec))
  M.pure (stored == dec)

/-- `verify_pin_hash_enc` (`client_pin.rs:177-214`). -/
def verifyPinHashEnc (pr : Proto) (ss : SharedSecret) (pinHashEnc : Bytes) : M Unit := do
  let h ← pinHash
  match h with
  | none => fail .puatRequired
  | some hash => do
    let v ← getV
    guardE (decide (v.pin.mismatches < 3)) .pinAuthBlocked
    decrPinRetries
    match ss.decrypt pinHashEnc with
    | .error _ => fail .pinInvalid
    | .ok dec => do
      let eq ← comparePin hash dec
      if eq then do
        resetPinRetries
        modPin fun c => { c with mismatches := 0 }
      else do
        regenerate pr
        let r ← pinRetries
        guardE (r != 0) .pinBlocked
        modPin fun c => { c with mismatches := c.mismatches + 1 }
        let v ← getV
        guardE (decide (v.pin.mismatches < 3)) .pinAuthBlocked
        fail .pinInvalid

/-- `ClientPinSubCommand` (`data_formats.rs:917-926`). -/
inductive PinSub
  | getPinRetries | getKeyAgreement | setPin | changePin | getPinToken | getUvTokenUsingUv | getUvRetries
  | getPinTokenWithPermissions
deriving DecidableEq, Repr

/-- `AuthenticatorClientPinParameters` (`command.rs:307-316`). -/
structure PinParams where
  proto : Proto
  sub : PinSub
  keyAgreement : Option CoseKey := none
  authParam : Option Bytes := none
  newPinEnc : Option Bytes := none
  pinHashEnc : Option Bytes := none
  permissions : Option UInt8 := none
  permissionsRpId : Option Bytes := none
deriving DecidableEq, Repr

/-- `AuthenticatorClientPinResponse` (`response.rs`, struct of that name). -/
structure PinResponse where
  keyAgreement : Option CoseKey := none
  token : Option Bytes := none
  retries : Option Nat := none
  powerCycleState : Option Bool := none
deriving DecidableEq, Repr

/-- `process_get_pin_retries` (`client_pin.rs:216-226`). -/
def processGetPinRetries : M PinResponse := do
  let v ← getV
  let r ← pinRetries
  M.pure { retries := some r, powerCycleState := some (decide (3 ≤ v.pin.mismatches)) }

/-- `CoseKey::from_ecdh_public_key` (`data_formats.rs:742-753`). -/
def ecdhCose (sk : Bytes) : CoseKey :=
  let (x, y) := Dev.ecdhPub sk
  { x := x, y := y, alg := -25, kty := 2, crv := 1 }

/-- `process_get_key_agreement` (`client_pin.rs:228-242`). -/
def processGetKeyAgreement (pr : Proto) : M PinResponse := do
  let v ← getV
  M.pure { keyAgreement := some (ecdhCose (v.pin.proto pr).sk) }

/-- `process_set_pin` (`client_pin.rs:244-269`). -/
def processSetPin (a : PinParams) : M Unit := do
  let ka ← req a.keyAgreement .missingParameter
  let param ← req a.authParam .missingParameter
  let enc ← req a.newPinEnc .missingParameter
  let h ← pinHash
  guardE h.isNone .pinAuthInvalid
  let ss ← getSharedSecret a.proto ka
  liftE (ss.verify enc param)
  checkAndStoreNewPin ss enc
  resetPinRetries

/-- `process_change_pin` (`client_pin.rs:271-302`). -/
def processChangePin (a : PinParams) : M Unit := do
  let ka ← req a.keyAgreement .missingParameter
  let param ← req a.authParam .missingParameter
  let enc ← req a.newPinEnc .missingParameter
  let phe ← req a.pinHashEnc .missingParameter
  let r ← pinRetries
  guardE (r != 0) .pinBlocked
  let ss ← getSharedSecret a.proto ka
  liftE (ss.verify (enc ++ phe) param)
  verifyPinHashEnc a.proto ss phe
  checkAndStoreNewPin ss enc
  resetToken .v1
  resetToken .v2

/-- `process_get_pin_token` (`client_pin.rs:304-349`). -/
def processGetPinToken (a : PinParams) : M PinResponse := do
  let ka ← req a.keyAgreement .missingParameter
  let phe ← req a.pinHashEnc .missingParameter
  guardE (a.permissions.isNone && a.permissionsRpId.isNone) .invalidParameter
  let r ← pinRetries
  guardE (r != 0) .pinBlocked
  let ss ← getSharedSecret a.proto ka
  verifyPinHashEnc a.proto ss phe
  let f ← hasForcePinChange
  guardE (!f) .pinInvalid
  resetToken .v1
  resetToken .v2
  let t ← clock
  modTok fun k => { k.beginUsing t with permissions := 0x03, rpId := none }
  let v ← getV
  let enc ← ss.encrypt (v.pin.proto a.proto).token
  M.pure { token := some enc }

/-- `process_get_pin_uv_auth_token_using_pin_with_permissions` (`client_pin.rs:366-391`). -/
def processGetPinTokenWithPermissions (a : PinParams) : M PinResponse := do
  let perms ← req a.permissions .missingParameter
  guardE (perms != 0) .invalidParameter
  guardE (!(perms &&& 0x03 != 0 && a.permissionsRpId.isNone)) .invalidParameter
  let r ← processGetPinToken { a with permissions := none, permissionsRpId := none }
  modTok fun k => { k with permissions := perms, rpId := a.permissionsRpId }
  M.pure r

/-- Record that a token has been handed out. -/
def logIssued : M Unit := do
  let v ← getV
  let t ← clock
  logE (.tokenIssued t v.pin.tok.permissions v.pin.tok.rpId)

/-- `ClientPin::process_command` (`client_pin.rs:394-432`). The issue of a token is recorded. -/
def clientPinCommand (a : PinParams) : M (Option PinResponse) := do
  guardE (Dev.allowsPinV1 || a.proto != .v1) .invalidParameter
  match a.sub with
  | .getPinRetries => do
    let r ← processGetPinRetries
    M.pure (some r)
  | .getKeyAgreement => do
    let r ← processGetKeyAgreement a.proto
    M.pure (some r)
  | .setPin => do
    processSetPin a
    M.pure none
  | .changePin => do
    processChangePin a
    M.pure none
  | .getPinToken => do
    let r ← processGetPinToken a
    logIssued
    M.pure (some r)
  | .getUvTokenUsingUv => fail .invalidSubcommand
  | .getUvRetries => fail .invalidSubcommand
  | .getPinTokenWithPermissions => do
    let r ← processGetPinTokenWithPermissions a
    logIssued
    M.pure (some r)

/-- `verify_pin_uv_auth_token` (`client_pin.rs:435-451`). -/
def verifyToken (msg param : Bytes) (pr : Proto) : M Unit := do
  let v ← getV
  guardE v.pin.tok.inUse .pinAuthInvalid
  liftE (verifyMac pr (v.pin.proto pr).token msg param)

/-- `ClientPin::reset` (`client_pin.rs:454-461`). -/
def resetClientPin : M Unit := do
  regenerate .v1
  resetToken .v1
  regenerate .v2
  resetToken .v2
  modPin fun c => { c with mismatches := 0, tok := TokenState.new }

/-- `process_hmac_secret` (`client_pin.rs:471-506`). -/
def processHmacSecret (i : HmacSecretInput) (credRandom : Bytes) : M Bytes := do
  let ss ← getSharedSecret i.proto i.keyAgreement
  liftE (ss.verify i.saltEnc i.saltAuth)
  let salts ← liftE (ss.decrypt i.saltEnc)
  guardE (salts.length == 32 || salts.length == 64) .invalidParameter
  let out1 := Dev.hmac credRandom (salts.take 32)
  let out := if salts.length = 64 then out1 ++ Dev.hmac credRandom (salts.drop 32) else out1
  ss.encrypt out

/-- `clear_token_flags` (`client_pin.rs:509-513`); recorded in the history. -/
def clearTokenFlags : M Unit := do
  modTok TokenState.clearFlags
  logE .tokenConsumed

/-- `update_timeouts` (`client_pin.rs:516-519`). -/
def updateTimeouts : M Unit := do
  let t ← clock
  modTok fun k => k.observe t

/-- `check_user_verified_flag` (`client_pin.rs:522-528`). -/
def checkUserVerified : M Unit := do
  let v ← getV
  guardE (v.pin.tok.inUse && v.pin.tok.userVerified) .pinAuthInvalid

/-- `has_permission` (`client_pin.rs:531-533`). -/
def hasPermission (perm : UInt8) : M Unit := do
  let v ← getV
  guardE (v.pin.tok.hasPermission perm) .pinAuthInvalid

/-- `has_no_rp_id_permission` (`client_pin.rs:536-538`). -/
def hasNoRpIdPermission : M Unit := do
  let v ← getV
  guardE v.pin.tok.rpId.isNone .pinAuthInvalid

/-- `has_no_or_rp_id_permission` (`client_pin.rs:541-545`). -/
def hasNoOrRpIdPermission (rpId : Bytes) : M Unit := do
  let v ← getV
  guardE (v.pin.tok.rpId.isNone || v.pin.tok.rpId == some rpId) .pinAuthInvalid

/-- `has_no_or_rp_id_hash_permission` (`client_pin.rs:548-558`). -/
def hasNoOrRpIdHashPermission (hash : Bytes) : M Unit := do
  let v ← getV
  guardE (match v.pin.tok.rpId with
    | none => true
    | some r => hash == Dev.sha256 r) .pinAuthInvalid

/-- `ensure_rp_id_permission` (`client_pin.rs:563-574`). -/
def ensureRpIdPermission (rpId : Bytes) : M Unit := do
  let v ← getV
  if v.pin.tok.rpId.isNone then modTok fun k => { k with rpId := some rpId }
  else guardE (v.pin.tok.rpId == some rpId) .pinAuthInvalid

end Verif.Ctap
