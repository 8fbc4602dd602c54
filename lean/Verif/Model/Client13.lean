import Verif.Model.Session13
/-!
# The DTLS 1.3 client (`src/dtls13/client.rs`)
-/
namespace Verif.E13
open Verif Wire

/-- `enum State`, `src/dtls13/client.rs:319-333`. -/
inductive CSt where
  | sendClientHello | awaitServerHello | awaitEncryptedExtensions | awaitCertificateRequest
  | awaitCertificate | awaitCertificateVerify | awaitFinished | sendCertificate
  | sendCertificateVerify | sendFinished | awaitApplicationData | halfClosedLocal | closed
deriving DecidableEq, Repr

namespace C13
abbrev Cl := P CSt

/-- `send_client_hello`, `src/dtls13/client.rs:372-444`. -/
def sendClientHello (env : PEnv) : Cl CSt := do
  let s ← M.get
  let random ← orPanic s.random
  onEng' (flightBegin env.toEnv)
  let group ← orFatal (match s.retryGroup with
    | some g => some g
    | none => env.groups.head?) .crypto
  check (env.groups.contains group) .crypto
  let n ← drawTick
  let pub ← orFatal (env.kxStart n group) .crypto
  M.modify fun s => { s with kx := some (n, group) }
  onEng (createHandshake env.toEnv mtClientHello (env.clientHelloBody random group pub s.cookie))
  pure .awaitServerHello

/-- The extension loop of a HelloRetryRequest, `src/dtls13/client.rs:475-495`. -/
def retryExtensions (env : PEnv) : List (Nat × Bytes) → Cl Unit
  | [] => pure ()
  | (t, d) :: rest =>
    if t = 51 then do
      match env.parseRetryShare d with
      | some g => M.modify fun s => { s with retryGroup := some g }
      | none => pure ()
      retryExtensions env rest
    else if t = 44 then do
      let _ ← orTransient (env.parseCookie d)
      M.modify fun s => { s with cookie := some d }
      retryExtensions env rest
    else retryExtensions env rest

/-- The version of a HelloRetryRequest, `src/dtls13/client.rs:509-520`: that of the last parsable
extension. -/
def retryVersion (env : PEnv) (exts : List (Nat × Bytes)) (ok : Bool) : Bool :=
  exts.foldl (fun ok (t, d) =>
    if t = 43 then (match env.parseServerVersion d with | some v => v == verDtls13 | none => ok)
    else ok) ok

/-- A HelloRetryRequest, `src/dtls13/client.rs:463-541`. `len` is the length of the transcript before
it. -/
def helloRetry (env : PEnv) (len : Nat) (h : ServerHello) : Cl CSt := do
  let s ← M.get
  if s.helloRetry then do
    onEng' fun e => { e with transcript := e.transcript.take len }
    M.fatal .security
  else do
    retryExtensions env (h.exts.getD [])
    check (env.allowed.contains h.suite) .security
    setSuite h.suite
    check (retryVersion env (h.exts.getD []) false) .security
    onEng (replaceTranscript env.toEnv len)
    onEng advancePeerSeq
    onEng' resetForHelloRetry
    M.modify fun s => { s with helloRetry := true, kx := none }
    pure .sendClientHello

/-- The key share of a ServerHello, `src/dtls13/client.rs:601-613, 624-626`: that of the last parsable
extension. -/
def serverShare (env : PEnv) (exts : List (Nat × Bytes)) : Option (Nat × Bytes) :=
  exts.foldl (fun acc (t, d) =>
    if t = 51 then (match env.parseServerShare d with | some x => some x | none => acc) else acc) none

/-- Whether a ServerHello selects DTLS 1.3, `src/dtls13/client.rs:591-600, 618`. -/
def serverVersionOk (env : PEnv) (exts : List (Nat × Bytes)) : Bool :=
  exts.any fun (t, d) => t == 43 && env.parseServerVersion d == some verDtls13

/-- A ServerHello, `src/dtls13/client.rs:543-678`. -/
def serverHello (env : PEnv) (h : ServerHello) : Cl CSt := do
  check (h.version == verDtls12) .security
  check (h.compression == 0) .security
  check (!env.suiteUnknown h.suite) .security
  check (env.allowed.contains h.suite) .security
  setSuite h.suite
  M.modify fun s => { s with sessionId := some h.sessionId }
  let exts ← orFatal h.exts .incompleteServerHello
  check (serverVersionOk env exts) .security
  let (group, pub) ← orFatal (serverShare env exts) .security
  let s ← M.get
  M.modify fun s => { s with kx := none }
  let (n, ours) ← orFatal s.kx .invalidState
  check (ours == group) .security
  let shared ← orFatal (env.kxComplete n ours pub) .crypto
  installHandshake env shared
  onEng (enablePeerEncryption env.toEnv)
  onEng advancePeerSeq
  pure .awaitEncryptedExtensions

/-- `await_server_hello`, `src/dtls13/client.rs:446-678`. -/
def awaitServerHello (env : PEnv) : Cl CSt := do
  let before ← M.get
  let m ← onEng (nextHandshake env.toEnv mtServerHello)
  match m with
  | none => pure .awaitServerHello
  | some (.serverHello h) =>
    if h.random = hrrRandom then helloRetry env before.eng.transcript.length h else serverHello env h
  | some _ => M.panic

/-- The loop of `await_encrypted_extensions`, `src/dtls13/client.rs:695-708`. -/
def encryptedExtensions (env : PEnv) : List (Nat × Bytes) → Cl Unit
  | [] => pure ()
  | (t, d) :: rest =>
    if t = 14 then do
      let ps ← orTransient (env.parseUseSrtp d)
      match ps with
      | [] => pure ()
      | p :: _ => M.modify fun s => { s with srtp := some p }
      encryptedExtensions env rest
    else encryptedExtensions env rest

/-- `await_encrypted_extensions`, `src/dtls13/client.rs:680-712`. -/
def awaitEncryptedExtensions (env : PEnv) : Cl CSt := do
  let m ← onEng (nextHandshake env.toEnv mtEncryptedExtensions)
  match m with
  | none => pure .awaitEncryptedExtensions
  | some (.encryptedExtensions exts) => do
    encryptedExtensions env exts
    onEng advancePeerSeq
    pure .awaitCertificateRequest
  | some _ => M.panic

/-- The extensions part of `parse_certificate_request`, `src/dtls13/client.rs:1494-1540`: whether their
length fits. What follows in the code has no effect. -/
def requestExtsOk (b : Bytes) : Bool :=
  if b.length < 2 then true else decide (ofBe (b.take 2) + 2 ≤ b.length)

/-- `parse_certificate_request`, `src/dtls13/client.rs:1473-1543`; `none`: error. -/
def requestContext (b : Bytes) : Option (Option Bytes) :=
  match b with
  | [] => some none
  | n :: rest =>
    if rest.length < n.toNat then none
    else if requestExtsOk (rest.drop n.toNat) then
      some (if n = 0 then none else some (rest.take n.toNat))
    else none

/-- `await_certificate_request`, `src/dtls13/client.rs:714-751`. -/
def awaitCertificateRequest (env : PEnv) : Cl CSt := do
  let s ← M.get
  if hasComplete s.eng mtCertificate then pure .awaitCertificate
  else do
    let m ← onEng (nextHandshake env.toEnv mtCertificateRequest)
    match m with
    | none => pure .awaitCertificateRequest
    | some (.certificateRequest b) => do
      let ctx ← orFatal (requestContext b) .unexpectedMessage
      M.modify fun s => { s with
        certContext := match ctx with
          | some c => some c
          | none => s.certContext
        authRequested := true }
      onEng advancePeerSeq
      pure .awaitCertificate
    | some _ => M.panic

/-- `await_certificate`, `src/dtls13/client.rs:753-808`. -/
def awaitCertificate (env : PEnv) : Cl CSt := do
  let m ← onEng (nextHandshake env.toEnv mtCertificate)
  match m with
  | none => pure .awaitCertificate
  | some (.certificate context certs) => do
    check context.isEmpty .certificate
    check (!certs.isEmpty) .certificate
    M.modify fun s => { s with peerCerts := s.peerCerts ++ certs, events := s.events ++ [.peerCert] }
    onEng advancePeerSeq
    pure .awaitCertificateVerify
  | some _ => M.panic

/-- `await_finished`, `src/dtls13/client.rs:885-954`. -/
def awaitFinished (env : PEnv) : Cl CSt := do
  let s ← M.get
  let secret ← orFatal s.serverHs .invalidState
  let expected ← computeVerify env secret
  let m ← onEng (nextHandshake env.toEnv mtFinished)
  match m with
  | none => pure .awaitFinished
  | some (.finished v) => do
    check (v == expected) .security
    onEng advancePeerSeq
    installApplication env
    pure (if s.authRequested then .sendCertificate else .sendFinished)
  | some _ => M.panic

/-- `send_certificate`, `src/dtls13/client.rs:956-998`. -/
def sendCertificate (env : PEnv) : Cl CSt := do
  onEng' (flightBegin env.toEnv)
  let s ← M.get
  let ctx := s.certContext.getD []
  if env.hasCert then do
    onEng (createHandshake env.toEnv mtCertificate (env.certificateBody ctx))
    pure .sendCertificateVerify
  else do
    onEng (createHandshake env.toEnv mtCertificate (UInt8.ofNat ctx.length :: (ctx ++ [0, 0, 0])))
    pure .sendFinished

/-- `send_certificate_verify`, `src/dtls13/client.rs:1000-1014`. -/
def sendCertificateVerify (env : PEnv) : Cl CSt := do
  let body ← certificateVerifyBody env clientLabel
  onEng (createHandshake env.toEnv mtCertificateVerify body)
  pure .sendFinished

/-- `send_finished`, `src/dtls13/client.rs:1016-1074`. -/
def sendFinished (env : PEnv) : Cl CSt := do
  let s ← M.get
  if s.authRequested then pure () else onEng' (flightBegin env.toEnv)
  let secret ← orFatal s.clientHs .invalidState
  let v ← computeVerify env secret
  onEng (createHandshake env.toEnv mtFinished v)
  announceConnected env releaseAppData .awaitApplicationData

/-- `State::make_progress`, `src/dtls13/client.rs:354-370`. -/
def step (env : PEnv) : CSt → Cl CSt
  | .sendClientHello => sendClientHello env
  | .awaitServerHello => awaitServerHello env
  | .awaitEncryptedExtensions => awaitEncryptedExtensions env
  | .awaitCertificateRequest => awaitCertificateRequest env
  | .awaitCertificate => awaitCertificate env
  | .awaitCertificateVerify =>
    awaitCertificateVerify env serverLabel .awaitCertificateVerify .awaitFinished
  | .awaitFinished => awaitFinished env
  | .sendCertificate => sendCertificate env
  | .sendCertificateVerify => sendCertificateVerify env
  | .sendFinished => sendFinished env
  | .awaitApplicationData => awaitApplicationData env .awaitApplicationData
  | .halfClosedLocal => halfClosedLocal env .halfClosedLocal .closed
  | .closed => pure .closed

/-- Keys or peer encryption are set up before the state says so; see `Role.ahead`. -/
def ahead : CSt → Eng → Bool
  | .sendClientHello, e | .awaitServerHello, e => e.hsSend.isSome || e.peerEnc
  | .awaitEncryptedExtensions, e | .awaitCertificateRequest, e | .awaitCertificate, e
  | .awaitCertificateVerify, e | .awaitFinished, e => e.appSend.isSome
  | _, _ => false

/-- The client role. -/
def role : Role :=
  { St := CSt, decEq := inferInstance, app := .awaitApplicationData, halfClosed := .halfClosedLocal,
    closed := .closed, first := fun _ => false, ahead, step }

/-- `Client::new_with_engine`, `src/dtls13/client.rs:138-164`. -/
def start (env : PEnv) (cfg : Cfg) (now : Nat) : Ses CSt :=
  .start .sendClientHello (.new env.toEnv cfg true) now false

/-- `Client::new_from_hybrid` before its `handle_timeout`, `src/dtls13/client.rs:173-208`. `kx` is the
tick and the group of the key exchange the hybrid ClientHello started. -/
def startHybrid (env : PEnv) (cfg : Cfg) (random transcript : Bytes) (kx : Nat × Nat) (now : Nat) :
    Ses CSt :=
  { Ses.start .awaitServerHello (injectHybrid transcript (.new env.toEnv cfg true)) now false with
    random := some random, kx := some kx }

end C13
end Verif.E13
