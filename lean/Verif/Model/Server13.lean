import Verif.Model.Session13
/-!
# The DTLS 1.3 server (`src/dtls13/server.rs`)
-/
namespace Verif.E13
open Verif Wire

/-- `enum State`, `src/dtls13/server.rs:152-166`. -/
inductive SSt where
  | awaitClientHello | sendServerHello | sendEncryptedExtensions | sendCertificateRequest
  | sendCertificate | sendCertificateVerify | sendFinished | awaitCertificate
  | awaitCertificateVerify | awaitFinished | awaitApplicationData | halfClosedLocal | closed
deriving DecidableEq, Repr

namespace S13
abbrev Sv := P SSt

/-- What the extension loop collects. -/
structure ChExts where
  version : Bool
  shares : Option (List (Nat × Bytes))
  groups : Option (List Nat)
  srtp : Option (List Nat)
  cookie : Option Bytes
deriving DecidableEq, Repr

/-- The extension loop of `await_client_hello`, `src/dtls13/server.rs:445-509`. -/
def clientExtensions (env : PEnv) : List (Nat × Bytes) → ChExts → Sv ChExts
  | [], x => pure x
  | (t, d) :: rest, x =>
    if t = 43 then do
      let vs ← orTransient (env.parseClientVersions d)
      clientExtensions env rest { x with version := x.version || vs.contains verDtls13 }
    else if t = 51 then do
      let ks ← orTransient (env.parseClientShares d)
      if ks.length > 4 then M.transient
      else clientExtensions env rest { x with shares := some ks }
    else if t = 10 then do
      let gs ← orTransient (env.parseGroups d)
      clientExtensions env rest { x with groups := some gs }
    else if t = 14 then do
      let ps ← orTransient (env.parseUseSrtp d)
      clientExtensions env rest { x with srtp := some ps }
    else if t = 44 then do
      let c ← orTransient (env.parseCookie d)
      check (c.length ≤ 32) .security
      clientExtensions env rest { x with cookie := some c }
    else clientExtensions env rest x

/-- Suite selection, `src/dtls13/server.rs:521-529`: first of the client's that is allowed. -/
def selectSuite (env : PEnv) (client : List Nat) : Option Nat :=
  client.find? fun s => env.allowed.contains s

/-- The client's first key share in one of our groups, `src/dtls13/server.rs:636-643`. -/
def selectShare (env : PEnv) (shares : List (Nat × Bytes)) : Option (Nat × Bytes) :=
  shares.find? fun k => env.groups.contains k.1

/-- Our first group the client supports, `src/dtls13/server.rs:554-566, 645-650`. -/
def commonGroup (env : PEnv) (client : List Nat) : Option Nat :=
  env.groups.find? fun g => client.contains g

/-- SRTP selection, `src/dtls13/server.rs:724-735`: first of the client's; every profile the parser
knows is in `SrtpProfile::ALL` (`src/crypto/keying.rs:43-47`). -/
def selectSrtp (client : List Nat) : Option Nat := client.find? fun p => [8, 7, 1].contains p

/-- Replying with a HelloRetryRequest, `src/dtls13/server.rs:597-618, 666-689` with
`send_hello_retry_request`, `:1278-1347`. -/
def sendRetry (env : PEnv) (suite : Nat) (cookie : Bytes) (group : Option Nat) : Sv SSt := do
  setSuite suite
  let s ← M.get
  onEng (replaceTranscript env.toEnv s.eng.transcript.length)
  onEng' (flightBegin env.toEnv)
  onEng (createHandshake env.toEnv mtServerHello (env.retryBody suite cookie group))
  onEng advancePeerSeq
  onEng' resetForHelloRetry
  M.modify fun s => { s with helloRetry := true }
  pure .awaitClientHello

/-- `extension_data` as left for `send_server_hello`, `src/dtls13/server.rs:708-713, 744-758`. -/
def packShare (group : Nat) (pub : Bytes) : Bytes :=
  pub ++ beBytes 2 group ++ beBytes 4 0 ++ beBytes 4 pub.length

/-- The key exchange and the rest of `await_client_hello`, `src/dtls13/server.rs:695-769`. -/
def acceptClientHello (env : PEnv) (suite : Nat) (x : ChExts) (share : Nat × Bytes) : Sv SSt := do
  check (env.groups.contains share.1) .crypto
  let n ← drawTick
  let pub ← orFatal (env.kxStart n share.1) .crypto
  M.modify fun s => { s with extData := pub }
  let secret ← orFatal (env.kxComplete n share.1 share.2) .crypto
  M.modify fun s => { s with
    shared := some secret
    srtp := match selectSrtp (x.srtp.getD []) with
      | some p => some p
      | none => s.srtp
    kx := none
    extData := packShare share.1 pub }
  setSuite suite
  onEng advancePeerSeq
  pure .sendServerHello

/-- The part of `await_client_hello` after the cookie, `src/dtls13/server.rs:636-693`. -/
def chooseShare (env : PEnv) (suite : Nat) (random : Bytes) (x : ChExts) : Sv SSt := do
  match selectShare env (x.shares.getD []) with
  | some share => acceptClientHello env suite x share
  | none =>
    match commonGroup env (x.groups.getD []) with
    | some g => do
      let s ← M.get
      check (!s.helloRetry) .security
      let cookie ← orPanic (env.hmac env.cookieSecret random)
      sendRetry env suite cookie (some g)
    | none => M.fatal .security

/-- The group a cookie HelloRetryRequest asks for, `src/dtls13/server.rs:538-566`. -/
def retryGroup (env : PEnv) (x : ChExts) : Option Nat :=
  if (selectShare env (x.shares.getD [])).isSome then none else commonGroup env (x.groups.getD [])

/-- The cookie part, `src/dtls13/server.rs:535-634`. `len` is the length of the transcript before the
ClientHello. -/
def checkCookie (env : PEnv) (len suite : Nat) (random : Bytes) (x : ChExts) : Sv SSt := do
  match x.cookie with
  | some c => do
    let expected ← orPanic (env.hmac env.cookieSecret random)
    check (c == expected) .security
    chooseShare env suite random x
  | none =>
    if env.useCookie then do
      let expected ← orPanic (env.hmac env.cookieSecret random)
      let s ← M.get
      if s.helloRetry then do
        onEng' fun e => { e with transcript := e.transcript.take len }
        pure .awaitClientHello
      else sendRetry env suite expected (retryGroup env x)
    else chooseShare env suite random x

/-- The ClientHello, `src/dtls13/server.rs:415-693`. -/
def clientHello (env : PEnv) (len : Nat) (ch : ClientHello) : Sv SSt := do
  check ch.cookie.isEmpty .security
  check (ch.version == verDtls12) .security
  check (ch.compressions.contains 0) .security
  let x ← clientExtensions env ch.exts
    { version := false, shares := none, groups := none, srtp := none, cookie := none }
  let s ← M.get
  check x.version (if s.autoMode then .dtls12Fallback else .security)
  let suite ← orFatal (selectSuite env ch.suites) .security
  M.modify fun s => { s with sessionId := some ch.sessionId }
  checkCookie env len suite ch.random x

/-- `await_client_hello`, `src/dtls13/server.rs:396-770`. -/
def awaitClientHello (env : PEnv) : Sv SSt := do
  let before ← M.get
  let m ← onEng (nextHandshakeWith env.toEnv before.autoMode true mtClientHello)
  match m with
  | none => pure .awaitClientHello
  | some (.clientHello ch) => clientHello env before.eng.transcript.length ch
  | some _ => M.panic

/-- `send_server_hello`, `src/dtls13/server.rs:772-845`. -/
def sendServerHello (env : PEnv) : Sv SSt := do
  let s ← M.get
  let random ← orPanic s.random
  if s.extData.length < 10 then M.panic
  else do
    let pub := s.extData.take (s.extData.length - 10)
    let tail := s.extData.drop (s.extData.length - 10)
    let first := ofBe ((tail.drop 2).take 4)
    let last := ofBe ((tail.drop 6).take 4)
    M.modify fun s => { s with extData := pub }
    onEng' (flightBegin env.toEnv)
    let suite ← orPanic s.eng.suite
    if last < first ∨ pub.length < last then M.panic
    else do
      onEng (createHandshake env.toEnv mtServerHello
        (env.serverHelloBody random suite (ofBe (tail.take 2)) ((pub.take last).drop first)))
      let shared ← orFatal s.shared .invalidState
      M.modify fun s => { s with shared := none }
      installHandshake env shared
      pure .sendEncryptedExtensions

/-- `send_encrypted_extensions`, `src/dtls13/server.rs:847-863`. -/
def sendEncryptedExtensions (env : PEnv) : Sv SSt := do
  let s ← M.get
  onEng (createHandshake env.toEnv mtEncryptedExtensions (env.encryptedExtensionsBody s.srtp))
  pure (if env.requireClientCert then .sendCertificateRequest else .sendCertificate)

/-- `send_certificate_request`, `src/dtls13/server.rs:865-877`. -/
def sendCertificateRequest (env : PEnv) : Sv SSt := do
  onEng (createHandshake env.toEnv mtCertificateRequest env.certRequestBody)
  M.modify fun s => { s with authRequested := true }
  pure .sendCertificate

/-- `send_certificate`, `src/dtls13/server.rs:879-889`. -/
def sendCertificate (env : PEnv) : Sv SSt := do
  onEng (createHandshake env.toEnv mtCertificate (env.certificateBody []))
  pure .sendCertificateVerify

/-- `send_certificate_verify`, `src/dtls13/server.rs:891-905`. -/
def sendCertificateVerify (env : PEnv) : Sv SSt := do
  let body ← certificateVerifyBody env serverLabel
  onEng (createHandshake env.toEnv mtCertificateVerify body)
  pure .sendFinished

/-- `send_finished`, `src/dtls13/server.rs:907-950`. -/
def sendFinished (env : PEnv) : Sv SSt := do
  let s ← M.get
  let secret ← orFatal s.serverHs .invalidState
  let v ← computeVerify env secret
  onEng (createHandshake env.toEnv mtFinished v)
  installApplication env
  onEng (enablePeerEncryption env.toEnv)
  pure (if s.authRequested then .awaitCertificate else .awaitFinished)

/-- `await_certificate`, `src/dtls13/server.rs:952-1010`. -/
def awaitCertificate (env : PEnv) : Sv SSt := do
  let m ← onEng (nextHandshake env.toEnv mtCertificate)
  match m with
  | none => pure .awaitCertificate
  | some (.certificate _ []) => do
    onEng advancePeerSeq
    onEng' flightStop
    pure .awaitFinished
  | some (.certificate _ certs) => do
    M.modify fun s => { s with peerCerts := s.peerCerts ++ certs, events := s.events ++ [.peerCert] }
    onEng' flightStop
    onEng advancePeerSeq
    pure .awaitCertificateVerify
  | some _ => M.panic

/-- `await_finished`, `src/dtls13/server.rs:1087-1166`. -/
def awaitFinished (env : PEnv) : Sv SSt := do
  let s ← M.get
  let secret ← orFatal s.clientHs .invalidState
  let expected ← computeVerify env secret
  let m ← onEng (nextHandshake env.toEnv mtFinished)
  match m with
  | none => pure .awaitFinished
  | some (.finished v) => do
    check (v == expected) .security
    onEng advancePeerSeq
    onEng (sendAckRetransmittable env.toEnv)
    onEng' flightStop
    announceConnected env releaseRetaining .awaitApplicationData
  | some _ => M.panic

/-- `State::make_progress`, `src/dtls13/server.rs:378-394`. -/
def step (env : PEnv) : SSt → Sv SSt
  | .awaitClientHello => awaitClientHello env
  | .sendServerHello => sendServerHello env
  | .sendEncryptedExtensions => sendEncryptedExtensions env
  | .sendCertificateRequest => sendCertificateRequest env
  | .sendCertificate => sendCertificate env
  | .sendCertificateVerify => sendCertificateVerify env
  | .sendFinished => sendFinished env
  | .awaitCertificate => awaitCertificate env
  | .awaitCertificateVerify =>
    awaitCertificateVerify env clientLabel .awaitCertificateVerify .awaitFinished
  | .awaitFinished => awaitFinished env
  | .awaitApplicationData => awaitApplicationData env .awaitApplicationData
  | .halfClosedLocal => halfClosedLocal env .halfClosedLocal .closed
  | .closed => pure .closed

/-- Keys or peer encryption are set up before the state says so; see `Role.ahead`. -/
def ahead : SSt → Eng → Bool
  | .awaitClientHello, e | .sendServerHello, e => e.hsSend.isSome
  | .sendEncryptedExtensions, e | .sendCertificateRequest, e | .sendCertificate, e
  | .sendCertificateVerify, e | .sendFinished, e => e.appSend.isSome || e.peerEnc
  | _, _ => false

/-- The server role. -/
def role : Role :=
  { St := SSt, decEq := inferInstance, app := .awaitApplicationData, halfClosed := .halfClosedLocal,
    closed := .closed, first := fun s => s == .awaitClientHello, ahead, step }

/-- `Server::new` and `Server::new_auto`, `src/dtls13/server.rs:168-186`. -/
def start (env : PEnv) (cfg : Cfg) (now : Nat) (autoMode : Bool) : Ses SSt :=
  .start .awaitClientHello (.new env.toEnv cfg false) now autoMode

end S13
end Verif.E13
