import Verif.Model.Session12
/-!
# The DTLS 1.2 client (`src/dtls12/client.rs`)
-/
namespace Verif.E12
open Verif Wire

/-- `enum State`, `src/dtls12/client.rs:280-298`. -/
inductive CSt where
  | sendClientHello | awaitHelloVerifyRequest | awaitServerHello | awaitCertificate
  | awaitServerKeyExchange | awaitCertificateRequest | awaitServerHelloDone | sendCertificate
  | sendClientKeyExchange | sendCertificateVerify | sendChangeCipherSpec | sendFinished
  | awaitChangeCipherSpec | awaitNewSessionTicket | awaitFinished | awaitApplicationData | closed
deriving DecidableEq, Repr

namespace C12
abbrev Cl := P CSt

/-- `send_client_hello`, `src/dtls12/client.rs:345-375`. -/
def sendClientHello (env : PEnv) : Cl CSt := do
  let s ← M.get
  let random ← orPanic s.random
  onEng' (flightBegin env.toEnv)
  onEng (createHandshake env.toEnv mtClientHello
    (env.clientHelloBody random (s.cookie.getD []) (s.sessionId.getD [])))
  pure (if s.cookie = none then .awaitHelloVerifyRequest else .awaitServerHello)

/-- `await_hello_verify_request`, `src/dtls12/client.rs:377-427`. -/
def awaitHelloVerifyRequest (env : PEnv) : Cl CSt := do
  let s ← M.get
  if hasComplete s.eng mtServerHello then pure .awaitServerHello
  else do
    let m ← onEng (nextHandshake env.toEnv mtHelloVerifyRequest)
    match m with
    | none => pure .awaitHelloVerifyRequest
    | some (.helloVerifyRequest version cookie) => do
      check (version == verDtls12 || version == verDtls10) .security
      M.modify fun s => { s with cookie := some cookie }
      onEng' resetClientForHvr
      pure .sendClientHello
    | some _ => M.panic

/-- The extension loop of `await_server_hello`, `src/dtls12/client.rs:502-530`. -/
def serverExtensions (env : PEnv) : List (Nat × Bytes) → Bool → Cl Bool
  | [], ems => pure ems
  | (t, d) :: rest, ems =>
    if t = 14 then do
      let ps ← orTransient (env.parseUseSrtp d)
      match ps with
      | [] => serverExtensions env rest ems
      | p :: _ => do
        M.modify fun s => { s with srtp := some p }
        serverExtensions env rest ems
    else serverExtensions env rest (ems || t == 23)

/-- `await_server_hello`, `src/dtls12/client.rs:429-552`. -/
def awaitServerHello (env : PEnv) : Cl CSt := do
  let m ← onEng (nextHandshake env.toEnv mtServerHello)
  match m with
  | none => pure .awaitServerHello
  | some (.serverHello h) => do
    check (h.version == verDtls12) .security
    check (h.compression == 0) .security
    check (!env.suiteUnknown h.suite) .security
    check (env.compatible h.suite) .security
    check (env.allowed.contains h.suite) .security
    onEng (setCipherSuite env.toEnv h.suite)
    M.modify fun s => { s with sessionId := some h.sessionId, peerRandom := some h.random }
    let exts ← orFatal h.exts .incompleteServerHello
    let ems ← serverExtensions env exts false
    check ems .security
    pure (if Config.isPsk h.suite then .awaitServerKeyExchange else .awaitCertificate)
  | some _ => M.panic

/-- `await_certificate`, `src/dtls12/client.rs:554-597`. -/
def awaitCertificate (env : PEnv) : Cl CSt := do
  let m ← onEng (nextHandshake env.toEnv mtCertificate)
  match m with
  | none => pure .awaitCertificate
  | some (.certificate certs) => do
    check (!certs.isEmpty) .certificate
    M.modify fun s => { s with peerCerts := s.peerCerts ++ certs }
    pure .awaitServerKeyExchange
  | some _ => M.panic

/-- Bytes covered by the ServerKeyExchange signature, `src/dtls12/client.rs:675-683`. -/
def signedParams (cr sr : Bytes) (curve : UInt8) (group : Nat) (pub : Bytes) : Bytes :=
  cr ++ sr ++ [curve] ++ beBytes 2 group ++ [UInt8.ofNat pub.length] ++ pub

/-- `process_ecdh_params`, `src/dtls12/context.rs:194-218`. -/
def processEcdh (env : PEnv) (group : Nat) (pub : Bytes) : Cl Unit := do
  check (env.providerGroups.contains group) .crypto
  let n ← drawTick
  let ours ← orFatal (env.kxStart n group) .crypto
  M.modify fun s => { s with kxPub := some (s.kxPub.getD ours) }
  let pms ← orFatal (env.kxComplete n group pub) .crypto
  M.modify fun s => { s with pms := some pms }

/-- `await_server_key_exchange_ecdhe`, `src/dtls12/client.rs:611-742`. -/
def awaitServerKeyExchangeEcdhe (env : PEnv) (suite : Nat) : Cl CSt := do
  let m ← onEng (nextHandshake env.toEnv mtServerKeyExchange)
  match m with
  | none => pure .awaitServerKeyExchange
  | some (.serverKeyExchange (.ecdh curve group pub (some (alg, sig)))) => do
    let s ← M.get
    let cr ← orPanic s.random
    let sr ← orPanic s.peerRandom
    check (supportedSigs.contains alg) .crypto
    check (match env.suiteSig suite with | some x => alg % 256 == x | none => true) .crypto
    let cert ← orPanic s.peerCerts.head?
    check (env.verifySig cert (signedParams cr sr curve group pub) alg sig) .crypto
    processEcdh env group pub
    pure .awaitCertificateRequest
  | some (.serverKeyExchange _) => M.fatal .unexpectedMessage
  | some _ => M.panic

/-- `await_server_key_exchange_psk`, `src/dtls12/client.rs:746-788`. -/
def awaitServerKeyExchangePsk (env : PEnv) : Cl CSt := do
  let s ← M.get
  if hasComplete s.eng mtServerHelloDone then pure .awaitServerHelloDone
  else do
    let m ← onEng (nextHandshake env.toEnv mtServerKeyExchange)
    match m with
    | none => pure .awaitServerKeyExchange
    | some (.serverKeyExchange (.psk _)) => pure .awaitServerHelloDone
    | some (.serverKeyExchange _) => M.fatal .unexpectedMessage
    | some _ => M.panic

/-- `await_server_key_exchange`, `src/dtls12/client.rs:599-609`. -/
def awaitServerKeyExchange (env : PEnv) : Cl CSt := do
  let s ← M.get
  let suite ← orFatal s.eng.suite .invalidState
  if Config.isPsk suite then awaitServerKeyExchangePsk env
  else awaitServerKeyExchangeEcdhe env suite

/-- `await_certificate_request`, `src/dtls12/client.rs:790-838`. -/
def awaitCertificateRequest (env : PEnv) : Cl CSt := do
  let s ← M.get
  if hasComplete s.eng mtServerHelloDone then pure .awaitServerHelloDone
  else do
    let m ← onEng (nextHandshake env.toEnv mtCertificateRequest)
    match m with
    | none => pure .awaitCertificateRequest
    | some (.certificateRequest hashes) => do
      let h ← orPanic env.keyHash
      check (hashes.contains (UInt8.ofNat h)) .certificate
      M.modify fun s => { s with certificateVerify := true }
      pure .awaitServerHelloDone
    | some _ => M.panic

/-- `await_server_hello_done`, `src/dtls12/client.rs:840-883`. -/
def awaitServerHelloDone (env : PEnv) : Cl CSt := do
  let m ← onEng (nextHandshake env.toEnv mtServerHelloDone)
  match m with
  | none => pure .awaitServerHelloDone
  | some .serverHelloDone => do
    let s ← M.get
    let suite ← orFatal s.eng.suite .invalidState
    if Config.isPsk suite then pure .sendClientKeyExchange
    else do
      check (!s.peerCerts.isEmpty) .certificate
      M.modify fun s => { s with events := s.events ++ [.peerCert] }
      pure (if s.certificateVerify then .sendCertificate else .sendClientKeyExchange)
  | some _ => M.panic

/-- `send_certificate`, `src/dtls12/client.rs:885-897`; in PSK mode `get_client_certificate` panics. -/
def sendCertificate (env : PEnv) : Cl CSt := do
  onEng' (flightBegin env.toEnv)
  let _ ← orPanic env.keySig
  onEng (createHandshake env.toEnv mtCertificate env.certificateBody)
  pure .sendClientKeyExchange

/-- `handshake_create_client_key_exchange`, `src/dtls12/client.rs:1268-1334`. The suites are ECDHE or
PSK, so the last arm of the code is not reached. -/
def clientKeyExchangeBody (env : PEnv) : Cl Bytes := do
  let s ← M.get
  let suite ← orFatal s.eng.suite .invalidState
  if Config.isPsk suite then do
    let identity ← orFatal env.pskIdentity .psk
    let resolver ← orFatal env.pskResolver .psk
    let psk ← orFatal (resolver identity) .psk
    M.modify fun s => { s with pms := some (pskPms psk) }
    pure (env.clientPskBody identity)
  else do
    let pub ← orPanic s.kxPub
    pure (env.clientKxBody pub)

/-- `send_client_key_exchange`, `src/dtls12/client.rs:899-932`. -/
def sendClientKeyExchange (env : PEnv) : Cl CSt := do
  let s ← M.get
  if s.certificateVerify then pure () else onEng' (flightBegin env.toEnv)
  let body ← clientKeyExchangeBody env
  onEng (createHandshake env.toEnv mtClientKeyExchange body)
  let s ← M.get
  let _ ← orFatal s.eng.suite .invalidState
  M.modify fun s => { s with sessionHash := some s.eng.transcript }
  pure (if s.certificateVerify then .sendCertificateVerify else .sendChangeCipherSpec)

/-- `handshake_create_certificate_verify`, `src/dtls12/client.rs:1336-1376`: the signature over the
transcript so far. -/
def certificateVerifyBody (env : PEnv) : Cl Bytes := do
  let s ← M.get
  let h ← orPanic env.keyHash
  let sg ← orPanic env.keySig
  let n ← drawTick
  let sig ← orFatal (env.sign n s.eng.transcript h) .crypto
  pure (beBytes 2 (256 * h + sg) ++ beBytes 2 sig.length ++ sig)

/-- `send_certificate_verify`, `src/dtls12/client.rs:934-944`. -/
def sendCertificateVerify (env : PEnv) : Cl CSt := do
  let body ← certificateVerifyBody env
  onEng (createHandshake env.toEnv mtCertificateVerify body)
  pure .sendChangeCipherSpec

/-- `derive_keys`, `src/dtls12/client.rs:961-1027`. -/
def deriveKeys (env : PEnv) : Cl Unit := do
  let s ← M.get
  let suite ← orFatal s.eng.suite .invalidState
  let sr ← orFatal s.peerRandom .invalidState
  let cr ← orPanic s.random
  let hash ← orFatal s.sessionHash .invalidState
  deriveMaster env suite hash cr sr

/-- `send_change_cipher_spec`, `src/dtls12/client.rs:946-959`. -/
def sendChangeCipherSpec (env : PEnv) : Cl CSt := do
  deriveKeys env
  onEng (createRecord env.toEnv ctCCS 0 true false [1])
  pure .sendFinished

/-- `send_finished`, `src/dtls12/client.rs:1029-1046`. -/
def sendFinished (env : PEnv) : Cl CSt := do
  let v ← onEng (generateVerifyData env.toEnv true)
  onEng (createHandshake env.toEnv mtFinished v)
  pure .awaitChangeCipherSpec

/-- `await_new_session_ticket`, `src/dtls12/client.rs:1067-1092`. -/
def awaitNewSessionTicket (env : PEnv) : Cl CSt := do
  let s ← M.get
  if hasComplete s.eng mtFinished then pure .awaitFinished
  else do
    let m ← onEng (nextHandshake env.toEnv mtNewSessionTicket)
    match m with
    | none => pure .awaitNewSessionTicket
    | some (.newSessionTicket _) => pure .awaitFinished
    | some _ => M.panic

/-- `await_finished`, `src/dtls12/client.rs:1094-1184`. -/
def awaitFinished (env : PEnv) : Cl CSt := do
  let expected ← onEng (generateVerifyData env.toEnv false)
  let m ← onEng (nextHandshake env.toEnv mtFinished)
  match m with
  | none => pure .awaitFinished
  | some (.finished v) => do
    check (v == expected) .security
    announceConnected env .awaitApplicationData (·.random) (·.peerRandom)
  | some _ => M.panic

/-- `State::make_progress`, `src/dtls12/client.rs:323-343`. -/
def step (env : PEnv) : CSt → Cl CSt
  | .sendClientHello => sendClientHello env
  | .awaitHelloVerifyRequest => awaitHelloVerifyRequest env
  | .awaitServerHello => awaitServerHello env
  | .awaitCertificate => awaitCertificate env
  | .awaitServerKeyExchange => awaitServerKeyExchange env
  | .awaitCertificateRequest => awaitCertificateRequest env
  | .awaitServerHelloDone => awaitServerHelloDone env
  | .sendCertificate => sendCertificate env
  | .sendClientKeyExchange => sendClientKeyExchange env
  | .sendCertificateVerify => sendCertificateVerify env
  | .sendChangeCipherSpec => sendChangeCipherSpec env
  | .sendFinished => sendFinished env
  | .awaitChangeCipherSpec => awaitChangeCipherSpec env .awaitChangeCipherSpec .awaitNewSessionTicket
  | .awaitNewSessionTicket => awaitNewSessionTicket env
  | .awaitFinished => awaitFinished env
  | .awaitApplicationData => awaitApplicationData env .awaitApplicationData .closed
  | .closed => pure .closed

/-- The client role. -/
def role : Role :=
  { St := CSt, decEq := inferInstance, app := .awaitApplicationData, closed := .closed, step }

/-- `Client::new_with_engine`. -/
def start (env : PEnv) (cfg : Cfg) (now : Nat) : Ses CSt :=
  .start .sendClientHello (.new env.toEnv cfg true) now

/-- `Client::new_from_hybrid` before its `handle_timeout`, `src/dtls12/client.rs:124-179`. -/
def startHybrid (env : PEnv) (cfg : Cfg) (random fragment : Bytes) (now : Nat) : Ses CSt :=
  let e := Eng.new env.toEnv cfg true
  { Ses.start .awaitHelloVerifyRequest { e with nextSeq := 1, transcript := fragment, seq0 := 1 } now
    with random := some random }

end C12
end Verif.E12
