import Verif.Model.Session12
/-!
# The DTLS 1.2 server (`src/dtls12/server.rs`)
-/
namespace Verif.E12
open Verif Wire

/-- `enum State`, `src/dtls12/server.rs:109-125`. -/
inductive SSt where
  | awaitClientHello | sendServerHello | sendCertificate | sendServerKeyExchange
  | sendCertificateRequest | sendServerHelloDone | awaitCertificate | awaitClientKeyExchange
  | awaitCertificateVerify | awaitChangeCipherSpec | awaitFinished | sendChangeCipherSpec
  | sendFinished | awaitApplicationData | closed
deriving DecidableEq, Repr

namespace S12
abbrev Sv := P SSt

/-- `compute_cookie`, `src/dtls12/server.rs:1147-1164` (`Cookie` holds at most 255 bytes, so the
32-byte tag fits). -/
def computeCookie (env : PEnv) (clientRandom : Bytes) : Option Bytes :=
  env.hmac env.cookieSecret clientRandom

/-- `verify_cookie`, `src/dtls12/server.rs:1166-1180`. -/
def verifyCookie (env : PEnv) (clientRandom cookie : Bytes) : Bool :=
  if cookie.length ≠ 32 then false
  else match computeCookie env clientRandom with
    | some expected => expected == cookie
    | none => false

/-- What the extension loop collects. -/
structure ChExts where
  ems : Bool
  srtp : Option (List Nat)
  groups : Option (List Nat)
  sigs : Option (List Nat)
deriving DecidableEq, Repr

/-- The extension loop of `await_client_hello`, `src/dtls12/server.rs:418-454`. -/
def clientExtensions (env : PEnv) : List (Nat × Bytes) → ChExts → Sv ChExts
  | [], x => pure x
  | (t, d) :: rest, x =>
    if t = 14 then do
      let ps ← orTransient (env.parseUseSrtp d)
      clientExtensions env rest { x with srtp := some ps }
    else if t = 23 then clientExtensions env rest { x with ems := true }
    else if t = 10 then do
      let gs ← orTransient (env.parseGroups d)
      clientExtensions env rest { x with groups := some gs }
    else if t = 11 then do
      let _ ← orTransient (env.parsePointFormats d)
      clientExtensions env rest x
    else if t = 13 then
      clientExtensions env rest (match env.parseSigAlgs d with
        | some ss => { x with sigs := some ss }
        | none => x)
    else clientExtensions env rest x

/-- SRTP selection, `src/dtls12/server.rs:465-482`: AES-256-GCM, AES-128-GCM, then SHA1-80. -/
def selectSrtp (client : List Nat) : Option Nat := [8, 7, 1].find? fun p => client.contains p

/-- Suite selection, `src/dtls12/server.rs:392-410`: first of the client's that is allowed and fits
the key. -/
def selectSuite (env : PEnv) (client : List Nat) : Option Nat :=
  client.find? fun s => env.allowed.contains s && env.compatible s

/-- Reply to a ClientHello without valid cookie, `src/dtls12/server.rs:367-387`. -/
def sendHelloVerify (env : PEnv) (clientRandom : Bytes) : Sv SSt := do
  let cookie ← orFatal (computeCookie env clientRandom) .crypto
  onEng' (flightBegin env.toEnv)
  onEng (createHandshake env.toEnv mtHelloVerifyRequest (env.helloVerifyBody cookie))
  onEng' resetServerForHvr
  pure .awaitClientHello

/-- The part of `await_client_hello` after the cookie, `src/dtls12/server.rs:389-490`. -/
def acceptClientHello (env : PEnv) (ch : ClientHello) : Sv SSt := do
  let cs ← orFatal (selectSuite env ch.suites) .security
  onEng (setCipherSuite env.toEnv cs)
  M.modify fun s => { s with peerRandom := some ch.random }
  let x ← clientExtensions env ch.exts { ems := false, srtp := none, groups := none, sigs := none }
  check x.ems .security
  M.modify fun s => { s with
    srtp := match x.srtp with
      | some ps => selectSrtp ps
      | none => s.srtp
    clientGroups := x.groups
    clientSigs := x.sigs }
  pure .sendServerHello

/-- `await_client_hello`, `src/dtls12/server.rs:318-491`. -/
def awaitClientHello (env : PEnv) : Sv SSt := do
  let m ← onEng (nextHandshake env.toEnv mtClientHello)
  match m with
  | none => pure .awaitClientHello
  | some (.clientHello ch) => do
    check (ch.version == verDtls12) .security
    check (ch.compressions.contains 0) .security
    if !env.useCookie || verifyCookie env ch.random ch.cookie then acceptClientHello env ch
    else sendHelloVerify env ch.random
  | some _ => M.panic

/-- `send_server_hello`, `src/dtls12/server.rs:493-529`. -/
def sendServerHello (env : PEnv) : Sv SSt := do
  onEng' (flightBegin env.toEnv)
  let s ← M.get
  let random ← orPanic s.random
  let suite ← orFatal s.eng.suite .invalidState
  onEng (createHandshake env.toEnv mtServerHello
    (env.serverHelloBody random (s.sessionId.getD []) suite s.srtp))
  pure (if Config.isPsk suite then .sendServerKeyExchange else .sendCertificate)

/-- `send_certificate`, `src/dtls12/server.rs:531-539`; in PSK mode `get_client_certificate` panics. -/
def sendCertificate (env : PEnv) : Sv SSt := do
  let _ ← orPanic env.keySig
  onEng (createHandshake env.toEnv mtCertificate env.certificateBody)
  pure .sendServerKeyExchange

/-- `select_named_group`, `src/dtls12/server.rs:1334-1352`. -/
def selectGroup (client : Option (List Nat)) (server : List Nat) : Option Nat :=
  match client with
  | some gs => server.find? fun g => gs.contains g
  | none => server.head?

/-- The search of `select_ske_signature_algorithm` for one hash, `src/dtls12/server.rs:1367-1377`. -/
def findSig (list : List Nat) (sig : Nat) (hashes : List Nat) (h : Nat) : Option Nat :=
  if hashes.contains h then list.find? fun a => a % 256 == sig && a / 256 == h else none

/-- `select_ske_signature_algorithm`, `src/dtls12/server.rs:1354-1383`; hash 4 is SHA-256, 5 SHA-384. -/
def selectSig (client : Option (List Nat)) (sig hash : Nat) (hashes : List Nat) : Nat :=
  let pref := if hash = 5 then [5, 4] else [4, 5]
  match client with
  | some list => (pref.findSome? (findSig list sig hashes)).getD (256 * hash + sig)
  | none => 256 * hash + sig

/-- `handshake_create_server_key_exchange`, `src/dtls12/server.rs:1222-1303`, with `init_ecdh_server`,
`src/dtls12/context.rs:176-191`. -/
def serverKeyExchangeBody (env : PEnv) (cr sr : Bytes) (group alg : Nat) : Sv Bytes := do
  check (env.providerGroups.contains group) .crypto
  let s ← M.get
  let n ← drawTick
  let ours ← orFatal (env.kxStart n group) .crypto
  let pub := s.kxPub.getD ours
  M.modify fun s => { s with kx := some (n, group), kxPub := some pub }
  let params := [3] ++ beBytes 2 group ++ [UInt8.ofNat pub.length] ++ pub
  let sig ← orFatal (env.sign n (cr ++ sr ++ params) (alg / 256)) .crypto
  pure (params ++ beBytes 2 alg ++ beBytes 2 sig.length ++ sig)

/-- `send_server_key_exchange` for certificate suites, `src/dtls12/server.rs:552-624`. -/
def sendServerKeyExchangeEcdhe (env : PEnv) : Sv SSt := do
  let s ← M.get
  let cr ← orFatal s.peerRandom .invalidState
  let sr ← orPanic s.random
  let group ← orFatal (selectGroup s.clientGroups env.groups)
    (if s.clientGroups.isSome then .security else .crypto)
  let sg ← orPanic env.keySig
  let h ← orPanic env.keyHash
  let body ← serverKeyExchangeBody env cr sr group (selectSig s.clientSigs sg h env.keyHashes)
  onEng (createHandshake env.toEnv mtServerKeyExchange body)
  pure (if env.requireClientCert then .sendCertificateRequest else .sendServerHelloDone)

/-- `send_server_key_exchange_psk`, `src/dtls12/server.rs:628-647`. -/
def sendServerKeyExchangePsk (env : PEnv) : Sv SSt :=
  match env.pskHint with
  | none => pure .sendServerHelloDone
  | some hint => do
    onEng (createHandshake env.toEnv mtServerKeyExchange (env.pskHintBody hint))
    pure .sendServerHelloDone

/-- `send_server_key_exchange`, `src/dtls12/server.rs:541-550`. -/
def sendServerKeyExchange (env : PEnv) : Sv SSt := do
  let s ← M.get
  let suite ← orFatal s.eng.suite .invalidState
  if Config.isPsk suite then sendServerKeyExchangePsk env else sendServerKeyExchangeEcdhe env

/-- `select_certificate_request_sig_algs`, `src/dtls12/server.rs:1385-1404`, with the fallback of
`handshake_serialize_certificate_request`, `src/dtls12/server.rs:1315-1325`. -/
def certRequestSigs (client : Option (List Nat)) : List Nat :=
  let out := (client.getD []).filter fun a => supportedSigs.contains a
  if out.isEmpty then supportedSigs else out

/-- `send_certificate_request`, `src/dtls12/server.rs:649-666`. -/
def sendCertificateRequest (env : PEnv) : Sv SSt := do
  let s ← M.get
  onEng (createHandshake env.toEnv mtCertificateRequest
    (env.certRequestBody (certRequestSigs s.clientSigs)))
  pure .sendServerHelloDone

/-- `send_server_hello_done`, `src/dtls12/server.rs:668-689`. -/
def sendServerHelloDone (env : PEnv) : Sv SSt := do
  onEng (createHandshake env.toEnv mtServerHelloDone [])
  let s ← M.get
  let suite ← orFatal s.eng.suite .invalidState
  pure (if Config.isPsk suite then .awaitClientKeyExchange
    else if env.requireClientCert then .awaitCertificate else .awaitClientKeyExchange)

/-- `await_certificate`, `src/dtls12/server.rs:691-736`. -/
def awaitCertificate (env : PEnv) : Sv SSt := do
  let m ← onEng (nextHandshake env.toEnv mtCertificate)
  match m with
  | none => pure .awaitCertificate
  | some (.certificate certs) => do
    if certs.isEmpty then pure ()
    else M.modify fun s => { s with peerCerts := s.peerCerts ++ certs, events := s.events ++ [.peerCert] }
    pure .awaitClientKeyExchange
  | some _ => M.panic

/-- PSK branch of `await_client_key_exchange`, `src/dtls12/server.rs:757-799`. -/
def clientKxPsk (env : PEnv) (identity : Bytes) : Sv Unit := do
  let resolver ← orFatal env.pskResolver .psk
  match resolver identity with
  | some key => M.modify fun s => { s with pskValid := some true, pms := some (pskPms key) }
  | none => do
    let n ← drawTick
    M.modify fun s => { s with pskValid := some false, pms := some (pskPms (env.rand n 32)) }

/-- ECDHE branch, `src/dtls12/server.rs:800-825` with `compute_shared_secret`,
`src/dtls12/context.rs:138-151`. -/
def clientKxEcdh (env : PEnv) (pub : Bytes) : Sv Unit := do
  let s ← M.get
  let (n, g) ← orFatal s.kx .crypto
  M.modify fun s => { s with kx := none }
  let pms ← orFatal (env.kxComplete n g pub) .crypto
  M.modify fun s => { s with pms := some pms }

/-- End of `await_client_key_exchange`, `src/dtls12/server.rs:827-887`. -/
def finishClientKx (env : PEnv) (suite : Nat) : Sv SSt := do
  let s ← M.get
  M.modify fun s => { s with sessionHash := some s.eng.transcript }
  let cr ← orPanic s.peerRandom
  let sr ← orPanic s.random
  deriveMaster env suite s.eng.transcript cr sr
  pure (if s.peerCerts.isEmpty then .awaitChangeCipherSpec else .awaitCertificateVerify)

/-- `await_client_key_exchange`, `src/dtls12/server.rs:738-887`. -/
def awaitClientKeyExchange (env : PEnv) : Sv SSt := do
  let m ← onEng (nextHandshake env.toEnv mtClientKeyExchange)
  match m with
  | none => pure .awaitClientKeyExchange
  | some (.clientKeyExchange k) => do
    let s ← M.get
    let suite ← orFatal s.eng.suite .invalidState
    if Config.isPsk suite then
      match k with
      | .psk identity => do
        clientKxPsk env identity
        finishClientKx env suite
      | _ => M.fatal .unexpectedMessage
    else
      match k with
      | .ecdh pub => do
        clientKxEcdh env pub
        finishClientKx env suite
      | _ => M.fatal .unexpectedMessage
  | some _ => M.panic

/-- `await_certificate_verify`, `src/dtls12/server.rs:889-948`. -/
def awaitCertificateVerify (env : PEnv) : Sv SSt := do
  let s ← M.get
  let m ← onEng (nextHandshake env.toEnv mtCertificateVerify)
  match m with
  | none => pure .awaitCertificateVerify
  | some (.certificateVerify alg sig) => do
    let cert ← orFatal s.peerCerts.head? .certificate
    check (env.verifySig cert s.eng.transcript alg sig) .crypto
    pure .awaitChangeCipherSpec
  | some _ => M.panic

/-- `await_finished`, `src/dtls12/server.rs:969-1040`. -/
def awaitFinished (env : PEnv) : Sv SSt := do
  let expected ← onEng (generateVerifyData env.toEnv true)
  let m ← onEng (nextHandshake env.toEnv mtFinished)
  match m with
  | none => pure .awaitFinished
  | some (.finished v) => do
    check (v == expected) .security
    let s ← M.get
    if (s.eng.suite.map Config.isPsk).getD false && s.pskValid.isNone then M.panic
    else do
      check (s.pskValid != some false) .security
      pure .sendChangeCipherSpec
  | some _ => M.panic

/-- `send_change_cipher_spec`, `src/dtls12/server.rs:1042-1056`. -/
def sendChangeCipherSpec (env : PEnv) : Sv SSt := do
  onEng' (flightBegin env.toEnv)
  onEng (createRecord env.toEnv ctCCS 0 true false [1])
  pure .sendFinished

/-- `send_finished`, `src/dtls12/server.rs:1058-1112`. -/
def sendFinished (env : PEnv) : Sv SSt := do
  let v ← onEng (generateVerifyData env.toEnv false)
  onEng (createHandshake env.toEnv mtFinished v)
  announceConnected env .awaitApplicationData (·.peerRandom) (·.random)

/-- `State::make_progress`, `src/dtls12/server.rs:298-316`. -/
def step (env : PEnv) : SSt → Sv SSt
  | .awaitClientHello => awaitClientHello env
  | .sendServerHello => sendServerHello env
  | .sendCertificate => sendCertificate env
  | .sendServerKeyExchange => sendServerKeyExchange env
  | .sendCertificateRequest => sendCertificateRequest env
  | .sendServerHelloDone => sendServerHelloDone env
  | .awaitCertificate => awaitCertificate env
  | .awaitClientKeyExchange => awaitClientKeyExchange env
  | .awaitCertificateVerify => awaitCertificateVerify env
  | .awaitChangeCipherSpec => awaitChangeCipherSpec env .awaitChangeCipherSpec .awaitFinished
  | .awaitFinished => awaitFinished env
  | .sendChangeCipherSpec => sendChangeCipherSpec env
  | .sendFinished => sendFinished env
  | .awaitApplicationData => awaitApplicationData env .awaitApplicationData .closed
  | .closed => pure .closed

/-- The server role. -/
def role : Role :=
  { St := SSt, decEq := inferInstance, app := .awaitApplicationData, closed := .closed, step }

/-- `Server::new_with_engine`. -/
def start (env : PEnv) (cfg : Cfg) (now : Nat) : Ses SSt :=
  .start .awaitClientHello (.new env.toEnv cfg false) now

end S12
end Verif.E12
