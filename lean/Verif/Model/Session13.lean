import Verif.Model.Engine13
import Verif.Model.Session12
/-!
# DTLS 1.3 sessions: what client and server share (`src/dtls13/client.rs`, `src/dtls13/server.rs`)

As in `Verif.Model.Session12`, the methods `Client` and `Server` have in common are modelled once, over
a role `Role`. The two structures are merged into `Ses`; a field only one side has stays at its initial
value on the other. Results of API calls, outputs and events are the types of DTLS 1.2.
-/
namespace Verif.E13
open Verif Wire
export Verif.E12 (Event Output ApiRes toApi eventOutput Call Ret)

/-- Configuration, provider and crypto parameters of a session. -/
structure PEnv extends Env where
  /-- `Dtls13CipherSuite::is_unknown` -/
  suiteUnknown : Nat → Bool
  /-- `config.kx_groups()` (at most four) -/
  groups : List Nat
  requireClientCert : Bool
  useCookie : Bool
  /-- `cookie_secret`, drawn at construction -/
  cookieSecret : Bytes
  /-- `hmac_sha256` (secret, data); `none`: the `unwrap` panics -/
  hmac : Bytes → Bytes → Option Bytes
  /-- `start_exchange` at a tick for a group: our public key -/
  kxStart : Nat → Nat → Option Bytes
  /-- `complete` of the exchange started at a tick for a group -/
  kxComplete : Nat → Nat → Bytes → Option Bytes
  /-- `derive_handshake_secrets` (suite, shared secret, transcript): client, server traffic secret and
  handshake secret, `src/dtls13/engine.rs:1634-1694` -/
  deriveHs : Nat → Bytes → Bytes → Option (Bytes × Bytes × Bytes)
  /-- `derive_application_secrets` (suite, handshake secret, transcript): client, server traffic secret
  and exporter secret, `src/dtls13/engine.rs:1721-1797` -/
  deriveApp : Nat → Bytes → Bytes → Option (Bytes × Bytes × Bytes)
  /-- `compute_verify_data` (suite, traffic secret, transcript), `src/dtls13/engine.rs:2029-2065` -/
  verifyData : Nat → Bytes → Bytes → Option Bytes
  /-- whether there is an own certificate -/
  hasCert : Bool
  /-- signing at a tick: scheme and signature -/
  sign : Nat → Bytes → Option (Nat × Bytes)
  /-- `verify_scheme_curve` and `signature_scheme_to_components` for a certificate and a scheme -/
  schemeError : Bytes → Nat → Option Error
  /-- `verify_signature`: certificate, content, scheme, signature -/
  verifySig : Bytes → Bytes → Nat → Bytes → Bool
  /-- `extract_srtp_keying_material`: suite, profile, exporter secret -/
  srtpKeys : Nat → Nat → Bytes → Option Bytes
  parseUseSrtp : Bytes → Option (List Nat)
  parseGroups : Bytes → Option (List Nat)
  parseClientVersions : Bytes → Option (List Nat)
  parseServerVersion : Bytes → Option Nat
  parseClientShares : Bytes → Option (List (Nat × Bytes))
  parseServerShare : Bytes → Option (Nat × Bytes)
  parseRetryShare : Bytes → Option Nat
  parseCookie : Bytes → Option Bytes
  /-- serialised ClientHello: random, group, public key, cookie extension -/
  clientHelloBody : Bytes → Nat → Bytes → Option Bytes → Bytes
  /-- serialised ServerHello: random, suite, group, public key -/
  serverHelloBody : Bytes → Nat → Nat → Bytes → Bytes
  /-- serialised HelloRetryRequest: suite, cookie, group -/
  retryBody : Nat → Bytes → Option Nat → Bytes
  /-- serialised EncryptedExtensions: SRTP profile -/
  encryptedExtensionsBody : Option Nat → Bytes
  certRequestBody : Bytes
  /-- serialised Certificate: context -/
  certificateBody : Bytes → Bytes

/-- `ProtocolVersion`, `src/types.rs`. -/
abbrev verDtls12 : Nat := 0xfefd
abbrev verDtls13 : Nat := 0xfefc

/-- `SignatureScheme::supported`, `src/types.rs:615-620`. -/
def supportedSchemes : List Nat := [0x0403, 0x0503]

/-- `HRR_RANDOM`, `src/dtls13/server.rs:72-75`, `src/dtls13/message/server_hello.rs:45-47`. -/
def hrrRandom : Bytes :=
  [0xCF, 0x21, 0xAD, 0x74, 0xE5, 0x9A, 0x61, 0x11, 0xBE, 0x1D, 0x8C, 0x02, 0x1E, 0x65, 0xB8, 0x91,
   0xC2, 0xA2, 0x11, 0x16, 0x7A, 0xBB, 0x8C, 0x5E, 0x07, 0x9E, 0x09, 0xE2, 0xC8, 0xA8, 0x33, 0x9C]

/-- The content a CertificateVerify signs, `src/dtls13/client.rs:843-848, 1353-1361`,
`src/dtls13/server.rs:1045-1050`; `b"TLS 1.3, server CertificateVerify\0"` is its label. -/
def signedContent (label hash : Bytes) : Bytes := List.replicate 64 0x20 ++ label ++ hash

/-- The two labels. -/
def labelOf (s : String) : Bytes := s.toList.map fun c => UInt8.ofNat c.toNat
def serverLabel : Bytes := labelOf "TLS 1.3, server CertificateVerify\x00"
def clientLabel : Bytes := labelOf "TLS 1.3, client CertificateVerify\x00"

/-- `struct Client`, `src/dtls13/client.rs:65-128`, and `struct Server`, `src/dtls13/server.rs:80-147`. -/
structure Ses (St : Type) where
  st : St
  eng : Eng
  random : Option Bytes
  sessionId : Option Bytes
  srtp : Option Nat
  peerCerts : List Bytes
  authRequested : Bool
  certContext : Option Bytes
  /-- client: `saved_cookie` -/
  cookie : Option Bytes
  lastNow : Nat
  events : List Event
  queued : List Bytes
  /-- `pending_key_update_response` -/
  pendingKu : Bool
  /-- running key exchange: tick it was started at and group -/
  kx : Option (Nat × Nat)
  helloRetry : Bool
  retryGroup : Option Nat
  hsSecret : Option Bytes
  clientHs : Option Bytes
  serverHs : Option Bytes
  /-- server: `shared_secret` -/
  shared : Option Bytes
  /-- server: `extension_data` -/
  extData : Bytes
  autoMode : Bool
  retained : List Bytes
deriving DecidableEq, Repr

/-- `new_with_engine`, `src/dtls13/client.rs:138-164`, `src/dtls13/server.rs:184-213`. -/
def Ses.start {St : Type} (st : St) (eng : Eng) (now : Nat) (autoMode : Bool) : Ses St :=
  { st, eng, random := none, sessionId := none, srtp := none, peerCerts := [], authRequested := false,
    certContext := none, cookie := none, lastNow := now, events := [], queued := [],
    pendingKu := false, kx := none, helloRetry := false, retryGroup := none, hsSecret := none,
    clientHs := none, serverHs := none, shared := none, extData := [], autoMode, retained := [] }

/-- A role: its states and its step function (`State::make_progress`). `first` is the server's
`AwaitClientHello`. `ahead` is not in the code; it serves to state properties: the engine has keys, or
the encryption of the peer's records, that the state is only about to set up. A failed call leaves this
behind if it failed after setting them up. -/
structure Role where
  St : Type
  decEq : DecidableEq St
  app : St
  halfClosed : St
  closed : St
  first : St → Bool
  ahead : St → Eng → Bool
  step : PEnv → St → M (Ses St) St

instance (R : Role) : DecidableEq R.St := R.decEq

section
variable {St : Type}

abbrev P (St : Type) := M (Ses St)

/-- Call an engine method. -/
def onEng {α : Type} (m : E α) : P St α := M.zoom Ses.eng (fun s e => { s with eng := e }) m

/-- Call an engine method that cannot fail. -/
def onEng' (f : Eng → Eng) : P St Unit := M.modify fun s => { s with eng := f s.eng }

/-- `if !c { return Err(e) }`. -/
def check (c : Bool) (e : Error) : P St Unit := if c then M.pure () else M.fatal e

/-- `.ok_or(e)?`. -/
def orFatal {α : Type} (o : Option α) (e : Error) : P St α :=
  match o with
  | some a => M.pure a
  | none => M.fatal e

/-- `.unwrap()`. -/
def orPanic {α : Type} (o : Option α) : P St α :=
  match o with
  | some a => M.pure a
  | none => M.panic

/-- A parse error inside a state (`.map_err(InternalError::from)?`). -/
def orTransient {α : Type} (o : Option α) : P St α :=
  match o with
  | some a => M.pure a
  | none => M.transient

/-- Use outside non-determinism once (see `Eng.tick`). -/
def drawTick : P St Nat := fun s =>
  (.ok s.eng.tick, { s with eng := { s.eng with tick := s.eng.tick + 1 } })

/-- `set_cipher_suite`, `src/dtls13/engine.rs:306-308`. -/
def setSuite (suite : Nat) : P St Unit := onEng' fun e => { e with suite := some suite }

/-- `compute_verify_data` of a traffic secret, `src/dtls13/engine.rs:2029-2065`. -/
def computeVerify (env : PEnv) (secret : Bytes) : P St Bytes := do
  let s ← M.get
  let suite ← orPanic s.eng.suite
  orFatal (env.verifyData suite secret s.eng.transcript) .crypto

/-- `derive_handshake_secrets`, saving them, and `install_handshake_keys`:
`src/dtls13/client.rs:652-671`, `src/dtls13/server.rs:823-842`. -/
def installHandshake (env : PEnv) (shared : Bytes) : P St Unit := do
  let s ← M.get
  let suite ← orPanic s.eng.suite
  let (c, sv, hs) ← orFatal (env.deriveHs suite shared s.eng.transcript) .crypto
  M.modify fun s => { s with hsSecret := some hs, serverHs := some sv, clientHs := some c }
  onEng (installHandshakeKeys env.toEnv c sv)

/-- `derive_application_secrets` and `install_application_keys`: `src/dtls13/client.rs:932-943`,
`src/dtls13/server.rs:929-940`. -/
def installApplication (env : PEnv) : P St Unit := do
  let s ← M.get
  let hs ← orFatal s.hsSecret .invalidState
  let suite ← orPanic s.eng.suite
  let (c, sv, ex) ← orFatal (env.deriveApp suite hs s.eng.transcript) .crypto
  onEng' fun e => { e with exporter := some ex }
  onEng (installApplicationKeys env.toEnv c sv)

/-- The CertificateVerify message, `src/dtls13/client.rs:1348-1400`. -/
def certificateVerifyBody (env : PEnv) (label : Bytes) : P St Bytes := do
  let s ← M.get
  let suite ← orPanic s.eng.suite
  let n ← drawTick
  let (scheme, sig) ← orFatal
    (env.sign n (signedContent label (env.hash suite s.eng.transcript))) .crypto
  pure (beBytes 2 scheme ++ beBytes 2 sig.length ++ sig)

/-- `await_certificate_verify`, `src/dtls13/client.rs:810-883`, `src/dtls13/server.rs:1012-1085`. The
transcript hash is taken before the message is consumed. -/
def awaitCertificateVerify (env : PEnv) (label : Bytes) (self next : St) : P St St := do
  let before ← M.get
  let suite ← orPanic before.eng.suite
  let m ← onEng (nextHandshake env.toEnv mtCertificateVerify)
  match m with
  | none => pure self
  | some (.certificateVerify scheme sig) => do
    check (supportedSchemes.contains scheme) .security
    check (sig.length ≤ 512) .security
    let cert ← orFatal before.peerCerts.head? .certificate
    match env.schemeError cert scheme with
    | some e => M.fatal e
    | none => do
      check (env.verifySig cert (signedContent label (env.hash suite before.eng.transcript)) scheme sig)
        .crypto
      onEng advancePeerSeq
      pure next
  | some _ => M.panic

/-- The end of the handshake on both sides, `src/dtls13/client.rs:1050-1074`,
`src/dtls13/server.rs:1140-1166`. -/
def announceConnected (env : PEnv) (release : Eng → Eng) (app : St) : P St St := do
  M.modify fun s => { s with events := s.events ++ [.connected] }
  let s ← M.get
  match s.srtp with
  | none => pure ()
  | some profile => do
    let suite ← orPanic s.eng.suite
    match s.eng.exporter with
    | some ex =>
      match env.srtpKeys suite profile ex with
      | some km => M.modify fun s => { s with events := s.events ++ [.keyingMaterial km profile] }
      | none => pure ()
    | none => pure ()
  onEng' release
  pure app

/-- An application data record on the current epoch. -/
def sendApp (env : PEnv) (epoch : Nat) (data : Bytes) : P St Unit :=
  onEng (createCipher env.toEnv ctAppData epoch false data)

/-- The loop over `queued_data.drain(..)`, `src/dtls13/client.rs:1082-1099`. The queue is empty
afterwards even if the loop stops early: dropping the drain iterator removes the rest. -/
def drainLoop (env : PEnv) (epoch : Nat) : List Bytes → P St Unit
  | [] => M.pure ()
  | d :: rest => do
    sendApp env epoch d
    drainLoop env epoch rest

def drainQueued (env : PEnv) : P St Unit := do
  let s ← M.get
  M.set { s with queued := [] }
  drainLoop env s.eng.appEpoch s.queued

/-- `needs_key_update` and the automatic KeyUpdate, `src/dtls13/client.rs:1077-1080`,
`src/dtls13/engine.rs:318-327`: asking clears the flag. -/
def autoKeyUpdate (env : PEnv) : P St Unit := do
  let s ← M.get
  if s.eng.needsKu then do
    onEng' fun e => { e with needsKu := false }
    if s.eng.kuInFlight then pure () else onEng (createKeyUpdate env.toEnv true)
  else pure ()

/-- The pending KeyUpdate response, `src/dtls13/client.rs:1101-1107`. -/
def respondKeyUpdate (env : PEnv) : P St Unit := do
  let s ← M.get
  if s.pendingKu then do
    onEng (createKeyUpdate env.toEnv false)
    M.modify fun s => { s with pendingKu := false }
  else pure ()

/-- An incoming KeyUpdate, `src/dtls13/client.rs:1109-1137`. -/
def takeKeyUpdate (env : PEnv) : P St Unit := do
  let s ← M.get
  if hasComplete s.eng mtKeyUpdate then do
    let m ← onEng (nextHandshakeWith env.toEnv false false mtKeyUpdate)
    match m with
    | none => pure ()
    | some (.keyUpdate requested) => do
      onEng (updateRecvKeys env.toEnv)
      onEng (sendAck env.toEnv)
      M.modify fun s =>
        { s with pendingKu := s.pendingKu || (requested && !s.eng.kuInFlight) }
      onEng advancePeerSeq
    | some _ => M.panic
  else pure ()

/-- `await_application_data`, `src/dtls13/client.rs:1076-1140`, `src/dtls13/server.rs:1168-1232`. -/
def awaitApplicationData (env : PEnv) (self : St) : P St St := do
  autoKeyUpdate env
  drainQueued env
  respondKeyUpdate env
  takeKeyUpdate env
  pure self

/-- `half_closed_local`, `src/dtls13/client.rs:1142-1164`, `src/dtls13/server.rs:1234-1256`. -/
def halfClosedLocal (env : PEnv) (self closed : St) : P St St := do
  let s ← M.get
  if hasComplete s.eng mtKeyUpdate then do
    let m ← onEng (nextHandshakeWith env.toEnv false false mtKeyUpdate)
    match m with
    | none => pure ()
    | some (.keyUpdate _) => do
      onEng (updateRecvKeys env.toEnv)
      onEng advancePeerSeq
    | some _ => M.panic
  else pure ()
  let s ← M.get
  pure (if s.eng.closeSeq.isSome then closed else self)

end

/-! ## API -/

variable (R : Role)

/-- `make_progress`, `src/dtls13/client.rs:302-315`, `src/dtls13/server.rs:343-356`. Out of fuel means
that the loop does not end. -/
def progress (env : PEnv) : Nat → P R.St Unit
  | 0 => M.fail .diverge
  | fuel + 1 => do
    let s ← M.get
    let new ← R.step env s.st
    if s.st = new then pure ()
    else do
      M.modify fun s => { s with st := new }
      progress env fuel

/-- Number of iterations the loop is given. -/
def progressFuel : Nat := 40

/-- `MAX_RETAINED_CLIENT_HELLO`, `src/dtls13/server.rs:77`. -/
def maxRetained : Nat := 64

/-- `handle_packet`, `src/dtls13/client.rs:221-230`, `src/dtls13/server.rs:239-271`. -/
def handlePacketM (env : PEnv) (packet : Bytes) : P R.St Unit := do
  let s ← M.get
  if s.autoMode && R.first s.st then
    if s.retained.length ≥ maxRetained then M.fatal .tooManyClientHelloFragments
    else M.modify fun s => { s with retained := s.retained ++ [packet] }
  else pure ()
  onEng (parsePacket env.toEnv packet)
  progress R env progressFuel
  M.modify fun s =>
    if s.autoMode && !R.first s.st then { s with retained := [], autoMode := false } else s

/-- Setting the clock and the random, `src/dtls13/client.rs:241-244`, `src/dtls13/server.rs:282-285`. -/
def noteTime (env : PEnv) (now : Nat) (s : Ses R.St) : Ses R.St :=
  match s.random with
  | some _ => { s with lastNow := now }
  | none => { s with lastNow := now, random := some (env.rand s.eng.tick 32),
                     eng := { s.eng with tick := s.eng.tick + 1 } }

/-- `handle_timeout`, `src/dtls13/client.rs:240-250`, `src/dtls13/server.rs:281-291`. -/
def handleTimeoutM (env : PEnv) (now : Nat) : P R.St Unit := do
  M.modify (noteTime R env now)
  onEng (handleTimeout env.toEnv now)
  progress R env progressFuel

/-- `send_application_data`, `src/dtls13/client.rs:258-279`, `src/dtls13/server.rs:299-320`. -/
def sendM (env : PEnv) (data : Bytes) : P R.St Unit := do
  let s ← M.get
  if s.st = R.closed ∨ s.st = R.halfClosed then M.fatal .connectionClosed
  else if s.st ≠ R.app then M.modify fun s => { s with queued := s.queued ++ [data] }
  else sendApp env s.eng.appEpoch data

/-- `close`, `src/dtls13/client.rs:282-300`, `src/dtls13/server.rs:323-341`. -/
def closeM (env : PEnv) : P R.St Unit := do
  let s ← M.get
  if s.st = R.closed ∨ s.st = R.halfClosed then pure ()
  else if s.st ≠ R.app then do
    onEng' abort
    M.modify fun s => { s with st := R.closed }
  else do
    onEng (createCipher env.toEnv ctAlert s.eng.appEpoch false [1, 0])
    onEng' cancelFlights
    M.modify fun s => { s with st := R.halfClosed }

/-- `poll_output`, `src/dtls13/client.rs:232-237`, `src/dtls13/server.rs:273-278`, with
`LocalEvent::into_output`, `src/dtls13/client.rs:1549-1568`, which is as in DTLS 1.2. -/
def pollM (bufLen : Nat) (s : Ses R.St) : Output × Ses R.St :=
  match s.events with
  | e :: rest => (eventOutput e bufLen s.peerCerts, { s with events := rest })
  | [] => (.eng (pollOutput bufLen s.lastNow s.eng).1,
           { s with eng := (pollOutput bufLen s.lastNow s.eng).2 })

/-- One call of the public API. -/
def call (env : PEnv) (s : Ses R.St) : Call → Ret × Ses R.St
  | .packet p => let (r, s') := handlePacketM R env p s; (.res (toApi r), s')
  | .timeout n => let (r, s') := handleTimeoutM R env n s; (.res (toApi r), s')
  | .send d => let (r, s') := sendM R env d s; (.res (toApi r), s')
  | .close => let (r, s') := closeM R env s; (.res (toApi r), s')
  | .poll n => let (o, s') := pollM R n s; (.out o, s')

/-- A whole life of a session. After a panic the process is gone, so nothing follows it. -/
def run (env : PEnv) (s : Ses R.St) : List Call → List Ret × Ses R.St
  | [] => ([], s)
  | c :: cs =>
    let (r, s') := call R env s c
    if r = .res .panic ∨ r = .res .diverge ∨ r = .out .panic then ([r], s')
    else
      let (rs, s'') := run env s' cs
      (r :: rs, s'')

end Verif.E13
