import Verif.Model.Engine12
import Verif.Model.Config
/-!
# DTLS 1.2 sessions: what client and server share (`src/dtls12/client.rs`, `src/dtls12/server.rs`)

`Client` and `Server` have the same methods `handle_packet`, `poll_output`, `handle_timeout`,
`send_application_data`, `close`, `make_progress` and `await_application_data`, word for word up to the
type names. They are modelled once, over a role `Role` that supplies the state type and the step
function. The two structures are merged into `Ses`; a field only one side has stays at its initial
value on the other.
-/
namespace Verif.E12
open Verif Wire

/-- `enum AuthMode`, `src/dtls12/context.rs:72-86`, with what the code asks of the private key: its
signature algorithm, its default hash and the hashes it can sign with. -/
inductive Auth where
  | psk
  | cert (sig hash : Nat) (hashes : List Nat)
deriving DecidableEq, Repr

/-- Configuration, provider and crypto parameters of a session. A signature scheme is its wire number
`256 * hash + signature`. -/
structure PEnv extends Env where
  auth : Auth
  /-- `Dtls12CipherSuite::signature_algorithm` -/
  suiteSig : Nat → Option Nat
  /-- `Dtls12CipherSuite::is_unknown` -/
  suiteUnknown : Nat → Bool
  /-- `config.dtls12_cipher_suites()` -/
  allowed : List Nat
  /-- `config.kx_groups()` -/
  groups : List Nat
  /-- `provider.supported_kx_groups()` -/
  providerGroups : List Nat
  requireClientCert : Bool
  useCookie : Bool
  pskIdentity : Option Bytes
  pskResolver : Option (Bytes → Option Bytes)
  pskHint : Option Bytes
  cookieSecret : Bytes
  /-- `hmac_sha256` (secret, data) -/
  hmac : Bytes → Bytes → Option Bytes
  /-- `start_exchange` at a tick for a group: our public key -/
  kxStart : Nat → Nat → Option Bytes
  /-- `complete` of the exchange started at a tick for a group -/
  kxComplete : Nat → Nat → Bytes → Option Bytes
  /-- extended master secret: suite, pre-master secret, transcript -/
  ems : Nat → Bytes → Bytes → Option Bytes
  /-- `sign_data`: tick (signatures may be randomised), data, hash -/
  sign : Nat → Bytes → Nat → Option Bytes
  /-- `verify_signature`: certificate, data, scheme, signature -/
  verifySig : Bytes → Bytes → Nat → Bytes → Bool
  /-- `extract_srtp_keying_material`: suite, profile, master secret, client and server random -/
  srtpKeys : Nat → Nat → Bytes → Bytes → Bytes → Option Bytes
  parseUseSrtp : Bytes → Option (List Nat)
  parseGroups : Bytes → Option (List Nat)
  parsePointFormats : Bytes → Option Unit
  parseSigAlgs : Bytes → Option (List Nat)
  /-- serialised ClientHello: random, cookie, session id -/
  clientHelloBody : Bytes → Bytes → Bytes → Bytes
  /-- serialised ServerHello: random, session id, suite, SRTP profile -/
  serverHelloBody : Bytes → Bytes → Nat → Option Nat → Bytes
  /-- serialised HelloVerifyRequest: cookie -/
  helloVerifyBody : Bytes → Bytes
  /-- serialised own certificate -/
  certificateBody : Bytes
  /-- serialised CertificateRequest: schemes -/
  certRequestBody : List Nat → Bytes
  clientKxBody : Bytes → Bytes
  clientPskBody : Bytes → Bytes
  pskHintBody : Bytes → Bytes

/-- `is_cipher_suite_compatible`, `src/dtls12/context.rs:572-583`. -/
def PEnv.compatible (env : PEnv) (s : Nat) : Bool :=
  match env.auth, env.suiteSig s with
  | .cert sig _ _, some x => x == sig
  | .psk, none => true
  | _, _ => false

/-- `private_key_default_hash_algorithm`; `none` in PSK mode. -/
def PEnv.keyHash (env : PEnv) : Option Nat :=
  match env.auth with
  | .cert _ h _ => some h
  | .psk => none

/-- `signature_algorithm` of the private key; `none` in PSK mode. -/
def PEnv.keySig (env : PEnv) : Option Nat :=
  match env.auth with
  | .cert s _ _ => some s
  | .psk => none

/-- `private_key_supported_hash_algorithms`. -/
def PEnv.keyHashes (env : PEnv) : List Nat :=
  match env.auth with
  | .cert _ _ hs => hs
  | .psk => []

/-- `SignatureAndHashAlgorithm::supported`, `src/dtls12/message/mod.rs:345-354`. -/
def supportedSigs : List Nat := [0x0403, 0x0503, 0x0401, 0x0501]

/-- `enum LocalEvent`, `src/dtls12/client.rs:86-90`. -/
inductive Event where
  | peerCert
  | connected
  | keyingMaterial (m : Bytes) (profile : Nat)
deriving DecidableEq, Repr

/-- `struct Client`, `src/dtls12/client.rs:35-83`, and `struct Server`, `src/dtls12/server.rs:48-105`,
with the fields of `CryptoContext` (`src/dtls12/context.rs:18-72`) that the engine does not need. The
session hash is kept as the transcript it hashes. The randoms stored in `CryptoContext` are those of
the session. -/
structure Ses (St : Type) where
  st : St
  eng : Eng
  random : Option Bytes
  sessionId : Option Bytes
  cookie : Option Bytes
  srtp : Option Nat
  peerRandom : Option Bytes
  peerCerts : List Bytes
  certificateVerify : Bool
  sessionHash : Option Bytes
  clientGroups : Option (List Nat)
  clientSigs : Option (List Nat)
  pskValid : Option Bool
  lastNow : Nat
  events : List Event
  queued : List Bytes
  /-- running key exchange: tick it was started at and group -/
  kx : Option (Nat × Nat)
  /-- `key_exchange_public_key` -/
  kxPub : Option Bytes
  pms : Option Bytes
deriving DecidableEq, Repr

/-- `new_with_engine`, `src/dtls12/client.rs:93-113`, `src/dtls12/server.rs:157-181`. -/
def Ses.start {St : Type} (st : St) (eng : Eng) (now : Nat) : Ses St :=
  { st, eng, random := none, sessionId := none, cookie := none, srtp := none, peerRandom := none,
    peerCerts := [], certificateVerify := false, sessionHash := none, clientGroups := none,
    clientSigs := none, pskValid := none, lastNow := now, events := [], queued := [],
    kx := none, kxPub := none, pms := none }

/-- A role: its states and its step function (`State::make_progress`). -/
structure Role where
  St : Type
  decEq : DecidableEq St
  app : St
  closed : St
  step : PEnv → St → M (Ses St) St

instance (R : Role) : DecidableEq R.St := R.decEq

section
variable {St : Type}

abbrev P (St : Type) := M (Ses St)

/-- Call an engine method. -/
def onEng {α : Type} (m : E α) : P St α := M.zoom Ses.eng (fun s e => { s with eng := e }) m

/-- Call an engine method that cannot fail. -/
def onEng' (f : Eng → Eng) : P St Unit := M.modify fun s => { s with eng := f s.eng }

/-- `if !c { return Err(e) }`. -/
def check (c : Bool) (e : Error) : P St Unit := if c then M.pure () else M.fatal e

/-- `.ok_or(e)?`. -/
def orFatal {α : Type} (o : Option α) (e : Error) : P St α :=
  match o with
  | some a => M.pure a
  | none => M.fatal e

/-- `.unwrap()`. -/
def orPanic {α : Type} (o : Option α) : P St α :=
  match o with
  | some a => M.pure a
  | none => M.panic

/-- A parse error inside a state (`.map_err(InternalError::from)?`). -/
def orTransient {α : Type} (o : Option α) : P St α :=
  match o with
  | some a => M.pure a
  | none => M.transient

/-- Use outside non-determinism once (see `Eng.tick`). -/
def drawTick : P St Nat := fun s =>
  (.ok s.eng.tick, { s with eng := { s.eng with tick := s.eng.tick + 1 } })

/-- `create_record` for an alert: level warning, close_notify. -/
def sendCloseNotify (env : PEnv) : P St Unit :=
  onEng (createRecord env.toEnv ctAlert 1 false false [1, 0])

/-- The loop over `queued_data.drain(..)`, `src/dtls12/client.rs:1200-1212`,
`src/dtls12/server.rs:1129-1141`. The queue is empty afterwards even if the loop stops early: dropping
the drain iterator removes the rest. -/
def drainLoop (env : PEnv) : List Bytes → P St Unit
  | [] => M.pure ()
  | d :: rest => do
    onEng (createRecord env.toEnv ctAppData 1 false false d)
    drainLoop env rest

def drainQueued (env : PEnv) : P St Unit := do
  let s ← M.get
  M.set { s with queued := [] }
  drainLoop env s.queued

/-- `await_application_data`, `src/dtls12/client.rs:1186-1215`, `src/dtls12/server.rs:1114-1144`. -/
def awaitApplicationData (env : PEnv) (self closed : St) : P St St := do
  let s ← M.get
  if s.eng.closeRecv then do
    onEng' discardPendingWrites
    sendCloseNotify env
    pure closed
  else do
    drainQueued env
    pure self

/-- Announce a finished handshake: `src/dtls12/client.rs:1142-1183`,
`src/dtls12/server.rs:1073-1111`. -/
def announceConnected (env : PEnv) (app : St) (clientRandom serverRandom : Ses St → Option Bytes) :
    P St St := do
  onEng' flightStop
  M.modify fun s => { s with events := s.events ++ [.connected] }
  let s ← M.get
  match s.srtp with
  | none => pure ()
  | some profile => do
    let suite ← orPanic s.eng.suite
    match s.eng.master, clientRandom s, serverRandom s with
    | some m, some cr, some sr =>
      match env.srtpKeys suite profile m cr sr with
      | some km => M.modify fun s => { s with events := s.events ++ [.keyingMaterial km profile] }
      | none => pure ()
    | _, _, _ => pure ()
  onEng' releaseAppData
  pure app

/-- `derive_extended_master_secret` (`src/dtls12/context.rs:221-250`) then `derive_keys`
(`src/dtls12/context.rs:253-340`). -/
def deriveMaster (env : PEnv) (suite : Nat) (hash cr sr : Bytes) : P St Unit := do
  let s ← M.get
  let pms ← orFatal s.pms .crypto
  let m ← orFatal (env.ems suite pms hash) .crypto
  M.modify fun s => { s with pms := none, eng := { s.eng with master := some m } }
  let k ← orFatal (env.deriveKeys suite m cr sr) .crypto
  M.modify fun s => { s with eng := { s.eng with keys := some k } }

/-- `compute_psk_pre_master_secret`, `src/dtls12/context.rs:162-173`. -/
def pskPms (psk : Bytes) : Bytes :=
  beBytes 2 psk.length ++ List.replicate psk.length 0 ++ beBytes 2 psk.length ++ psk

/-- `await_change_cipher_spec`, `src/dtls12/client.rs:1048-1065`, `src/dtls12/server.rs:950-967`. -/
def awaitChangeCipherSpec (env : PEnv) (self next : St) : P St St := do
  let got ← onEng (nextRecord ctCCS)
  if got then do
    onEng' dropPendingCcs
    onEng (enablePeerEncryption env.toEnv)
    pure next
  else pure self

end

/-! ## API -/

variable (R : Role)

/-- `make_progress`, `src/dtls12/client.rs:263-276`, `src/dtls12/server.rs:261-274`: until the state
does not change. Out of fuel means that the loop does not end. -/
def progress (env : PEnv) : Nat → P R.St Unit
  | 0 => M.fail .diverge
  | fuel + 1 => do
    let s ← M.get
    let new ← R.step env s.st
    if s.st = new then pure ()
    else do
      M.modify fun s => { s with st := new }
      progress env fuel

/-- Number of iterations the loop is given. -/
def progressFuel : Nat := 40

/-- Result of an API call. -/
inductive ApiRes where
  | ok
  | err (e : Error)
  | panic
  | diverge
deriving DecidableEq, Repr

/-- `into_public_error`, `src/error.rs:700-720`: transient errors are dropped. -/
def toApi {α : Type} : Res α → ApiRes
  | .ok _ => .ok
  | .fail .transient => .ok
  | .fail (.fatal e) => .err e
  | .fail .panic => .panic
  | .fail .diverge => .diverge

/-- `handle_packet`, `src/dtls12/client.rs:189-198`, `src/dtls12/server.rs:191-200`. -/
def handlePacketM (env : PEnv) (packet : Bytes) : P R.St Unit := do
  onEng (parsePacket env.toEnv packet)
  progress R env progressFuel

/-- Setting the clock and the random (whose first four bytes are the time; here all 32 come from `rand`), `src/dtls12/client.rs:208-212`,
`src/dtls12/server.rs:209-213`. -/
def noteTime (env : PEnv) (now : Nat) (s : Ses R.St) : Ses R.St :=
  match s.random with
  | some _ => { s with lastNow := now }
  | none => { s with lastNow := now, random := some (env.rand s.eng.tick 32),
                     eng := { s.eng with tick := s.eng.tick + 1 } }

/-- `handle_timeout`, `src/dtls12/client.rs:208-218`, `src/dtls12/server.rs:209-219`. -/
def handleTimeoutM (env : PEnv) (now : Nat) : P R.St Unit := do
  M.modify (noteTime R env now)
  onEng (handleTimeout env.toEnv now)
  progress R env progressFuel

/-- `send_application_data`, `src/dtls12/client.rs:224-242`, `src/dtls12/server.rs:222-240`. -/
def sendM (env : PEnv) (data : Bytes) : P R.St Unit := do
  let s ← M.get
  if s.st = R.closed then M.fatal .connectionClosed
  else if s.st ≠ R.app then M.modify fun s => { s with queued := s.queued ++ [data] }
  else onEng (createRecord env.toEnv ctAppData 1 false false data)

/-- `close`, `src/dtls12/client.rs:245-261`, `src/dtls12/server.rs:243-259`. -/
def closeM (env : PEnv) : P R.St Unit := do
  let s ← M.get
  if s.st = R.closed then pure ()
  else if s.st ≠ R.app then do
    onEng' abort
    M.modify fun s => { s with st := R.closed }
  else do
    sendCloseNotify env
    M.modify fun s => { s with st := R.closed }

/-- `Output` as returned by `poll_output`. -/
inductive Output where
  | connected
  | peerCert (c : Bytes)
  | keyingMaterial (m : Bytes) (profile : Nat)
  | eng (o : Out)
  | panic
deriving DecidableEq, Repr

/-- `LocalEvent::into_output`, `src/dtls12/client.rs:1378-1396`; the assertion on the buffer length and
the index are panics. -/
def eventOutput (e : Event) (bufLen : Nat) (certs : List Bytes) : Output :=
  match e with
  | .connected => .connected
  | .keyingMaterial m p => .keyingMaterial m p
  | .peerCert =>
    match certs with
    | [] => .panic
    | c :: _ => if c.length ≤ bufLen then .peerCert c else .panic

/-- `poll_output`, `src/dtls12/client.rs:200-205`, `src/dtls12/server.rs:202-207`. -/
def pollM (bufLen : Nat) (s : Ses R.St) : Output × Ses R.St :=
  match s.events with
  | e :: rest => (eventOutput e bufLen s.peerCerts, { s with events := rest })
  | [] => (.eng (pollOutput bufLen s.lastNow s.eng).1,
           { s with eng := (pollOutput bufLen s.lastNow s.eng).2 })

/-- One call of the public API. -/
inductive Call where
  | packet (p : Bytes)
  | timeout (now : Nat)
  | send (d : Bytes)
  | close
  | poll (bufLen : Nat)
deriving DecidableEq, Repr

/-- What a call returned. -/
inductive Ret where
  | res (r : ApiRes)
  | out (o : Output)
deriving DecidableEq, Repr

def call (env : PEnv) (s : Ses R.St) : Call → Ret × Ses R.St
  | .packet p => let (r, s') := handlePacketM R env p s; (.res (toApi r), s')
  | .timeout n => let (r, s') := handleTimeoutM R env n s; (.res (toApi r), s')
  | .send d => let (r, s') := sendM R env d s; (.res (toApi r), s')
  | .close => let (r, s') := closeM R env s; (.res (toApi r), s')
  | .poll n => let (o, s') := pollM R n s; (.out o, s')

/-- A whole life of a session. After a panic the process is gone, so nothing follows it. -/
def run (env : PEnv) (s : Ses R.St) : List Call → List Ret × Ses R.St
  | [] => ([], s)
  | c :: cs =>
    let (r, s') := call R env s c
    if r = .res .panic ∨ r = .res .diverge ∨ r = .out .panic then ([r], s')
    else
      let (rs, s'') := run env s' cs
      (r :: rs, s'')

end Verif.E12
