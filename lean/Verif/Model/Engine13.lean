import Verif.Model.Engine12
import Verif.Model.Seq13
/-!
# The DTLS 1.3 engine (`src/dtls13/engine.rs`, `src/dtls13/incoming.rs`, `Handshake::defragment`)

Function by function, with the conventions of `Verif.Model.Engine12`: cryptography, randomness and the
parsers of handshake bodies are parameters (`Env`), buffer pools and logging are dropped, a record
carries its fragment bytes instead of a range, `log` is ghost, `tick` counts the uses of outside
non-determinism. Arithmetic on `u16` counters that would overflow is a panic.
-/
namespace Verif.E13
open Verif Wire Window Timer Aead
open Verif.E12 (Found SearchOk cmpPair insertAt)

/-! ## Handshake bodies -/

/-- `ClientHello`, `src/dtls13/message/client_hello.rs:11-20`. An extension is its type and data. -/
structure ClientHello where
  version : Nat
  random : Bytes
  sessionId : Bytes
  cookie : Bytes
  suites : List Nat
  compressions : List UInt8
  exts : List (Nat × Bytes)
deriving DecidableEq, Repr

/-- `ServerHello`, `src/dtls13/message/server_hello.rs:15-23`. -/
structure ServerHello where
  version : Nat
  random : Bytes
  sessionId : Bytes
  suite : Nat
  compression : UInt8
  exts : Option (List (Nat × Bytes))
deriving DecidableEq, Repr

/-- `enum Body`, `src/dtls13/message/handshake.rs:374-387` (without `Fragment`, which is `Wire.Hs`). A
certificate is its context and the list of its DER strings; a KeyUpdate whether an update is requested. -/
inductive Body where
  | clientHello (h : ClientHello)
  | serverHello (h : ServerHello)
  | encryptedExtensions (exts : List (Nat × Bytes))
  | certificate (context : Bytes) (certs : List Bytes)
  | certificateRequest (body : Bytes)
  | certificateVerify (scheme : Nat) (sig : Bytes)
  | finished (verifyData : Bytes)
  | keyUpdate (requested : Bool)
  | unknown (t : UInt8)
deriving DecidableEq, Repr

/-- `MessageType` wire values, `src/dtls13/message/handshake.rs:323-330`. -/
abbrev mtClientHello : UInt8 := 1
abbrev mtServerHello : UInt8 := 2
abbrev mtEncryptedExtensions : UInt8 := 8
abbrev mtCertificate : UInt8 := 11
abbrev mtCertificateRequest : UInt8 := 13
abbrev mtCertificateVerify : UInt8 := 15
abbrev mtFinished : UInt8 := 20
abbrev mtKeyUpdate : UInt8 := 24

/-- `MessageType::is_unknown`, `src/dtls13/message/handshake.rs:340-342`. -/
def isUnknownType (t : UInt8) : Bool :=
  !(t == 1 || t == 2 || t == 8 || t == 11 || t == 13 || t == 15 || t == 20 || t == 24)

/-- `epoch_for_message`, `src/dtls13/engine.rs:2273-2279`. -/
def msgEpoch (t : UInt8) : Nat := if t == mtClientHello || t == mtServerHello then 0 else 2

/-- `Handshake::dupe_triggers_resend`, `src/dtls13/message/handshake.rs:284-298`. -/
def dupeTriggersResend (h : HsHeader) : Option Nat :=
  if h.fragOff ≠ 0 then none
  else if h.msgType == mtClientHello || h.msgType == mtFinished then some h.messageSeq else none

/-! ## Environment -/

/-- `EpochKeys`, `src/dtls13/engine.rs:174-184`: AEAD key, IV, record-number key, traffic secret. -/
structure Keys where
  key : Bytes
  iv : Bytes
  sn : Bytes
  secret : Bytes
deriving DecidableEq, Repr

/-- Everything the engine takes from outside its own code. `suiteTag` is the provider's table: the tag
length of a suite it has (`min_protected_fragment_len` is the tag length,
`src/crypto/provider.rs:456-458`). `snMask` is the first two bytes of `encrypt_sn`, the only ones used.
`epochKeys` is `derive_epoch_keys` (`src/dtls13/engine.rs:1961-2012`), `nextSecret` is
`derive_next_traffic_secret` (`:1829-1848`); `hash` is the transcript hash. The body parsers return the
unconsumed rest. `allowed` is `config.dtls13_cipher_suites()`. -/
structure Env where
  allowed : List Nat
  enc : (key nonce aad plain : Bytes) → Option Bytes
  dec : (key nonce aad cipher : Bytes) → Option Bytes
  snMask : (suite : Nat) → (snKey sample : Bytes) → UInt8 × UInt8
  rand : Nat → Nat → Bytes
  randNat : Nat → Nat
  jitter : Nat → Int
  search : Nat → List Ordering → Found
  suiteTag : Nat → Option Nat
  epochKeys : (suite : Nat) → (secret : Bytes) → Option Keys
  nextSecret : (suite : Nat) → (secret : Bytes) → Option Bytes
  hash : (suite : Nat) → Bytes → Bytes
  /-- whether unknown suites are allowed, then the bytes -/
  parseClientHello : Bool → Bytes → Option (Bytes × ClientHello)
  parseServerHello : Bytes → Option (Bytes × ServerHello)
  parseEncryptedExtensions : Bytes → Option (Bytes × List (Nat × Bytes))
  parseCertificate : Bytes → Option (Bytes × (Bytes × List Bytes))
  parseCertificateVerify : Bytes → Option (Bytes × (Nat × Bytes))
  parseFinished : Nat → Bytes → Option (Bytes × Bytes)

/-- `Body::parse_with_options`, `src/dtls13/message/handshake.rs:436-494`. -/
def parseBody (env : Env) (allowUnknown : Bool) (t : UInt8) (suite : Option Nat) (b : Bytes) :
    Option (Bytes × Body) :=
  if t = mtClientHello then
    (env.parseClientHello allowUnknown b).map fun (r, x) => (r, .clientHello x)
  else if t = mtServerHello then (env.parseServerHello b).map fun (r, x) => (r, .serverHello x)
  else if t = mtEncryptedExtensions then
    (env.parseEncryptedExtensions b).map fun (r, x) => (r, .encryptedExtensions x)
  else if t = mtCertificate then
    (env.parseCertificate b).map fun (r, x) => (r, .certificate x.1 x.2)
  else if t = mtCertificateRequest then some ([], .certificateRequest b)
  else if t = mtCertificateVerify then
    (env.parseCertificateVerify b).map fun (r, x) => (r, .certificateVerify x.1 x.2)
  else if t = mtFinished then
    suite.bind fun s => (env.parseFinished s b).map fun (r, x) => (r, .finished x)
  else if t = mtKeyUpdate then
    match b with
    | [0] => some ([], .keyUpdate false)
    | [1] => some ([], .keyUpdate true)
    | _ => none
  else some (b, .unknown t)

/-! ## State -/

/-- `Record` and `ParsedRecord`, `src/dtls13/incoming.rs:168-173, 359-363`. `opened` is ghost: the
record was decrypted. -/
structure Rx where
  buffer : Bytes
  rcd : Rec13
  hss : List Hs
  handled : Bool
  opened : Bool
deriving DecidableEq, Repr

/-- `struct Entry`, `src/dtls13/engine.rs:201-208`. -/
structure Entry where
  ctype : UInt8
  epoch : Nat
  sendSeq : Nat
  fragment : Bytes
  acked : Bool
deriving DecidableEq, Repr

/-- `struct RecvEpochEntry`, `src/dtls13/engine.rs:186-199`. -/
structure RecvEpoch where
  epoch : Nat
  keys : Keys
  expected : Nat
  replay : ReplayWindow
deriving DecidableEq, Repr

/-- The configuration values the engine reads. -/
structure Cfg where
  mtu : Nat
  maxRx : Nat
  maxTx : Nat
  handshakeTimeout : Nat
  startRto : Nat
  retries : Nat
  aeadLimit : Nat
deriving DecidableEq, Repr

/-- Ghost events. -/
inductive Ev where
  /-- a record was encrypted -/
  | sealed (keys : Keys) (nonce : Bytes) (epoch seq : Nat)
  /-- a record was put on the transmit queue; `keys = none`: not protected -/
  | queued (keys : Option Keys) (ctype : UInt8) (epoch seq : Nat) (plain : Bytes)
  /-- a record was opened with `keys` -/
  | opened (keys : Keys) (nonce aad cipher plain : Bytes) (epoch seq : Nat)
  /-- a handshake message was taken from the receive queue -/
  | taken (seq : Nat) (t : UInt8) (body : Bytes)
  /-- the expected message number was advanced past `seq` -/
  | accepted (seq : Nat)
  /-- application data was handed to the user -/
  | delivered (r : Rec13) (opened : Bool)
  /-- a datagram was handed to the user for transmission -/
  | sent (datagram : Bytes)
  /-- send keys moved on from `epoch` -/
  | rotated (epoch : Nat)
  /-- a KeyUpdate was put on the wire in `epoch` -/
  | keyUpdate (epoch : Nat) (requested : Bool)
deriving DecidableEq, Repr

/-- `struct Engine`, `src/dtls13/engine.rs:38-172`. `sequence_epoch_0` is its counter; `signing_key`,
`certificate` and the provider are in the environment. -/
structure Eng where
  cfg : Cfg
  isClient : Bool
  seq0 : Nat
  rx : List (List Rx)
  tx : List Bytes
  suite : Option Nat
  hsSend : Option Keys
  hsRecv : Option Keys
  hsExpected : Nat
  hsReplay : ReplayWindow
  hsSeq : Nat
  appEpoch : Nat
  appSeq : Nat
  appSend : Option Keys
  prevSend : Option Keys
  prevEpoch : Nat
  prevSeq : Nat
  appRecv : List RecvEpoch
  peerEnc : Bool
  peerSeq : Nat
  nextSeq : Nat
  transcript : Bytes
  received : List (Nat × Nat)
  ackDeadline : Option Nat
  sealedDg : Bool
  saved : List Entry
  timers : Timers
  release : Bool
  exporter : Option Bytes
  sendCount : Nat
  threshold : Nat
  needsKu : Bool
  kuInFlight : Bool
  closeSeq : Option (Nat × Nat)
  closeReported : Bool
  tick : Nat
  log : List Ev
deriving DecidableEq, Repr

/-- `Engine::new`, `src/dtls13/engine.rs:211-271`, followed by `set_client`. -/
def Eng.new (env : Env) (cfg : Cfg) (isClient : Bool) : Eng :=
  { cfg, isClient, seq0 := 0, rx := [], tx := [], suite := none, hsSend := none, hsRecv := none,
    hsExpected := 0, hsReplay := .new, hsSeq := 0, appEpoch := 3, appSeq := 0, appSend := none,
    prevSend := none, prevEpoch := 0, prevSeq := 0, appRecv := [], peerEnc := false, peerSeq := 0,
    nextSeq := 0, transcript := [], received := [], ackDeadline := none, sealedDg := false,
    saved := [], timers := .new cfg.startRto cfg.retries (env.jitter 0), release := false,
    exporter := none, sendCount := 0,
    threshold := Seq13.jitteredThreshold cfg.aeadLimit (env.randNat 1), needsKu := false,
    kuInFlight := false, closeSeq := none, closeReported := false, tick := 2, log := [] }

abbrev E := M Eng

/-- `const MAX_SEQUENCE_NUMBER`, `src/dtls13/engine.rs:34`. -/
def maxSeq : Nat := 2 ^ 48 - 1

/-- `suite_provider().tag_len()`, `src/dtls13/engine.rs:1602-1611`; `none`: the `unwrap` or the
`expect` panics. -/
def Eng.tag (env : Env) (s : Eng) : Option Nat := s.suite.bind env.suiteTag

/-- `inject_hybrid_client_hello`, `src/dtls13/engine.rs:290-300`. -/
def injectHybrid (transcript : Bytes) (s : Eng) : Eng :=
  { s with transcript := s.transcript ++ transcript, nextSeq := 1,
           seq0 := if s.seq0 < maxSeq then s.seq0 + 1 else s.seq0 }

/-! ## Sending: records -/

/-- Which send state a record of an epoch uses, `src/dtls13/engine.rs:978-984, 1028-1034`. -/
inductive Slot where
  | hs
  | prev
  | app
deriving DecidableEq, Repr

def Eng.slot (s : Eng) (epoch : Nat) : Slot :=
  if epoch = 2 then .hs
  else if s.prevSend.isSome ∧ epoch = s.prevEpoch then .prev
  else .app

/-- `src/dtls13/engine.rs:978-984`. -/
def Eng.slotSeq (s : Eng) : Slot → Nat
  | .hs => s.hsSeq
  | .prev => s.prevSeq
  | .app => s.appSeq

/-- `src/dtls13/engine.rs:1028-1034`. -/
def Eng.slotKeys (s : Eng) : Slot → Option Keys
  | .hs => s.hsSend
  | .prev => s.prevSend
  | .app => s.appSend

/-- Whether the record fits the last queued datagram, `src/dtls13/engine.rs:914-919, 1077-1082`. -/
def canAppend (s : Eng) (wireLen : Nat) : Bool :=
  match s.tx.getLast? with
  | some b => !s.sealedDg && decide (b.length + wireLen ≤ s.cfg.mtu)
  | none => false

/-- Append to the last datagram or push a new one and clear the seal,
`src/dtls13/engine.rs:944-953, 1130-1146`. -/
def pushWire (s : Eng) (append : Bool) (bytes : Bytes) : Eng :=
  if append then { s with tx := s.tx.dropLast ++ [s.tx.getLast?.getD [] ++ bytes] }
  else { s with tx := s.tx ++ [bytes], sealedDg := false }

/-- `flight_saved_records.push` on an `ArrayVec` of capacity 12 (`src/dtls13/engine.rs:132, 900-910,
986-996`); `none`: it is full and the push panics. -/
def saveEntry (s : Eng) (save : Bool) (e : Entry) : Option Eng :=
  if save then (if s.saved.length ≥ 12 then none else some { s with saved := s.saved ++ [e] })
  else some s

/-- The number, queue and serialise part of `create_plaintext_record`, `src/dtls13/engine.rs:929-953`. -/
def emitPlain (s : Eng) (ctype : UInt8) (append : Bool) (fragment : Bytes) : Eng :=
  let s1 := pushWire s append (serializePlain13 ctype 0 s.seq0 (fragment.length % 65536) fragment)
  { s1 with seq0 := s.seq0 + 1, log := .queued none ctype 0 s.seq0 fragment :: s.log }

/-- `create_plaintext_record`, `src/dtls13/engine.rs:884-958`. -/
def createPlain (ctype : UInt8) (save : Bool) (fragment : Bytes) : E Unit := fun s =>
  match saveEntry s save { ctype, epoch := 0, sendSeq := s.seq0, fragment, acked := false } with
  | none => (.fail .panic, s)
  | some s =>
    let append := canAppend s (13 + fragment.length)
    if !append && decide (s.tx.length ≥ s.cfg.maxTx) then (.fail (.fatal .transmitQueueFull), s)
    else if s.seq0 ≥ maxSeq then (.fail (.fatal .crypto), s)
    else (.ok (), emitPlain s ctype append fragment)

/-- The unified header that is the additional data, `src/dtls13/engine.rs:1046-1060`. -/
def cipherHeader (epoch seq cipherLen : Nat) : Bytes :=
  cipherFlags epoch :: (beBytes 2 seq ++ beBytes 2 cipherLen)

/-- The record-number mask, `src/dtls13/engine.rs:1076-1086`: none for short ciphertexts. -/
def snMaskOf (env : Env) (suite : Nat) (sn cipher : Bytes) : UInt8 × UInt8 :=
  if cipher.length ≥ 16 then env.snMask suite sn (cipher.take 16) else (0, 0)

/-- XOR the mask over the two sequence bytes, `src/dtls13/engine.rs:1135-1136, 1143-1144`. -/
def maskSeq (m : UInt8 × UInt8) : Bytes → Bytes
  | f :: a :: b :: rest => f :: (a ^^^ m.1) :: (b ^^^ m.2) :: rest
  | bs => bs

/-- Counting a sent record, `src/dtls13/engine.rs:1103-1132`. -/
def countSent (s : Eng) (slot : Slot) (epoch : Nat) : Eng :=
  match slot with
  | .hs => { s with hsSeq := s.hsSeq + 1 }
  | .prev => { s with prevSeq := s.prevSeq + 1 }
  | .app =>
    if epoch ≥ 3 then
      { s with appSeq := s.appSeq + 1, sendCount := s.sendCount + 1,
               needsKu := if s.sendCount + 1 ≥ s.threshold then true else s.needsKu }
    else { s with appSeq := s.appSeq + 1 }

/-- The last part of `create_ciphertext_record`, `src/dtls13/engine.rs:1094-1148`: number, serialise,
mask, queue. -/
def emitCipher (env : Env) (s : Eng) (suite : Nat) (slot : Slot) (k : Keys) (ctype : UInt8)
    (epoch : Nat) (append : Bool) (plain cipher : Bytes) : Eng :=
  let seq := s.slotSeq slot
  let wire := maskSeq (snMaskOf env suite k.sn cipher)
    (serializeCipher13 epoch seq (cipher.length % 65536) cipher)
  let s1 := pushWire (countSent s slot epoch) append wire
  { s1 with log := .queued (some k) ctype epoch seq plain :: s.log }

/-- The part of `create_ciphertext_record` after the encryption, `src/dtls13/engine.rs:1088-1148`. -/
def queueCipher (env : Env) (suite : Nat) (slot : Slot) (k : Keys) (ctype : UInt8) (epoch : Nat)
    (plain cipher : Bytes) : E Unit := fun s =>
  let append := canAppend s (5 + cipher.length)
  if !append && decide (s.tx.length ≥ s.cfg.maxTx) then (.fail (.fatal .transmitQueueFull), s)
  else if s.slotSeq slot ≥ maxSeq then (.fail (.fatal .crypto), s)
  else (.ok (), emitCipher env s suite slot k ctype epoch append plain cipher)

/-- The encryption part of `create_ciphertext_record`, `src/dtls13/engine.rs:998-1074`. -/
def sealCipher (env : Env) (ctype : UInt8) (epoch : Nat) (fragment : Bytes) : E Unit := fun s =>
  match s.suite, s.tag env with
  | some suite, some tag =>
    match s.slotKeys (s.slot epoch) with
    | none => (.fail (.fatal .crypto), s)
    | some k =>
      let seq := s.slotSeq (s.slot epoch)
      let inner := innerPlaintext ctype fragment
      match env.enc k.key (nonceXor k.iv seq) (cipherHeader epoch seq (inner.length + tag)) inner with
      | none => (.fail (.fatal .crypto), s)
      | some c =>
        queueCipher env suite (s.slot epoch) k ctype epoch fragment c
          { s with log := .sealed k (nonceXor k.iv seq) epoch seq :: s.log }
  | _, _ => (.fail .panic, s)

/-- `create_ciphertext_record`, `src/dtls13/engine.rs:964-1148`. The closure `f` only appends bytes;
here it is the resulting `fragment`. -/
def createCipher (env : Env) (ctype : UInt8) (epoch : Nat) (save : Bool) (fragment : Bytes) :
    E Unit := fun s =>
  match saveEntry s save
      { ctype, epoch, sendSeq := s.slotSeq (s.slot epoch), fragment, acked := false } with
  | none => (.fail .panic, s)
  | some s => sealCipher env ctype epoch fragment s

/-- One record of `flight_resend`, `src/dtls13/engine.rs:700-731`: the entry with its new number. -/
def resendEntry (env : Env) (e : Entry) : E Entry := fun s =>
  if e.epoch = 0 then
    M.bind (createPlain e.ctype false e.fragment) (fun _ => M.pure { e with sendSeq := s.seq0 }) s
  else
    M.bind (createCipher env e.ctype e.epoch false e.fragment)
      (fun _ => M.pure { e with sendSeq := s.slotSeq (s.slot e.epoch) }) s

/-- The loop of `flight_resend`, `src/dtls13/engine.rs:696-731`. -/
def resendLoop (env : Env) : List Entry → E (List Entry)
  | [] => M.pure []
  | e :: rest =>
    if e.acked then M.bind (resendLoop env rest) fun es => M.pure (e :: es)
    else M.bind (resendEntry env e) fun e' => M.bind (resendLoop env rest) fun es => M.pure (e' :: es)

/-- `flight_resend`, `src/dtls13/engine.rs:687-736`. The saved records are taken out during the loop and
put back only if no record failed. -/
def flightResend (env : Env) : E Unit := fun s =>
  M.bind (resendLoop env s.saved) (fun es => M.modify fun t => { t with saved := es })
    { s with saved := [], sealedDg := true }

/-! ## Keys -/

/-- `flight_begin`, `src/dtls13/engine.rs:668-673`; also the start of `create_key_update`,
`:1914-1916`. -/
def flightBegin (env : Env) (s : Eng) : Eng :=
  { s with timers := s.timers.begin (env.jitter s.tick), saved := [], tick := s.tick + 1 }

/-- `flight_stop_resend_timers`, `src/dtls13/engine.rs:675-679`. -/
def flightStop (s : Eng) : Eng := { s with timers := s.timers.stop }

/-- `cancel_flights`, `src/dtls13/engine.rs:1276-1281`. -/
def cancelFlights (s : Eng) : Eng := { s with saved := [], timers := s.timers.stop, ackDeadline := none }

/-- `abort`, `src/dtls13/engine.rs:1285-1291`. -/
def abort (s : Eng) : Eng :=
  { s with tx := [], saved := [], timers := s.timers.stop, ackDeadline := none }

/-- `derive_epoch_keys`, `src/dtls13/engine.rs:1961-2012`: panics without a known suite. -/
def deriveEpochKeys (env : Env) (secret : Bytes) : E Keys := fun s =>
  match s.suite, s.tag env with
  | some suite, some _ =>
    match env.epochKeys suite secret with
    | some k => (.ok k, s)
    | none => (.fail (.fatal .crypto), s)
  | _, _ => (.fail .panic, s)

/-- `derive_next_traffic_secret`, `src/dtls13/engine.rs:1829-1848`. -/
def deriveNextSecret (env : Env) (secret : Bytes) : E Bytes := fun s =>
  match s.suite with
  | some suite =>
    match env.nextSecret suite secret with
    | some x => (.ok x, s)
    | none => (.fail (.fatal .crypto), s)
  | none => (.fail .panic, s)

/-- `install_handshake_keys`, `src/dtls13/engine.rs:1698-1716`. -/
def installHandshakeKeys (env : Env) (client server : Bytes) : E Unit :=
  M.bind M.get fun s =>
  M.bind (deriveEpochKeys env (if s.isClient then client else server)) fun k =>
  M.bind (M.modify fun s => { s with hsSend := some k }) fun _ =>
  M.bind (deriveEpochKeys env (if s.isClient then server else client)) fun k =>
  M.modify fun s => { s with hsRecv := some k, hsSeq := 0 }

/-- `install_application_keys`, `src/dtls13/engine.rs:1800-1825`. The push panics if four receive
epochs are already held. -/
def installApplicationKeys (env : Env) (client server : Bytes) : E Unit :=
  M.bind M.get fun s =>
  M.bind (deriveEpochKeys env (if s.isClient then client else server)) fun k =>
  M.bind (M.modify fun s => { s with appSend := some k }) fun _ =>
  M.bind (deriveEpochKeys env (if s.isClient then server else client)) fun k =>
  M.bind M.get fun s =>
  if s.appRecv.length ≥ 4 then M.panic
  else M.modify fun s =>
    { s with appRecv := s.appRecv ++ [{ epoch := 3, keys := k, expected := 0, replay := .new }]
             appEpoch := 3, appSeq := 0 }

/-- The new send state of `update_send_keys`, `src/dtls13/engine.rs:1863-1876`. -/
def rotateSend (env : Env) (current new : Keys) (s : Eng) : Eng :=
  { s with prevSend := some current, prevEpoch := s.appEpoch, prevSeq := s.appSeq,
           appSend := some new, appEpoch := s.appEpoch + 1, appSeq := 0, sendCount := 0,
           threshold := Seq13.jitteredThreshold s.cfg.aeadLimit (env.randNat s.tick),
           tick := s.tick + 1, needsKu := false, log := .rotated s.appEpoch :: s.log }

/-- `update_send_keys`, `src/dtls13/engine.rs:1851-1879`. The current keys are taken out first and lost
if a derivation fails. -/
def updateSendKeys (env : Env) : E Unit := fun s =>
  match s.appSend with
  | none => (.fail (.fatal .invalidState), s)
  | some current =>
    M.bind (deriveNextSecret env current.secret)
      (fun secret => M.bind (deriveEpochKeys env secret) fun new =>
        M.bind M.get fun t =>
          if t.appEpoch ≥ 65535 then M.panic else M.modify (rotateSend env current new))
      { s with appSend := none }

/-- `update_recv_keys`, `src/dtls13/engine.rs:1881-1907`. -/
def updateRecvKeys (env : Env) : E Unit := fun s =>
  match s.appRecv.getLast? with
  | none => (.fail (.fatal .invalidState), s)
  | some latest =>
    M.bind (deriveNextSecret env latest.keys.secret)
      (fun secret =>
        if latest.epoch ≥ 65535 then M.panic
        else M.bind (deriveEpochKeys env secret) fun k =>
          M.modify fun s =>
            let kept := if s.appRecv.length ≥ 4 then s.appRecv.drop 1 else s.appRecv
            { s with appRecv := kept ++
                [{ epoch := latest.epoch + 1, keys := k, expected := 0, replay := .new }] })
      s

/-- The KeyUpdate message, `src/dtls13/engine.rs:1926-1936`. -/
def keyUpdateMsg (seq : Nat) (requested : Bool) : Bytes :=
  serializeHs { msgType := mtKeyUpdate, length := 1, messageSeq := seq, fragOff := 0, fragLen := 1 }
    [if requested then 1 else 0]

/-- `create_key_update`, `src/dtls13/engine.rs:1912-1946`. -/
def createKeyUpdate (env : Env) (requested : Bool) : E Unit :=
  M.bind (M.modify (flightBegin env)) fun _ =>
  M.bind M.get fun s =>
  if s.nextSeq ≥ 65535 then M.panic
  else
    M.bind (M.modify fun s => { s with nextSeq := s.nextSeq + 1 }) fun _ =>
    M.bind (createCipher env ctHandshake s.appEpoch true (keyUpdateMsg s.nextSeq requested)) fun _ =>
    M.modify fun t =>
      { t with kuInFlight := true, log := .keyUpdate s.appEpoch requested :: t.log }

/-! ## ACKs -/

/-- The body of an ACK, `src/dtls13/engine.rs:1322-1329, 1577-1583`. -/
def ackBody (numbers : List (Nat × Nat)) : Bytes :=
  beBytes 2 (numbers.length * 16) ++ numbers.flatMap fun n => beBytes 8 n.1 ++ beBytes 8 n.2

/-- `send_ack_inner`, `src/dtls13/engine.rs:1310-1331`. -/
def sendAckInner (env : Env) (save : Bool) : E Unit := fun s =>
  if s.received.isEmpty then (.ok (), s)
  else createCipher env ctAck (if s.appSend.isSome then s.appEpoch else 2) save (ackBody s.received)
    { s with received := [] }

/-- `send_ack`, `src/dtls13/engine.rs:1299-1301`. -/
def sendAck (env : Env) : E Unit := sendAckInner env false

/-- `send_ack_retransmittable`, `src/dtls13/engine.rs:1303-1308`. -/
def sendAckRetransmittable (env : Env) : E Unit := fun s =>
  sendAckInner env true (if s.received.isEmpty then s else { s with saved := [] })

/-- The record numbers listed in an ACK, `src/dtls13/engine.rs:1346-1362`. -/
def ackNumbers : Nat → Bytes → List (Nat × Nat)
  | 0, _ => []
  | n + 1, bs => (ofBe (bs.take 8), ofBe ((bs.drop 8).take 8)) :: ackNumbers n (bs.drop 16)

/-- Marking, `src/dtls13/engine.rs:1364-1369`. -/
def markAcked (numbers : List (Nat × Nat)) (e : Entry) : Entry :=
  if numbers.any fun n => e.epoch == n.1 && e.sendSeq == n.2 then { e with acked := true } else e

/-- The numbers of a well-formed ACK, `src/dtls13/engine.rs:1334-1346`. -/
def parseAck (data : Bytes) : Option (List (Nat × Nat)) :=
  if data.length < 2 then none
  else
    let len := ofBe (data.take 2)
    let entries := data.drop 2
    if entries.length ≠ len ∨ len % 16 ≠ 0 then none else some (ackNumbers (len / 16) entries)

/-- The end of the handshake flight, `src/dtls13/engine.rs:1372-1384`. -/
def ackHandshakeFlight (s : Eng) : Eng :=
  if s.saved.any (·.epoch == 2) && (s.saved.filter (·.epoch == 2)).all (·.acked) then
    { s with timers := { s.timers with flight := .disabled }, saved := [] }
  else s

/-- The end of a KeyUpdate, `src/dtls13/engine.rs:1388-1398`. -/
def ackKeyUpdate (env : Env) : E Unit := fun s =>
  if s.kuInFlight && !s.saved.isEmpty && s.saved.all (·.acked) then
    M.bind (updateSendKeys env)
      (fun _ => M.modify fun s =>
        { s with prevSend := none, kuInFlight := false, saved := []
                 timers := { s.timers with flight := .disabled } }) s
  else (.ok (), s)

/-- `process_ack`, `src/dtls13/engine.rs:1333-1401`. -/
def processAck (env : Env) (data : Bytes) : E Unit := fun s =>
  match parseAck data with
  | none => (.ok (), s)
  | some numbers =>
    ackKeyUpdate env (ackHandshakeFlight { s with saved := s.saved.map (markAcked numbers) })

/-! ## Receiving: `src/dtls13/incoming.rs` -/

/-- `Record::is_handled`, `src/dtls13/incoming.rs:329-335`. -/
def Rx.isHandled (r : Rx) : Bool :=
  if r.hss.isEmpty then r.handled else r.hss.all (·.handled)

/-- Handshakes of a record, `src/dtls13/incoming.rs:372-377, 391-396`. -/
def recHss (r : Rec13) : List Hs := if r.ctype = ctHandshake then parseHandshakes 8 r.fragment else []

/-- Receive keys of an epoch, `src/dtls13/engine.rs:2476-2484, 2512-2519`. -/
def Eng.recvKeys (s : Eng) (epoch : Nat) : Option Keys :=
  if epoch = 2 then s.hsRecv else (s.appRecv.find? (·.epoch == epoch)).map (·.keys)

/-- `resolve_epoch`, `src/dtls13/engine.rs:2381-2410`. -/
def Eng.resolveEpoch (s : Eng) (bits : Nat) : Nat :=
  if s.hsRecv.isSome && bits == 2 && !s.release then 2
  else match (s.appRecv.filter fun e => e.epoch % 4 == bits).getLast? with
    | some e => e.epoch
    | none => bits

/-- `resolve_sequence`, `src/dtls13/engine.rs:2412-2425`. -/
def Eng.resolveSeq (s : Eng) (epoch bits : Nat) (sFlag : Bool) : Nat :=
  Seq13.reconstruct bits
    (if epoch = 2 then s.hsExpected
     else ((s.appRecv.find? (·.epoch == epoch)).map (·.expected)).getD 0)
    (if sFlag then 16 else 8)

/-- `replay_check`, `src/dtls13/engine.rs:2427-2437`. -/
def Eng.replayCheck (s : Eng) (epoch seq : Nat) : Bool :=
  if epoch = 2 then s.hsReplay.check seq
  else match s.appRecv.find? (·.epoch == epoch) with
    | some e => e.replay.check seq
    | none => false

/-- `iter_mut().find(..)` with an update. -/
def updateFirst (epoch : Nat) (f : RecvEpoch → RecvEpoch) : List RecvEpoch → List RecvEpoch
  | [] => []
  | e :: rest => if e.epoch = epoch then f e :: rest else e :: updateFirst epoch f rest

/-- `replay_update`, `src/dtls13/engine.rs:2439-2463`. -/
def Eng.replayUpdate (s : Eng) (epoch seq : Nat) : Eng :=
  if epoch = 2 then
    { s with hsReplay := s.hsReplay.update seq, hsExpected := max s.hsExpected (seq + 1) }
  else
    let f := fun e : RecvEpoch =>
      { e with replay := e.replay.update seq, expected := max e.expected (seq + 1) }
    { s with appRecv := updateFirst epoch f s.appRecv }

/-- Header length of a unified header, `src/dtls13/incoming.rs:196-200`. -/
def cipherHeaderLen (flags : UInt8) : Nat :=
  1 + (if flagS flags then 2 else 1) + (if flagL flags then 2 else 0)

/-- `decrypt_sequence_number`, `src/dtls13/engine.rs:2505-2528`, on a record. -/
def unmaskWith (m : UInt8 × UInt8) (slice : Bytes) : Bytes :=
  match slice with
  | f :: a :: rest =>
    if flagS f then
      match rest with
      | b :: rest' => f :: (a ^^^ m.1) :: (b ^^^ m.2) :: rest'
      | [] => slice
    else f :: (a ^^^ m.1) :: rest
  | _ => slice

/-- The record-number part of `Record::parse`, `src/dtls13/incoming.rs:191-223`. `none`: the suite
lookup panics. -/
def unmask (env : Env) (s : Eng) (slice : Bytes) : Option Bytes :=
  match slice with
  | [] => some []
  | f :: _ =>
    let hl := cipherHeaderLen f
    if slice.length ≥ hl + 16 then
      match s.recvKeys (s.resolveEpoch (epochBits f)) with
      | none => some slice
      | some k =>
        match s.suite, s.tag env with
        | some suite, some _ => some (unmaskWith (env.snMask suite k.sn ((slice.drop hl).take 16)) slice)
        | _, _ => none
    else some slice

/-- A record kept without decryption, `src/dtls13/incoming.rs:225-240` with `ParsedRecord::parse`,
`:366-384`. -/
def plainRx (buffer : Bytes) (r : Rec13) : Rx :=
  { buffer, rcd := r, hss := recHss r, handled := false, opened := false }

/-- The record after decryption, `src/dtls13/incoming.rs:295-314`. The rest of the buffer is left as it
was. -/
def openedRx (buffer : Bytes) (r : Rec13) (epoch seq : Nat) (plain : Bytes) (ct : UInt8)
    (content : Bytes) : Rx :=
  let rcd : Rec13 := { ctype := ct, epoch, seq, length := content.length % 65536,
                       headerLen := r.headerLen, fragment := content }
  { buffer := buffer.take r.headerLen ++ plain ++ (buffer.drop r.headerLen).drop plain.length
    rcd, hss := recHss rcd, handled := false, opened := true }

/-- After a successful open: `replay_update` and the log. -/
def noteOpened (s : Eng) (k : Keys) (aad cipher plain : Bytes) (epoch seq : Nat) : Eng :=
  { s.replayUpdate epoch seq with
    log := .opened k (nonceXor k.iv seq) aad cipher plain epoch seq :: s.log }

/-- The decryption part of `Record::parse`, `src/dtls13/incoming.rs:242-314`, with `decrypt_record`,
`src/dtls13/engine.rs:2469-2503`. `buffer` is the record with its number unmasked. -/
def openRecord (env : Env) (buffer : Bytes) (sFlag : Bool) (r : Rec13) : E (Option Rx) := fun s =>
  let epoch := s.resolveEpoch r.epoch
  let seq := s.resolveSeq epoch r.seq sFlag
  if !s.replayCheck epoch seq then (.ok none, s)
  else match s.tag env with
    | none => (.fail .panic, s)
    | some tag =>
      if buffer.length - r.headerLen < tag then (.ok none, s)
      else match s.recvKeys epoch with
        | none => (.ok none, s)
        | some k =>
          let aad := buffer.take r.headerLen
          let cipher := buffer.drop r.headerLen
          match env.dec k.key (nonceXor k.iv seq) aad cipher with
          | none => (.ok none, s)
          | some plain =>
            let s' := noteOpened s k aad cipher plain epoch seq
            match recoverInner plain with
            | none => (.ok none, s')
            | some (ct, content) => (.ok (some (openedRx buffer r epoch seq plain ct content)), s')

/-- First byte of a record, as flags. -/
def flagsOf (slice : Bytes) : UInt8 := slice.headD 0

/-- `Record::parse`, `src/dtls13/incoming.rs:179-315`. The indexing `buffer[0]` is safe: a slice found
by the boundary search is not empty. -/
def recordParse (env : Env) (slice : Bytes) : E (Option Rx) := fun s =>
  let isCipher := isCiphertextHeader (flagsOf slice) && s.peerEnc
  match (if isCipher then unmask env s slice else some slice) with
  | none => (.fail .panic, s)
  | some buffer =>
    match parse13 buffer with
    | .ok _ r => if isCipher then openRecord env buffer (flagS (flagsOf slice)) r s
                 else (.ok (some (plainRx buffer r)), s)
    | .panic => (.fail .panic, s)
    | _ => (.ok none, s)

/-- The loop of `Records::parse`, `src/dtls13/incoming.rs:76-147`. -/
def parseSlices (env : Env) : List Bytes → SplitEnd → List Rx → E (List Rx)
  | [], .incomplete, _ => M.transient
  | [], _, acc => M.pure acc
  | sl :: rest, e, acc => M.bind (recordParse env sl) fun r =>
      match r with
      | none => parseSlices env rest e acc
      | some rx => if acc.length ≥ 16 then M.transient else parseSlices env rest e (acc ++ [rx])

/-- `Ord` of `Sequence`, `src/types.rs:499-509`: epoch, then number. -/
def seqGt (a b : Nat × Nat) : Bool := decide (a.1 > b.1 ∨ (a.1 = b.1 ∧ a.2 > b.2))

/-- The alert part of `classify_record`, `src/dtls13/engine.rs:2348-2370`. -/
def classifyAlert (r : Rx) : E (Option Rx) := fun s =>
  match r.rcd.fragment[1]? with
  | none => (.ok none, s)
  | some d =>
    if d = 0 then (.ok none, { s with closeSeq := some (s.closeSeq.getD (r.rcd.epoch, r.rcd.seq)) })
    else if d = 90 then (.ok none, s)
    else (.fail (.fatal (.fatalAlert d)), s)

/-- Whether a record comes after the close_notify, `src/dtls13/engine.rs:2315-2320`. -/
def afterClose (s : Eng) (r : Rx) : Bool :=
  match s.closeSeq with
  | some c => seqGt (r.rcd.epoch, r.rcd.seq) c
  | none => false

/-- `classify_record`, `src/dtls13/engine.rs:2314-2378`. -/
def classify (env : Env) (r : Rx) : E (Option Rx) := fun s =>
  if afterClose s r then (.ok none, s)
  else if r.rcd.epoch = 0 ∧ s.peerEnc ∧ (r.rcd.ctype = ctAck ∨ r.rcd.ctype = ctAlert) then (.ok none, s)
  else if r.rcd.ctype = ctAck then
    M.bind (processAck env r.rcd.fragment) (fun _ => M.pure none) s
  else if r.rcd.ctype = ctAlert then classifyAlert r s
  else if r.rcd.ctype = ctCCS then (.ok none, s)
  else (.ok (some r), s)

/-- Classification loop, `src/dtls13/incoming.rs:149-156`. -/
def classifyAll (env : Env) : List Rx → List Rx → E (List Rx)
  | [], acc => M.pure acc
  | r :: rest, acc => M.bind (classify env r) fun o =>
      match o with
      | some r => classifyAll env rest (acc ++ [r])
      | none => classifyAll env rest acc

/-- `Records::parse`, `src/dtls13/incoming.rs:69-158`. -/
def recordsParse (env : Env) (packet : Bytes) : E (List Rx) :=
  M.bind (parseSlices env (split13 packet).1 (split13 packet).2 []) fun rs => classifyAll env rs []

/-! ## Receive queue -/

/-- Key of a queue entry for a handshake insertion, `src/dtls13/engine.rs:411-419`. -/
def hsKey (rs : List Rx) : Nat × Nat :=
  match rs.head?.bind (·.hss.head?) with
  | some h => (h.header.messageSeq, h.header.fragOff)
  | none => (65535, 4294967295)

/-- Sequence of an entry's first record, `src/dtls13/engine.rs:474-478`. -/
def seqKey (rs : List Rx) : Nat × Nat :=
  match rs.head? with
  | some r => (r.rcd.epoch, r.rcd.seq)
  | none => (0, 0)

/-- `first_handshake().and_then(dupe_triggers_resend)`. -/
def Rx.firstDupe (r : Rx) : Option Nat := r.hss.head?.bind fun h => dupeTriggersResend h.header

/-- The duplicate check, `src/dtls13/engine.rs:381-393`. -/
def maybeResend (env : Env) (rs : List Rx) : E Unit := fun s =>
  match rs.findSome? Rx.firstDupe with
  | some d => if d < s.peerSeq then flightResend env s else (.ok (), s)
  | none => (.ok (), s)

/-- Noting received record numbers, `src/dtls13/engine.rs:424-432`: an `ArrayVec` of capacity 32 whose
overflow is ignored. -/
def noteReceived (received : List (Nat × Nat)) (rs : List Rx) : List (Nat × Nat) :=
  (received ++ (rs.filter fun r => decide (r.rcd.epoch ≥ 2 ∧ r.rcd.ctype = ctHandshake)).map
    fun r => (r.rcd.epoch, r.rcd.seq)).take 32

/-- First handshake of a datagram. -/
def firstHs (rs : List Rx) : Option Hs := rs.head?.bind (·.hss.head?)

/-- Whether a queued duplicate is replaced, `src/dtls13/engine.rs:442-457`. -/
def shouldReplace (existing incoming : List Rx) : Bool :=
  (existing.head?.map (·.isHandled)).getD false ||
  (((firstHs existing).map fun h => decide (h.header.length ≠ h.header.fragLen)).getD false &&
   ((firstHs incoming).map fun h => decide (h.header.length = h.header.fragLen)).getD false)

/-- The queue search and insertion ending `insert_incoming_handshake`,
`src/dtls13/engine.rs:411-467`. -/
def insertHs (env : Env) (rs : List Rx) : E Unit := fun s =>
  let s1 := { s with tick := s.tick + 1 }
  match env.search s.tick (s.rx.map fun item => cmpPair (hsKey item) (hsKey rs)) with
  | .insertAt i => (.ok (), { s1 with rx := insertAt s.rx i rs, received := noteReceived s.received rs })
  | .at_ i =>
    match s.rx[i]? with
    | none => (.fail .panic, s1)
    | some existing =>
      if shouldReplace existing rs then
        (.ok (), { s1 with rx := s.rx.set i rs, received := noteReceived s.received rs })
      else (.ok (), s1)

/-- After the duplicate check, `src/dtls13/engine.rs:395-467`. -/
def insertHandshakeTail (env : Env) (rs : List Rx) (h : Hs) : E Unit := fun s =>
  if h.header.messageSeq < s.peerSeq then (.ok (), s)
  else if s.release ∧ h.header.msgType ≠ mtKeyUpdate then (.fail (.fatal .renegotiation), s)
  else insertHs env rs s

/-- `insert_incoming_non_handshake`, `src/dtls13/engine.rs:470-488`. -/
def insertBySeq (env : Env) (rs : List Rx) : E Unit := fun s =>
  let s1 := { s with tick := s.tick + 1 }
  match env.search s.tick (s.rx.map fun item => cmpPair (seqKey item) (seqKey rs)) with
  | .insertAt i => (.ok (), { s1 with rx := insertAt s.rx i rs })
  | .at_ _ => (.ok (), s1)

/-- `insert_incoming`, `src/dtls13/engine.rs:353-368`. -/
def insertIncoming (env : Env) (rs : List Rx) : E Unit := fun s =>
  if s.rx.length ≥ s.cfg.maxRx then (.fail (.fatal .receiveQueueFull), s)
  else match rs with
    | [] => (.ok (), s)
    | r :: _ =>
      match r.hss with
      | h :: _ => M.bind (maybeResend env rs) (fun _ => insertHandshakeTail env rs h) s
      | [] => insertBySeq env rs s

/-- `parse_packet`, `src/dtls13/engine.rs:343-351`. -/
def parsePacket (env : Env) (packet : Bytes) : E Unit :=
  M.bind (recordsParse env packet) fun rs =>
    match rs with
    | [] => M.pure ()
    | _ => insertIncoming env rs

/-- The re-parse loop of `enable_peer_encryption`, `src/dtls13/engine.rs:2147-2156`. -/
def reparse (env : Env) : List Bytes → E Unit
  | [] => M.pure ()
  | b :: rest => M.bind (parsePacket env b) fun _ => reparse env rest

/-- `enable_peer_encryption`, `src/dtls13/engine.rs:2130-2159`. -/
def enablePeerEncryption (env : Env) : E Unit := fun s =>
  let s := { s with peerEnc := true }
  match s.rx.findIdx? (fun i => i.any fun r => decide (r.rcd.epoch ≥ 2)) with
  | none => (.ok (), s)
  | some i =>
    let all := s.rx.drop i
    reparse env ((all.flatten.filter fun r => !r.isHandled).map (·.buffer)) { s with rx := s.rx.take i }

/-! ## Consuming handshake messages -/

/-- The iterator of `has_complete_handshake_with_seq` and of the two ACK checks,
`src/dtls13/engine.rs:747-755, 1413-1421, 1460-1468`. -/
def completeView (rx : List (List Rx)) : List Hs :=
  (((rx.flatten.dropWhile (·.isHandled)).take 50).flatMap (·.hss)).dropWhile (·.handled)

/-- How the fragment loop ends. -/
inductive Cover where
  | complete
  | gap
  | more
deriving DecidableEq, Repr

/-- The fragment loop of `has_complete_handshake_with_seq`, `src/dtls13/engine.rs:772-790`, and of the
ACK checks, `:1436-1456, 1483-1503`. -/
def cover (seq length : Nat) : List Hs → Nat → Cover
  | [], _ => .more
  | h :: rest, lastEnd =>
    if h.header.messageSeq ≠ seq then cover seq length rest lastEnd
    else if h.header.fragOff > lastEnd then .gap
    else
      let e := max lastEnd (h.header.fragOff + h.header.fragLen)
      if e = length then .complete else cover seq length rest e

/-- `has_complete_handshake`, `src/dtls13/engine.rs:738-791`. -/
def hasComplete (s : Eng) (wanted : UInt8) : Bool :=
  match completeView s.rx with
  | [] => false
  | first :: rest =>
    if first.header.messageSeq ≠ s.peerSeq then false
    else if first.header.msgType ≠ wanted then false
    else cover first.header.messageSeq first.header.length (first :: rest) 0 = .complete

/-- The iterator of `next_handshake`, `src/dtls13/engine.rs:820-826`. -/
def nextView (rx : List (List Rx)) : List Hs :=
  ((rx.flatten.dropWhile (·.isHandled)).flatMap (·.hss)).dropWhile (·.handled)

/-- The fragments `Handshake::defragment` takes, `src/dtls13/message/handshake.rs:182-196`. -/
def fragmentRun (first : Hs) (rest : List Hs) : List Hs :=
  first :: rest.takeWhile fun h =>
    h.header.msgType == first.header.msgType && h.header.messageSeq == first.header.messageSeq

/-- Overlap-tolerant assembly of the further fragments, `src/dtls13/message/handshake.rs:198-210`:
`done` is what is assembled, `end_` how far it reaches. -/
def assemble : List Hs → Nat → Bytes → Bytes
  | [], _, done => done
  | h :: rest, end_, done =>
    let skip := end_ - h.header.fragOff
    assemble rest (max end_ (h.header.fragOff + h.header.fragLen))
      (if skip < h.header.fragLen then done ++ h.body.drop skip else done)

/-- The assembled body, `src/dtls13/message/handshake.rs:176-210`. -/
def assembled (first : Hs) (run : List Hs) : Bytes :=
  assemble run (first.header.fragOff + first.header.fragLen) first.body

/-- `mark_handled`, `src/dtls13/message/handshake.rs:312-316`, as in `E12.markHss`. -/
def markRecs : Bool → Nat → List Rx → List Rx × Bool × Nat
  | started, n, [] => ([], started, n)
  | started, n, r :: rest =>
    let (hs, st, n') := E12.markHss started n r.hss
    let (rs, st', n'') := markRecs st n' rest
    ({ r with hss := hs } :: rs, st', n'')

/-- The whole queue. -/
def markQueue : Bool → Nat → List (List Rx) → List (List Rx)
  | _, _, [] => []
  | started, n, i :: rest =>
    let (rs, st, n') := markRecs started n i
    rs :: markQueue st n' rest

/-- Transcript bytes of a message, `src/dtls13/message/handshake.rs:262-266`,
`src/dtls13/engine.rs:1169-1174`: no message number and no fragment fields. -/
def transcriptOf (t : UInt8) (length : Nat) (body : Bytes) : Bytes := t :: (beBytes 3 length ++ body)

/-- `Handshake::defragment_with_options`, `src/dtls13/message/handshake.rs:160-282`. -/
def defragment (env : Env) (allowUnknown intoTranscript : Bool) (first : Hs) (rest : List Hs) :
    E (Option Body) := fun s =>
  let run := fragmentRun first rest
  if run.length > 50 then (.fail .transient, s)
  else
    let body := assembled first run.tail
    if body.length ≠ first.header.length then (.fail .transient, s)
    else
      let marked := { s with rx := markQueue false run.length s.rx }
      match parseBody env allowUnknown first.header.msgType s.suite body with
      | none => (.fail .transient, marked)
      | some (left, b) =>
        if !left.isEmpty && !isUnknownType first.header.msgType then (.fail .transient, marked)
        else (.ok (some b), { marked with
            transcript := if intoTranscript
              then s.transcript ++ transcriptOf first.header.msgType first.header.length body
              else s.transcript
            log := .taken first.header.messageSeq first.header.msgType body :: s.log })

/-- `next_handshake_with_options`, `src/dtls13/engine.rs:809-841`, and `next_handshake_no_transcript`,
`:845-872`. -/
def nextHandshakeWith (env : Env) (allowUnknown intoTranscript : Bool) (wanted : UInt8) :
    E (Option Body) := fun s =>
  if !hasComplete s wanted then (.ok none, s)
  else match nextView s.rx with
    | [] => (.fail .panic, s)
    | first :: rest => defragment env allowUnknown intoTranscript first rest s

def nextHandshake (env : Env) (wanted : UInt8) : E (Option Body) :=
  nextHandshakeWith env false true wanted

/-- `advance_peer_handshake_seq`, `src/dtls13/engine.rs:879-881`. -/
def advancePeerSeq : E Unit := fun s =>
  if s.peerSeq ≥ 65535 then (.fail .panic, s)
  else (.ok (), { s with peerSeq := s.peerSeq + 1, log := .accepted s.peerSeq :: s.log })

/-! ## Sending handshake messages -/

/-- Overhead of a handshake record besides its body bytes, `src/dtls13/engine.rs:1180-1206`. -/
def fixedOverhead (epoch tag : Nat) : Nat := if epoch = 0 then 13 + 12 else 5 + 12 + (tag + 1)

/-- Body bytes that go into the next fragment, `src/dtls13/engine.rs:1192-1221`. -/
def chunkLen (s : Eng) (fixed total offset : Nat) : Nat :=
  let used := (s.tx.getLast?.map List.length).getD 0
  let available := s.cfg.mtu - used
  let forBody := if available > fixed then available - fixed else s.cfg.mtu - fixed
  if total = 0 then 0 else min (total - offset) forBody

/-- The bytes of a fragment, `src/dtls13/engine.rs:1223-1238`. -/
def fragmentBytes (t : UInt8) (seq : Nat) (body : Bytes) (offset chunk : Nat) : Bytes :=
  serializeHs { msgType := t, length := body.length, messageSeq := seq, fragOff := offset,
                fragLen := chunk } ((body.drop offset).take chunk)

/-- A handshake record in its epoch, `src/dtls13/engine.rs:1240-1248`. -/
def createHsRecord (env : Env) (epoch : Nat) (fragment : Bytes) : E Unit :=
  if epoch = 0 then createPlain ctHandshake true fragment
  else createCipher env ctHandshake epoch true fragment

/-- The fragmentation loop of `create_handshake`, `src/dtls13/engine.rs:1190-1256`. A chunk of 0 bytes
of a non-empty message repeats forever (until the saved records overflow). -/
def fragmentLoop (env : Env) (t : UInt8) (seq epoch fixed : Nat) (body : Bytes) : Nat → Nat → E Unit
  | 0, _ => M.fail .diverge
  | fuel + 1, offset =>
    if offset < body.length ∨ (body.length = 0 ∧ offset = 0) then
      M.bind M.get fun s =>
        let chunk := chunkLen s fixed body.length offset
        M.bind (createHsRecord env epoch (fragmentBytes t seq body offset chunk)) fun _ =>
          if body.length = 0 then M.pure ()
          else fragmentLoop env t seq epoch fixed body fuel (offset + chunk)
    else M.pure ()

/-- `create_handshake`, `src/dtls13/engine.rs:1151-1260`, with the body as written by `f`. -/
def createHandshake (env : Env) (t : UInt8) (body : Bytes) : E Unit := fun s =>
  let s1 := { s with transcript := s.transcript ++ transcriptOf t body.length body }
  if s.nextSeq ≥ 65535 then (.fail .panic, s1)
  else
    let s2 := { s1 with nextSeq := s.nextSeq + 1 }
    let epoch := msgEpoch t
    match (if epoch = 0 then some 0 else s.tag env) with
    | none => (.fail .panic, s2)
    | some tag => fragmentLoop env t s.nextSeq epoch (fixedOverhead epoch tag) body
        (body.length + 14) 0 s2

/-! ## The rest -/

/-- `release_application_data`, `src/dtls13/engine.rs:1259-1262`. -/
def releaseAppData (s : Eng) : Eng := { s with release := true, hsRecv := none }

/-- `release_application_data_retaining_handshake_keys`, `src/dtls13/engine.rs:1264-1266`. -/
def releaseRetaining (s : Eng) : Eng := { s with release := true }

/-- `reset_for_hello_retry`, `src/dtls13/engine.rs:1948-1958`. -/
def resetForHelloRetry (s : Eng) : Eng :=
  { s with hsSeq := 0, ackDeadline := none
           rx := s.rx.filter fun i => !((i.head?.map (·.isHandled)).getD false) }

/-- `replace_transcript_with_message_hash`, `src/dtls13/engine.rs:2101-2126`. `none`: no suite, or the
slice is out of range. -/
def replaceTranscript (env : Env) (splitAt : Nat) : E Unit := fun s =>
  match s.suite with
  | none => (.fail .panic, s)
  | some suite =>
    if s.transcript.length < splitAt then (.fail .panic, s)
    else
      let h := env.hash suite (s.transcript.take splitAt)
      (.ok (), { s with transcript := transcriptOf 0xFE h.length h ++ s.transcript.drop splitAt })

/-- `handshake_in_progress`, `src/dtls13/engine.rs:1407-1409`. -/
def inProgress (s : Eng) : Bool := s.hsSend.isSome && s.appSend.isNone && !s.release

/-- `handshake_ack_help_needed`, `src/dtls13/engine.rs:1412-1457`. -/
def helpNeeded (s : Eng) : Bool :=
  match completeView s.rx with
  | [] => false
  | first :: rest =>
    if first.header.messageSeq ≠ s.peerSeq then true
    else decide (cover first.header.messageSeq first.header.length (first :: rest) 0 ≠ .complete)

/-- `has_gap_in_incoming_handshake`, `src/dtls13/engine.rs:1459-1503`. -/
def hasGap (s : Eng) : Bool :=
  match completeView s.rx with
  | [] => false
  | first :: rest =>
    if first.header.messageSeq ≠ s.peerSeq then true
    else decide (cover first.header.messageSeq first.header.length (first :: rest) 0 = .gap)

/-- `maybe_schedule_handshake_ack`, `src/dtls13/engine.rs:1505-1534`. -/
def scheduleAck (now : Nat) (s : Eng) : Eng :=
  if !inProgress s then { s with ackDeadline := none }
  else if s.ackDeadline.isSome then s
  else if !helpNeeded s then s
  else { s with ackDeadline := some (now + if hasGap s then 0 else s.timers.backoff.rtoNow / 4) }

/-- The record numbers acknowledged during the handshake, `src/dtls13/engine.rs:1546-1557`. -/
def bufferedNumbers (s : Eng) : List (Nat × Nat) :=
  ((s.rx.flatten.filter fun r => decide (r.rcd.epoch = 2 ∧ r.rcd.ctype = ctHandshake)).map
    fun r => (r.rcd.epoch, r.rcd.seq)).take 32

/-- `maybe_flush_handshake_ack`, `src/dtls13/engine.rs:1536-1566`, with `send_handshake_ack_epoch2`,
`:1568-1587`. -/
def flushAck (env : Env) (now : Nat) : E Unit := fun s =>
  match s.ackDeadline with
  | none => (.ok (), s)
  | some d =>
    if now < d then (.ok (), s)
    else
      let s1 := { s with ackDeadline := none }
      if (bufferedNumbers s).isEmpty then (.ok (), s1)
      else if !inProgress s then (.ok (), s1)
      else createCipher env ctAck 2 false (ackBody (bufferedNumbers s)) s1

/-- The end of `handle_timeout`, `src/dtls13/engine.rs:534-537`. -/
def ackDuty (env : Env) (now : Nat) : E Unit := fun s => flushAck env now (scheduleAck now s)

/-- `handle_timeout`, `src/dtls13/engine.rs:490-538`. -/
def handleTimeout (env : Env) (now : Nat) : E Unit := fun s =>
  let (t, fired) := s.timers.handle s.cfg.handshakeTimeout now (env.jitter s.tick)
  let s1 := { s with timers := t, tick := s.tick + 1 }
  match fired with
  | .connectTimeout => (.fail (.fatal .timeoutConnect), s1)
  | .handshakeTimeout => (.fail (.fatal .timeoutHandshake), s1)
  | .idle => (.ok (), s1)
  | .waiting => ackDuty env now s1
  | .resend => M.bind (flightResend env) (fun _ => ackDuty env now) s1

/-! ## Output -/

/-- `purge_handled_queue_rx`, `src/dtls13/engine.rs:602-616`. -/
def purge (s : Eng) : Eng := { s with rx := s.rx.dropWhile fun i => i.all (·.isHandled) }

/-- Mark the record `poll_app_data` returned: the first unhandled application data record. -/
def markAppRec : List Rx → List Rx × Bool
  | [] => ([], false)
  | r :: rest =>
    if r.rcd.ctype = ctAppData ∧ r.isHandled = false then ({ r with handled := true } :: rest, true)
    else
      let (rs, d) := markAppRec rest
      (r :: rs, d)

/-- The whole queue. -/
def markApp : List (List Rx) → List (List Rx)
  | [] => []
  | i :: rest =>
    let (rs, d) := markAppRec i
    if d then rs :: rest else rs :: markApp rest

/-- The record `poll_app_data` looks at, `src/dtls13/engine.rs:572-582`. -/
def nextApp (s : Eng) : Option Rx :=
  ((s.rx.flatten.filter fun r => decide (r.rcd.ctype = ctAppData)).dropWhile (·.isHandled)).head?

/-- `poll_timeout`, `src/dtls13/engine.rs:637-666`. -/
def pollTimeout (now : Nat) (s : Eng) : Nat :=
  if s.timers.connect = .disabled ∧ s.timers.flight = .disabled ∧ s.ackDeadline = none then
    now + distantFuture
  else
    let t := match s.timers.connect, s.timers.flight with
      | .armed c, .armed f => if c < f then c else f
      | .armed c, _ => c
      | _, .armed f => f
      | _, _ => now + distantFuture
    match s.ackDeadline with
    | some d => if d < t then d else t
    | none => t

/-- What the engine's `poll_output` returns is the same in both versions. -/
abbrev Out := E12.Out

/-- The part of `poll_output` after application data, `src/dtls13/engine.rs:549-565`, with
`poll_packet_tx`, `:618-635`. -/
def pollRest (bufLen now : Nat) (s : Eng) : Out × Eng :=
  let s := scheduleAck now s
  match s.tx with
  | p :: rest =>
    if p.length > bufLen then (.bufferTooSmall p.length, s)
    else (.packet p, { s with tx := rest, log := .sent p :: s.log })
  | [] =>
    if s.closeSeq.isSome && !s.closeReported then (.closeNotify, { s with closeReported := true })
    else (.timeout (pollTimeout now s), s)

/-- `poll_output`, `src/dtls13/engine.rs:540-566`, with `poll_app_data`, `:567-600`. -/
def pollOutput (bufLen now : Nat) (s : Eng) : Out × Eng :=
  let s := purge s
  if s.release then
    match nextApp s with
    | some r =>
      if r.rcd.fragment.length > bufLen then (.bufferTooSmall r.rcd.fragment.length, s)
      else (.appData r.rcd.fragment,
        { s with rx := markApp s.rx, log := .delivered r.rcd r.opened :: s.log })
    | none => pollRest bufLen now s
  else pollRest bufLen now s

end Verif.E13
