import Verif.Model.Monad
import Verif.Model.Wire
import Verif.Model.Window
import Verif.Model.Timer
import Verif.Model.Aead
/-!
# The DTLS 1.2 engine (`src/dtls12/engine.rs`, `src/dtls12/incoming.rs`, `Handshake::defragment`)

Function by function. Cryptography, the random number generator and the parsers of handshake bodies
are parameters (`Env`). Simplifications common to the file:

* Buffer pools and logging are dropped.
* A record carries its fragment bytes instead of a range into its buffer.
* `log` is a ghost field: no function reads it; it records what the properties talk about.
* `tick` counts the uses of outside non-determinism (random draws, queue search), so that each use
  may have a different outcome.
-/
namespace Verif.E12
open Verif Wire Window Timer Aead

/-! ## Handshake bodies -/

/-- `ClientHello`, `src/dtls12/message/client_hello.rs`. An extension is its type and data. -/
structure ClientHello where
  version : Nat
  random : Bytes
  sessionId : Bytes
  cookie : Bytes
  suites : List Nat
  compressions : List UInt8
  exts : List (Nat × Bytes)
deriving DecidableEq, Repr

/-- `ServerHello`, `src/dtls12/message/server_hello.rs`. -/
structure ServerHello where
  version : Nat
  random : Bytes
  sessionId : Bytes
  suite : Nat
  compression : UInt8
  exts : Option (List (Nat × Bytes))
deriving DecidableEq, Repr

/-- `ServerKeyExchange`, `src/dtls12/message/server_key_exchange.rs`. `sig = none`: no signature. -/
inductive ServerKx where
  | ecdh (curve : UInt8) (group : Nat) (pub : Bytes) (sig : Option (Nat × Bytes))
  | psk (hint : Bytes)
deriving DecidableEq, Repr

/-- `ClientKeyExchange`, `src/dtls12/message/client_key_exchange.rs`. -/
inductive ClientKx where
  | ecdh (pub : Bytes)
  | psk (identity : Bytes)
deriving DecidableEq, Repr

/-- `enum Body`, `src/dtls12/message/handshake.rs:408-424` (without `Fragment`, which is `Wire.Hs`). -/
inductive Body where
  | helloRequest
  | clientHello (h : ClientHello)
  | helloVerifyRequest (version : Nat) (cookie : Bytes)
  | serverHello (h : ServerHello)
  | certificate (certs : List Bytes)
  | serverKeyExchange (k : ServerKx)
  | certificateRequest (hashes : List UInt8)
  | serverHelloDone
  | certificateVerify (alg : Nat) (sig : Bytes)
  | clientKeyExchange (k : ClientKx)
  | newSessionTicket (ticket : Bytes)
  | finished (verifyData : Bytes)
  | unknown (t : UInt8)
deriving DecidableEq, Repr

/-- `MessageType` wire values, `src/dtls12/message/handshake.rs:335-346`. -/
abbrev mtHelloRequest : UInt8 := 0
abbrev mtClientHello : UInt8 := 1
abbrev mtServerHello : UInt8 := 2
abbrev mtHelloVerifyRequest : UInt8 := 3
abbrev mtNewSessionTicket : UInt8 := 4
abbrev mtCertificate : UInt8 := 11
abbrev mtServerKeyExchange : UInt8 := 12
abbrev mtCertificateRequest : UInt8 := 13
abbrev mtServerHelloDone : UInt8 := 14
abbrev mtCertificateVerify : UInt8 := 15
abbrev mtClientKeyExchange : UInt8 := 16
abbrev mtFinished : UInt8 := 20

/-- `MessageType::is_unknown`, `src/dtls12/message/handshake.rs:356-358`. -/
def isUnknownType (t : UInt8) : Bool :=
  !(t ≤ 4 || (11 ≤ t && t ≤ 16) || t == 20)

/-- `MessageType::epoch`, `src/dtls12/message/handshake.rs:371-377`. -/
def msgEpoch (t : UInt8) : Nat := if t == mtNewSessionTicket || t == mtFinished then 1 else 0

/-- `Handshake::dupe_triggers_resend`, `src/dtls12/message/handshake.rs:298-314`. -/
def dupeTriggersResend (h : HsHeader) : Option Nat :=
  if h.fragOff ≠ 0 then none
  else if h.msgType == mtClientHello || h.msgType == mtHelloVerifyRequest
      || h.msgType == mtServerHelloDone || h.msgType == mtClientKeyExchange
  then some h.messageSeq else none

/-! ## Environment -/

/-- Result of `VecDeque::binary_search_by`. -/
inductive Found where
  | at_ (i : Nat)
  | insertAt (i : Nat)
deriving DecidableEq, Repr

/-- What the standard library promises of a binary search over elements comparing as `cs` to the
wanted key: a reported match is one; an insertion point is within bounds; and if the elements are in
order, an insertion point is only reported when no element matches and then separates the smaller from
the greater elements. On a deque that is not in order nothing else is promised. -/
def SearchOk (search : Nat → List Ordering → Found) : Prop :=
  ∀ k cs,
    match search k cs with
    | .at_ i => cs[i]? = some .eq
    | .insertAt i => i ≤ cs.length ∧
        (cs.Pairwise (fun a b => a.ctorIdx ≤ b.ctorIdx) →
          (∀ c ∈ cs.take i, c = .lt) ∧ (∀ c ∈ cs.drop i, c = .gt))

/-- Keys of `CryptoContext` (`src/dtls12/context.rs:31-41`), all set together by `derive_keys`. -/
structure Keys where
  clientKey : Bytes
  serverKey : Bytes
  clientIv : Bytes
  serverIv : Bytes
deriving DecidableEq, Repr

/-- Everything the engine takes from outside its own code: AEAD (`Cipher::encrypt`/`decrypt`,
`src/crypto/provider.rs`), the PRF outputs, the random numbers, the body parsers
(`Body::parse`, `src/dtls12/message/handshake.rs:432-500`; each returns the unconsumed rest) and the
cipher-suite parameters of the provider (`explicit_nonce_len`, `min_protected_fragment_len`). -/
structure Env where
  enc : (key nonce aad plain : Bytes) → Option Bytes
  dec : (key nonce aad cipher : Bytes) → Option Bytes
  rand : Nat → Nat → Bytes
  jitter : Nat → Int
  search : Nat → List Ordering → Found
  suiteParams : Nat → Option (Nat × Nat)
  parseClientHello : Bytes → Option (Bytes × ClientHello)
  parseHelloVerify : Bytes → Option (Bytes × (Nat × Bytes))
  parseServerHello : Bytes → Option (Bytes × ServerHello)
  parseCertificate : Bytes → Option (Bytes × List Bytes)
  parseServerKx : Nat → Bytes → Option (Bytes × ServerKx)
  parseCertificateRequest : Bytes → Option (Bytes × List UInt8)
  parseCertificateVerify : Bytes → Option (Bytes × (Nat × Bytes))
  parseClientKx : Nat → Bytes → Option (Bytes × ClientKx)
  parseFinished : Nat → Bytes → Option (Bytes × Bytes)
  /-- `generate_verify_data`: master secret, whether for the client, transcript -/
  verifyData : (master : Bytes) → Bool → (transcript : Bytes) → Option Bytes
  /-- `derive_keys`: suite, master secret, client random, server random -/
  deriveKeys : Nat → Bytes → Bytes → Bytes → Option Keys

/-- `Body::parse`, `src/dtls12/message/handshake.rs:432-500`. -/
def parseBody (env : Env) (t : UInt8) (suite : Option Nat) (b : Bytes) : Option (Bytes × Body) :=
  if t = mtHelloRequest then some (b, .helloRequest)
  else if t = mtClientHello then (env.parseClientHello b).map fun (r, x) => (r, .clientHello x)
  else if t = mtHelloVerifyRequest then
    (env.parseHelloVerify b).map fun (r, x) => (r, .helloVerifyRequest x.1 x.2)
  else if t = mtServerHello then (env.parseServerHello b).map fun (r, x) => (r, .serverHello x)
  else if t = mtCertificate then (env.parseCertificate b).map fun (r, x) => (r, .certificate x)
  else if t = mtServerKeyExchange then
    suite.bind fun s => (env.parseServerKx s b).map fun (r, x) => (r, .serverKeyExchange x)
  else if t = mtCertificateRequest then
    (env.parseCertificateRequest b).map fun (r, x) => (r, .certificateRequest x)
  else if t = mtServerHelloDone then some (b, .serverHelloDone)
  else if t = mtCertificateVerify then
    (env.parseCertificateVerify b).map fun (r, x) => (r, .certificateVerify x.1 x.2)
  else if t = mtClientKeyExchange then
    suite.bind fun s => (env.parseClientKx s b).map fun (r, x) => (r, .clientKeyExchange x)
  else if t = mtNewSessionTicket then some ([], .newSessionTicket b)
  else if t = mtFinished then
    suite.bind fun s => (env.parseFinished s b).map fun (r, x) => (r, .finished x)
  else some (b, .unknown t)

/-! ## State -/

/-- `src/dtls12/incoming.rs:124-129, 263-267`, `Record` and `ParsedRecord`. `opened` is ghost: the
record was decrypted. -/
structure Rx where
  buffer : Bytes
  rcd : Rec12
  hss : List Hs
  handled : Bool
  opened : Bool
deriving DecidableEq, Repr

/-- `src/dtls12/engine.rs:120-125`, `struct Entry`. -/
structure Entry where
  ctype : UInt8
  epoch : Nat
  fragment : Bytes
deriving DecidableEq, Repr

/-- The configuration values the engine reads. -/
structure Cfg where
  mtu : Nat
  maxRx : Nat
  maxTx : Nat
  handshakeTimeout : Nat
  startRto : Nat
  retries : Nat
deriving DecidableEq, Repr

/-- Ghost events. -/
inductive Ev where
  /-- a record was sealed -/
  | sealed (key nonce : Bytes) (ctype : UInt8) (epoch seq : Nat)
  /-- a record was put on the transmit queue -/
  | queued (ctype : UInt8) (epoch seq : Nat) (plain : Bytes)
  /-- a record was opened with `key` -/
  | opened (key nonce aad cipher plain : Bytes) (ctype : UInt8) (epoch seq : Nat)
  /-- a handshake message was consumed -/
  | consumed (seq : Nat) (t : UInt8) (body : Bytes)
  /-- application data was handed to the user -/
  | delivered (r : Rec12) (opened : Bool)
  /-- a datagram was handed to the user for transmission -/
  | sent (datagram : Bytes)
deriving DecidableEq, Repr

/-- `src/dtls12/engine.rs:21-108`, `struct Engine`. `sequence_epoch_0`/`_n` are their counters (their
epochs are the constants 0 and 1). Of `crypto_context` only the derived keys and the master secret are
kept. -/
structure Eng where
  cfg : Cfg
  isClient : Bool
  seq0 : Nat
  seqN : Nat
  rx : List (List Rx)
  tx : List Bytes
  suite : Option Nat
  explicitLen : Nat
  minProt : Nat
  keys : Option Keys
  master : Option Bytes
  peerEnc : Bool
  peerSeq : Nat
  nextSeq : Nat
  transcript : Bytes
  replay : ReplayWindow
  saved : List Entry
  timers : Timers
  release : Bool
  confirmed : Bool
  closeRecv : Bool
  closeReported : Bool
  tick : Nat
  log : List Ev
deriving DecidableEq, Repr

/-- `Engine::new`, `src/dtls12/engine.rs:131-170`, followed by `set_client`. -/
def Eng.new (env : Env) (cfg : Cfg) (isClient : Bool) : Eng :=
  { cfg, isClient, seq0 := 0, seqN := 0, rx := [], tx := [], suite := none, explicitLen := 0,
    minProt := 0, keys := none, master := none, peerEnc := false, peerSeq := 0, nextSeq := 0,
    transcript := [], replay := .new, saved := [],
    timers := .new cfg.startRto cfg.retries (env.jitter 0),
    release := false, confirmed := false, closeRecv := false, closeReported := false, tick := 1,
    log := [] }

abbrev E := M Eng

/-- Key and fixed IV this side seals with (`encrypt_data`, `src/dtls12/engine.rs:1047-1058`, and
`:800-804`). -/
def Eng.writeKey (s : Eng) : Option (Bytes × Bytes) :=
  s.keys.map fun k => if s.isClient then (k.clientKey, k.clientIv) else (k.serverKey, k.serverIv)

/-- Key and fixed IV this side opens with (`decrypt_data`, `src/dtls12/engine.rs:1061-1076`, and
`peer_iv`, `:1172-1182`). -/
def Eng.peerKey (s : Eng) : Option (Bytes × Bytes) :=
  s.keys.map fun k => if s.isClient then (k.serverKey, k.serverIv) else (k.clientKey, k.clientIv)

/-- Nonce of a record (`src/dtls12/engine.rs:818-837` when sealing, `:1192-1197` when opening).
`none`: the assertion on the IV length fails. -/
def recordNonce (explicitLen : Nat) (iv explicit : Bytes) (epoch seq : Nat) : Option Bytes :=
  if explicitLen = 0 then (if iv.length = 12 then some (nonceXor iv (seq64 epoch seq)) else none)
  else nonceNew iv explicit

/-! ## Receiving: `src/dtls12/incoming.rs` -/

/-- `Record::is_handled`, `src/dtls12/incoming.rs:244-250`. -/
def Rx.isHandled (r : Rx) : Bool :=
  if r.hss.isEmpty then r.handled else r.hss.all (·.handled)

/-- `ParsedRecord::parse`, `src/dtls12/incoming.rs:270-292`. -/
def parsedRecord (buffer : Bytes) (skip : Nat) (opened : Bool) : PRes Rx :=
  (parse12 buffer skip).bind fun rest rcd =>
  .ok rest { buffer, rcd, hss := if rcd.ctype = ctHandshake then parseHandshakes 8 rcd.fragment else [],
             handled := false, opened }

/-- The buffer after in-place decryption, `src/dtls12/incoming.rs:183-217`: length bytes rewritten,
plaintext over the ciphertext, the tail left as it was. -/
def openedBuffer (slice : Bytes) (explicitLen : Nat) (plain : Bytes) : Bytes :=
  slice.take 11 ++ beBytes 2 plain.length ++ (slice.drop 13).take explicitLen ++ plain
    ++ (slice.drop (13 + explicitLen)).drop plain.length

/-- AAD when opening, `src/dtls12/engine.rs:1184-1191`. -/
def openAad (s : Eng) (r : Rec12) : Bytes :=
  aad12 r.ctype r.epoch r.seq (r.length - s.minProt)

/-- After a successful open, `src/dtls12/incoming.rs:203-212` with `replay_update` and
`note_decrypted_record` (`src/dtls12/engine.rs:1346-1360`). -/
def noteOpened (s : Eng) (r : Rec12) (ev : Ev) : Eng :=
  { s with
    replay := s.replay.update r.seq
    confirmed := if r.ctype = ctAppData then true else s.confirmed
    log := ev :: s.log }

/-- Decryption part of `Record::parse`, `src/dtls12/incoming.rs:161-222`. -/
def openRecord (env : Env) (slice : Bytes) (r : Rec12) : E (Option Rx) := fun s =>
  if !s.replay.check r.seq then (.ok none, s)
  else if r.length < s.minProt then (.ok none, s)
  else match s.peerKey with
    | none => (.fail .panic, s)
    | some (key, iv) =>
      if slice.length < 13 + s.explicitLen then (.fail .panic, s)
      else match recordNonce s.explicitLen iv ((slice.drop 13).take s.explicitLen) r.epoch r.seq with
        | none => (.fail .panic, s)
        | some nonce =>
          let aad := openAad s r
          let cipher := slice.drop (13 + s.explicitLen)
          match env.dec key nonce aad cipher with
          | none => if s.release then (.ok none, s) else (.fail (.fatal .crypto), s)
          | some plain =>
            let s' := noteOpened s r (.opened key nonce aad cipher plain r.ctype r.epoch r.seq)
            match parsedRecord (openedBuffer slice s.explicitLen plain) s.explicitLen true with
            | .ok _ rx => (.ok (some rx), s')
            | .panic => (.fail .panic, s')
            | _ => (.fail .transient, s')

/-- `Record::parse`, `src/dtls12/incoming.rs:134-222`. -/
def recordParse (env : Env) (slice : Bytes) : E (Option Rx) := fun s =>
  match parsedRecord slice 0 false with
  | .ok _ rx =>
    if rx.rcd.epoch = 0 ∨ s.peerEnc = false then (.ok (some rx), s)
    else openRecord env slice rx.rcd s
  | .panic => (.fail .panic, s)
  | _ => (.ok none, s)

/-- The loop of `Records::parse`, `src/dtls12/incoming.rs:78-110`: the slices of the datagram are
parsed in order; then the loop ends as the boundary search ends. -/
def parseSlices (env : Env) : List Bytes → SplitEnd → List Rx → E (List Rx)
  | [], .done, acc => M.pure acc
  | [], _, _ => M.transient
  | sl :: rest, e, acc => M.bind (recordParse env sl) fun r =>
      match r with
      | none => parseSlices env rest e acc
      | some rx => if acc.length ≥ 8 then M.transient else parseSlices env rest e (acc ++ [rx])

/-- Alert level and description of a record (`src/dtls12/engine.rs:1278-1281, 1301-1304`). -/
def alertOf (r : Rec12) : Option (UInt8 × UInt8) :=
  match r.fragment with
  | l :: d :: _ => some (l, d)
  | _ => none

/-- `first_handshake().and_then(dupe_triggers_resend)`. -/
def Rx.firstDupe (r : Rx) : Option Nat := r.hss.head?.bind fun h => dupeTriggersResend h.header

/-- The alert part of `classify_record`, `src/dtls12/engine.rs:1268-1321`. -/
def classifyAlert (r : Rx) : E (Option Rx) := fun s =>
  if r.rcd.epoch = 0 then
    if s.peerEnc then (.ok none, s)
    else match alertOf r.rcd with
      | some (l, d) => if l = 2 then (.fail (.fatal (.fatalAlert d)), s) else (.ok none, s)
      | none => (.ok none, s)
  else if !s.peerEnc then (.ok (some r), s)
  else match alertOf r.rcd with
    | some (l, d) =>
      if d = 0 then (.ok none, { s with closeRecv := true })
      else if l = 2 then (.fail (.fatal (.fatalAlert d)), s)
      else (.ok none, s)
    | none => (.ok none, s)

/-- `classify_record`, `src/dtls12/engine.rs:1243-1332`. -/
def classify (r : Rx) : E (Option Rx) := fun s =>
  if r.rcd.ctype = ctCCS ∧ r.rcd.epoch = 0 ∧ s.peerEnc then (.ok none, s)
  else if r.rcd.ctype = ctHandshake ∧ r.rcd.epoch = 0 ∧ s.peerEnc ∧ r.firstDupe = none then (.ok none, s)
  else if r.rcd.ctype = ctAlert then classifyAlert r s
  else if s.closeRecv ∧ r.rcd.ctype = ctAppData then (.ok none, s)
  else (.ok (some r), s)

/-- Classification loop, `src/dtls12/incoming.rs:112-119`. -/
def classifyAll : List Rx → List Rx → E (List Rx)
  | [], acc => M.pure acc
  | r :: rest, acc => M.bind (classify r) fun o =>
      match o with
      | some r => classifyAll rest (acc ++ [r])
      | none => classifyAll rest acc

/-- `Records::parse`, `src/dtls12/incoming.rs:70-120`. -/
def recordsParse (env : Env) (packet : Bytes) : E (List Rx) :=
  M.bind (parseSlices env (split12 packet).1 (split12 packet).2 []) fun rs => classifyAll rs []

/-! ## Sending: records -/

/-- Explicit nonce of a record to be sent: drawn from the RNG for 8-byte explicit nonces,
`src/dtls12/engine.rs:820-825`. -/
def explicitNonce (env : Env) (s : Eng) : Bytes :=
  if s.explicitLen = 8 then env.rand s.tick 8 else []

/-- Wire overhead of protection for a record of `epoch`, `src/dtls12/engine.rs:766-772`. -/
def Eng.overhead (s : Eng) (epoch : Nat) : Nat := if epoch ≥ 1 then s.minProt else 0

/-- Whether the record fits the last queued datagram, `src/dtls12/engine.rs:775-780`. -/
def canAppend (s : Eng) (force : Bool) (wireLen : Nat) : Bool :=
  match s.tx.getLast? with
  | some b => !force && decide (b.length + wireLen ≤ s.cfg.mtu)
  | none => false

/-- Append to the last datagram or push a new one, `src/dtls12/engine.rs:871-880`. -/
def pushWire (tx : List Bytes) (append : Bool) (bytes : Bytes) : List Bytes :=
  if append then tx.dropLast ++ [tx.getLast?.getD [] ++ bytes] else tx ++ [bytes]

/-- `flight_saved_records.push`, `src/dtls12/engine.rs:754-762`. -/
def saveEntry (s : Eng) (save : Bool) (e : Entry) : Eng :=
  if save then { s with saved := s.saved ++ [e] } else s

/-- Final part of `create_record_inner`, `src/dtls12/engine.rs:855-884`: number, serialise, queue.
`fragment` is the fragment as it goes on the wire. -/
def emitRecord (s : Eng) (ctype : UInt8) (epoch : Nat) (append : Bool) (plain fragment : Bytes) : Eng :=
  let seq := if epoch = 0 then s.seq0 else s.seqN
  let r : Rec12 := { ctype, version := verDtls12, epoch := if epoch = 0 then 0 else 1, seq,
                     length := fragment.length % 65536, fragment }
  { s with
    tx := pushWire s.tx append (serialize12 r)
    seq0 := if epoch = 0 then s.seq0 + 1 else s.seq0
    seqN := if epoch = 0 then s.seqN else s.seqN + 1
    log := .queued ctype r.epoch seq plain :: s.log }

/-- Encryption part of `create_record_inner`, `src/dtls12/engine.rs:797-853`, for epoch at least 1. -/
def sealRecord (env : Env) (ctype : UInt8) (append : Bool) (fragment : Bytes) : E Unit := fun s =>
  match s.writeKey with
  | none => (.fail (.fatal .crypto), s)
  | some (key, iv) =>
    if s.explicitLen ≠ 0 ∧ s.explicitLen ≠ 8 then (.fail (.fatal .crypto), s)
    else
      let explicit := explicitNonce env s
      let s1 := { s with tick := s.tick + 1 }
      match recordNonce s.explicitLen iv explicit 1 s.seqN with
      | none => (.fail .panic, s1)
      | some nonce =>
        match env.enc key nonce (aad12 ctype 1 s.seqN (fragment.length % 65536)) fragment with
        | none => (.fail (.fatal .crypto), s1)
        | some c =>
          let s2 := { s1 with log := .sealed key nonce ctype 1 s.seqN :: s1.log }
          (.ok (), emitRecord s2 ctype 1 append fragment (explicit ++ c))

/-- `create_record_inner`, `src/dtls12/engine.rs:727-884`. The closure `f` only appends bytes; here it
is the resulting `fragment`. -/
def createRecord (env : Env) (ctype : UInt8) (epoch : Nat) (save force : Bool) (fragment : Bytes) :
    E Unit := fun s =>
  if epoch ≥ 1 ∧ s.suite = none then (.fail (.fatal .invalidState), s)
  else
    let s := saveEntry s save { ctype, epoch, fragment }
    let append := canAppend s force (13 + fragment.length + s.overhead epoch)
    if !append && decide (s.tx.length ≥ s.cfg.maxTx) then (.fail (.fatal .transmitQueueFull), s)
    else if epoch ≥ 1 then sealRecord env ctype append fragment s
    else (.ok (), emitRecord s ctype 0 append fragment fragment)

/-- The loop of `flight_resend`, `src/dtls12/engine.rs:574-587`. -/
def resendLoop (env : Env) : List Entry → Bool → E Unit
  | [], _ => M.pure ()
  | e :: rest, force => M.bind (createRecord env e.ctype e.epoch false force e.fragment) fun _ =>
      resendLoop env rest false

/-- `flight_resend`, `src/dtls12/engine.rs:561-593`. The saved records are taken out during the loop
and put back after it, also on error. -/
def flightResend (env : Env) : E Unit := fun s =>
  let s0 := { s with tx := if s.release then s.tx else [], saved := [] }
  let (r, s1) := resendLoop env s.saved (!s.release) s0
  (r, { s1 with saved := s.saved })

/-! ## Receive queue -/

/-- Order of queue entries for a handshake insertion, `src/dtls12/engine.rs:304-312`: key of an entry is
its first handshake's (message_seq, fragment_offset), or (u16::MAX, u32::MAX). -/
def hsKey (rs : List Rx) : Nat × Nat :=
  match rs.head?.bind (·.hss.head?) with
  | some h => (h.header.messageSeq, h.header.fragOff)
  | none => (65535, 4294967295)

/-- `Ord` of pairs: lexicographic. -/
def cmpPair (a b : Nat × Nat) : Ordering := (compare a.1 b.1).then (compare a.2 b.2)

/-- Sequence of an entry's first record (`Sequence`'s `Ord` is epoch, then number,
`src/types.rs:499-509`). -/
def seqKey (rs : List Rx) : Nat × Nat :=
  match rs.head? with
  | some r => (r.rcd.epoch, r.rcd.seq)
  | none => (0, 0)

/-- `VecDeque::insert`. -/
def insertAt {α : Type} (l : List α) (i : Nat) (a : α) : List α := l.take i ++ a :: l.drop i

/-- The queue search and insertion ending `insert_incoming_handshake`, `src/dtls12/engine.rs:304-322`. -/
def insertHs (env : Env) (rs : List Rx) : E Unit := fun s =>
  let s1 := { s with tick := s.tick + 1 }
  match env.search s.tick (s.rx.map fun item => cmpPair (hsKey item) (hsKey rs)) with
  | .insertAt i => (.ok (), { s1 with rx := insertAt s.rx i rs })
  | .at_ _ => (.ok (), s1)

/-- First number found among the records that triggers a resend if old, `src/dtls12/engine.rs:270-275`. -/
def firstDupeSeq (rs : List Rx) : Option Nat := rs.findSome? Rx.firstDupe

/-- The duplicate check, `src/dtls12/engine.rs:277-286`. -/
def maybeResend (env : Env) (rs : List Rx) : E Unit := fun s =>
  match firstDupeSeq rs with
  | some d => if d < s.peerSeq ∧ s.confirmed = false then flightResend env s else (.ok (), s)
  | none => (.ok (), s)

/-- After the duplicate check, `src/dtls12/engine.rs:288-322`. -/
def insertHandshakeTail (env : Env) (rs : List Rx) (h : Hs) (epoch : Nat) : E Unit := fun s =>
  if h.header.messageSeq < s.peerSeq then (.ok (), s)
  else if s.peerEnc ∧ epoch = 0 then (.ok (), s)
  else if s.release then (.fail (.fatal .renegotiation), s)
  else insertHs env rs s

/-- `Record::set_handled` or on each handshake, `src/dtls12/engine.rs:338-352`, for the epoch-0
handshake records of a datagram. -/
def markStaleHs (r : Rx) : Rx :=
  if r.rcd.epoch = 0 ∧ r.rcd.ctype = ctHandshake then
    if r.hss.isEmpty then { r with handled := true }
    else { r with hss := r.hss.map fun h => { h with handled := true } }
  else r

/-- The queue search and insertion ending `insert_incoming_non_handshake`,
`src/dtls12/engine.rs:354-369`; the assertion is a panic. -/
def insertBySeq (env : Env) (rs : List Rx) : E Unit := fun s =>
  let s1 := { s with tick := s.tick + 1 }
  match env.search s.tick (s.rx.map fun item => cmpPair (seqKey item) (seqKey rs)) with
  | .insertAt i => (.ok (), { s1 with rx := insertAt s.rx i rs })
  | .at_ _ => if (seqKey rs).1 = 0 then (.ok (), s1) else (.fail .panic, s1)

/-- `insert_incoming_non_handshake`, `src/dtls12/engine.rs:327-369`. -/
def insertNonHandshake (env : Env) (r : Rx) (rs : List Rx) : E Unit := fun s =>
  if s.peerEnc ∧ r.rcd.epoch = 0 ∧ r.rcd.ctype = ctHandshake then (.ok (), s)
  else insertBySeq env (if s.peerEnc then rs.map markStaleHs else rs) s

/-- `insert_incoming`, `src/dtls12/engine.rs:239-256`, for a datagram with records `r :: _ = rs`. -/
def insertIncoming (env : Env) (rs : List Rx) : E Unit := fun s =>
  if s.rx.length ≥ s.cfg.maxRx then (.fail (.fatal .receiveQueueFull), s)
  else match rs with
    | [] => (.ok (), s)
    | r :: _ =>
      match r.hss with
      | h :: _ => M.bind (maybeResend env rs) (fun _ => insertHandshakeTail env rs h r.rcd.epoch) s
      | [] => insertNonHandshake env r rs s

/-- `parse_packet`, `src/dtls12/engine.rs:228-236` with `Incoming::parse_packet`,
`src/dtls12/incoming.rs:42-59`. -/
def parsePacket (env : Env) (packet : Bytes) : E Unit :=
  M.bind (recordsParse env packet) fun rs =>
    match rs with
    | [] => M.pure ()
    | _ => insertIncoming env rs

/-- The re-parse loop of `enable_peer_encryption`, `src/dtls12/engine.rs:1159-1167`. -/
def reparse (env : Env) : List Bytes → E Unit
  | [] => M.pure ()
  | b :: rest => M.bind (parsePacket env b) fun _ => reparse env rest

/-- `enable_peer_encryption`, `src/dtls12/engine.rs:1143-1170`. -/
def enablePeerEncryption (env : Env) : E Unit := fun s =>
  let s := { s with peerEnc := true }
  match s.rx.findIdx? (fun i => i.any fun r => r.rcd.epoch == 1) with
  | none => (.ok (), s)
  | some i =>
    let all := s.rx.drop i
    reparse env ((all.flatten.filter fun r => !r.isHandled).map (·.buffer)) { s with rx := s.rx.take i }

/-! ## Consuming handshake messages -/

/-- The iterator of `has_complete_handshake_with_seq`, `src/dtls12/engine.rs:600-609`. -/
def completeView (rx : List (List Rx)) : List Hs :=
  (((rx.flatten.dropWhile (·.isHandled)).take 50).flatMap (·.hss)).dropWhile (·.handled)

/-- The fragment loop of `has_complete_handshake_with_seq`, `src/dtls12/engine.rs:628-645`. -/
def contiguous (seq length : Nat) : List Hs → Nat → Bool
  | [], _ => false
  | h :: rest, lastEnd =>
    if h.header.messageSeq ≠ seq then contiguous seq length rest lastEnd
    else if h.header.fragOff ≠ lastEnd then false
    else if h.header.fragOff + h.header.fragLen = length then true
    else contiguous seq length rest (h.header.fragOff + h.header.fragLen)

/-- `has_complete_handshake`, `src/dtls12/engine.rs:595-648`. -/
def hasComplete (s : Eng) (wanted : UInt8) : Bool :=
  match completeView s.rx with
  | [] => false
  | first :: rest =>
    if first.header.messageSeq ≠ s.peerSeq then false
    else if first.header.msgType ≠ wanted then false
    else contiguous first.header.messageSeq first.header.length (first :: rest) 0

/-- The iterator of `next_handshake`, `src/dtls12/engine.rs:659-665`. -/
def nextView (rx : List (List Rx)) : List Hs :=
  ((rx.flatten.dropWhile (·.isHandled)).flatMap (·.hss)).dropWhile (·.handled)

/-- The fragments `Handshake::defragment` takes: the first one and those following it as long as type
and number agree, `src/dtls12/message/handshake.rs:161-186`. -/
def fragmentRun (first : Hs) (rest : List Hs) : List Hs :=
  first :: rest.takeWhile fun h =>
    h.header.msgType == first.header.msgType && h.header.messageSeq == first.header.messageSeq

/-- `mark_handled`: set the flag on the first `n` handshakes counted from the first unhandled one.
The code holds references; the run is contiguous in the iteration order, so counting is enough. -/
def markHss : Bool → Nat → List Hs → List Hs × Bool × Nat
  | started, n, [] => ([], started, n)
  | started, n, h :: rest =>
    if !started && h.handled then
      let (hs, st, n') := markHss false n rest
      (h :: hs, st, n')
    else match n with
      | 0 => (h :: rest, true, 0)
      | n + 1 =>
        let (hs, st, n') := markHss true n rest
        ({ h with handled := true } :: hs, st, n')

/-- The records of one datagram. -/
def markRecs : Bool → Nat → List Rx → List Rx × Bool × Nat
  | started, n, [] => ([], started, n)
  | started, n, r :: rest =>
    let (hs, st, n') := markHss started n r.hss
    let (rs, st', n'') := markRecs st n' rest
    ({ r with hss := hs } :: rs, st', n'')

/-- The whole queue. -/
def markQueue : Bool → Nat → List (List Rx) → List (List Rx)
  | _, _, [] => []
  | started, n, i :: rest =>
    let (rs, st, n') := markRecs started n i
    rs :: markQueue st n' rest

/-- Transcript bytes of a received message, `src/dtls12/message/handshake.rs:223-231`. -/
def transcriptOf (t : UInt8) (length seq : Nat) (body : Bytes) : Bytes :=
  serializeHs { msgType := t, length, messageSeq := seq, fragOff := 0, fragLen := length } body

/-- `Handshake::defragment` (`src/dtls12/message/handshake.rs:150-246`) and the end of
`next_handshake` (`src/dtls12/engine.rs:667-681`). -/
def defragment (env : Env) (first : Hs) (rest : List Hs) : E (Option Body) := fun s =>
  let run := fragmentRun first rest
  if run.length > 50 then (.fail .transient, s)
  else
    let body := run.flatMap (·.body)
    if body.length ≠ first.header.length then (.fail .transient, s)
    else
      let marked := { s with rx := markQueue false run.length s.rx }
      match parseBody env first.header.msgType s.suite body with
      | none => (.fail .transient, marked)
      | some (left, b) =>
        if !left.isEmpty && !isUnknownType first.header.msgType then (.fail .transient, marked)
        else
          let s1 := { marked with
            transcript := s.transcript
              ++ transcriptOf first.header.msgType first.header.length first.header.messageSeq body }
          if first.header.messageSeq ≥ 65535 then (.fail .panic, s1)
          else (.ok (some b), { s1 with
            peerSeq := first.header.messageSeq + 1
            log := .consumed first.header.messageSeq first.header.msgType body :: s.log })

/-- `next_handshake`, `src/dtls12/engine.rs:650-681`. -/
def nextHandshake (env : Env) (wanted : UInt8) : E (Option Body) := fun s =>
  if !hasComplete s wanted then (.ok none, s)
  else match nextView s.rx with
    | [] => (.fail .panic, s)
    | first :: rest => defragment env first rest s

/-- Mark the first unhandled record as handled; `none` if it asserts (`Record::set_handled` on a record
with handshakes, `src/dtls12/incoming.rs:252-257`). -/
def markFirstRec : List Rx → List Rx × Bool
  | [] => ([], false)
  | r :: rest =>
    if r.isHandled then
      let (rs, d) := markFirstRec rest
      (r :: rs, d)
    else ({ r with handled := true } :: rest, true)

/-- The whole queue. -/
def markFirst : List (List Rx) → List (List Rx)
  | [] => []
  | i :: rest =>
    let (rs, d) := markFirstRec i
    if d then rs :: rest else rs :: markFirst rest

/-- `next_record`, `src/dtls12/engine.rs:683-697`: whether the first unhandled record has the type; if
so it is marked. -/
def nextRecord (ctype : UInt8) : E Bool := fun s =>
  match s.rx.flatten.find? (fun r => !r.isHandled) with
  | none => (.ok false, s)
  | some r =>
    if r.rcd.ctype ≠ ctype then (.ok false, s)
    else if !r.hss.isEmpty then (.fail .panic, s)
    else (.ok true, { s with rx := markFirst s.rx })

/-- `drop_pending_ccs`, `src/dtls12/engine.rs:703-711`. A CCS record has no handshakes, so
`set_handled` does not assert. -/
def dropPendingCcs (s : Eng) : Eng :=
  { s with rx := s.rx.map fun i => i.map fun r =>
      if r.rcd.ctype = ctCCS then { r with handled := true } else r }

/-! ## Sending handshake messages -/

/-- Body bytes that go into the next fragment, `src/dtls12/engine.rs:944-973`. -/
def chunkLen (s : Eng) (protection total offset : Nat) : Nat :=
  let used := (s.tx.getLast?.map List.length).getD 0
  let available := s.cfg.mtu - used
  let fixed := 13 + 12 + protection
  let forBody := if available > fixed then available - fixed else s.cfg.mtu - fixed
  if total = 0 then 0 else min (total - offset) forBody

/-- One fragment of a handshake message with its header, `src/dtls12/engine.rs:975-999`. -/
def hsFragment (t : UInt8) (seq : Nat) (body : Bytes) (offset chunk : Nat) : Bytes :=
  serializeHs { msgType := t, length := body.length, messageSeq := seq, fragOff := offset,
                fragLen := chunk } ((body.drop offset).take chunk)

/-- The fragment loop of `create_handshake`, `src/dtls12/engine.rs:942-1003`. `fuel` bounds the
iterations by the body length; running out of it means that the Rust loop makes no progress. -/
def fragmentLoop (env : Env) (t : UInt8) (seq : Nat) (body : Bytes) (protection : Nat) :
    Nat → Nat → E Unit
  | 0, _ => M.fail .diverge
  | fuel + 1, offset => fun s =>
    let chunk := chunkLen s protection body.length offset
    if offset < body.length ∨ (body.length = 0 ∧ offset = 0) then
      M.bind (createRecord env ctHandshake (msgEpoch t) true false (hsFragment t seq body offset chunk))
        (fun _ => if body.length = 0 then M.pure ()
          else fragmentLoop env t seq body protection fuel (offset + chunk)) s
    else (.ok (), s)

/-- `create_handshake`, `src/dtls12/engine.rs:887-1009`. The closure producing the body has run. -/
def createHandshake (env : Env) (t : UInt8) (body : Bytes) : E Unit := fun s =>
  let seq := s.nextSeq
  let s1 := { s with transcript := s.transcript ++ transcriptOf t body.length seq body }
  if seq ≥ 65535 then (.fail .panic, s1)
  else
    let s2 := { s1 with nextSeq := seq + 1 }
    if msgEpoch t ≥ 1 ∧ s.suite = none then (.fail (.fatal .invalidState), s2)
    else fragmentLoop env t seq body (s.overhead (msgEpoch t)) (body.length + 1) 0 s2

/-! ## Timers and flights -/

/-- `handle_timeout`, `src/dtls12/engine.rs:371-417`. -/
def handleTimeout (env : Env) (now : Nat) : E Unit := fun s =>
  let (t, fired) := s.timers.handle s.cfg.handshakeTimeout now (env.jitter s.tick)
  let s := { s with timers := t, tick := s.tick + 1 }
  match fired with
  | .connectTimeout => (.fail (.fatal .timeoutConnect), s)
  | .handshakeTimeout => (.fail (.fatal .timeoutHandshake), s)
  | .resend => flightResend env s
  | _ => (.ok (), s)

/-- `flight_begin`, `src/dtls12/engine.rs:532-537`. -/
def flightBegin (env : Env) (s : Eng) : Eng :=
  { s with timers := s.timers.begin (env.jitter s.tick), saved := [], tick := s.tick + 1 }

/-- `flight_stop_resend_timers`, `src/dtls12/engine.rs:539-553`. -/
def flightStop (s : Eng) : Eng :=
  { s with timers := s.timers.stop, confirmed := if s.isClient then true else s.confirmed }

/-- `abort`, `src/dtls12/engine.rs:1030-1035`. -/
def abort (s : Eng) : Eng := { s with tx := [], saved := [], timers := s.timers.stop }

/-- `release_application_data`, `src/dtls12/engine.rs:1012-1014`. -/
def releaseAppData (s : Eng) : Eng := { s with release := true }

/-- `discard_pending_writes`, `src/dtls12/engine.rs:1024-1026`. -/
def discardPendingWrites (s : Eng) : Eng := { s with tx := [] }

/-- `reset_server_for_hello_verify_request`, `src/dtls12/engine.rs:1088-1100`. -/
def resetServerForHvr (s : Eng) : Eng := { s with transcript := [], rx := [] }

/-- `reset_client_for_hello_verify_request`, `src/dtls12/engine.rs:1109-1115`. -/
def resetClientForHvr (s : Eng) : Eng := { s with transcript := [] }

/-- `set_cipher_suite`, `src/dtls12/engine.rs:1127-1141`; the `expect` is a panic. -/
def setCipherSuite (env : Env) (cs : Nat) : E Unit := fun s =>
  match env.suiteParams cs with
  | none => (.fail .panic, s)
  | some (e, m) => (.ok (), { s with explicitLen := e, minProt := m, suite := some cs })

/-- `generate_verify_data`, `src/dtls12/engine.rs:1201-1240`. -/
def generateVerifyData (env : Env) (isClient : Bool) : E Bytes := fun s =>
  match s.suite with
  | none => (.fail (.fatal .invalidState), s)
  | some _ =>
    match s.master with
    | none => (.fail (.fatal .crypto), s)
    | some m =>
      match env.verifyData m isClient s.transcript with
      | none => (.fail (.fatal .crypto), s)
      | some v => if v.length ≠ 12 then (.fail (.fatal .crypto), s) else (.ok v, s)

/-! ## Output -/

/-- What the engine's `poll_output` returns. -/
inductive Out where
  | appData (b : Bytes)
  | bufferTooSmall (needed : Nat)
  | packet (b : Bytes)
  | closeNotify
  | timeout (at_ : Nat)
deriving DecidableEq, Repr

/-- `purge_handled_queue_rx`, `src/dtls12/engine.rs:475-488`. -/
def purge (s : Eng) : Eng := { s with rx := s.rx.dropWhile fun i => i.all (·.isHandled) }

/-- Mark the record `poll_app_data` returned: the first unhandled application data record. -/
def markAppRec : List Rx → List Rx × Bool
  | [] => ([], false)
  | r :: rest =>
    if r.rcd.ctype = ctAppData ∧ r.isHandled = false then ({ r with handled := true } :: rest, true)
    else
      let (rs, d) := markAppRec rest
      (r :: rs, d)

/-- The whole queue. -/
def markApp : List (List Rx) → List (List Rx)
  | [] => []
  | i :: rest =>
    let (rs, d) := markAppRec i
    if d then rs :: rest else rs :: markApp rest

/-- The record `poll_app_data` looks at, `src/dtls12/engine.rs:450-459`. -/
def nextApp (s : Eng) : Option Rx :=
  ((s.rx.flatten.filter fun r => decide (r.rcd.ctype = ctAppData)).dropWhile (·.isHandled)).head?

/-- `poll_timeout` is `Timers.poll`. The part of `poll_output` after application data,
`src/dtls12/engine.rs:429-442` with `poll_packet_tx`, `:490-507`. -/
def pollRest (bufLen now : Nat) (s : Eng) : Out × Eng :=
  match s.tx with
  | p :: rest =>
    if p.length > bufLen then (.bufferTooSmall p.length, s)
    else (.packet p, { s with tx := rest, log := .sent p :: s.log })
  | [] =>
    if s.closeRecv && !s.closeReported then (.closeNotify, { s with closeReported := true })
    else (.timeout (s.timers.poll now), s)

/-- `poll_output`, `src/dtls12/engine.rs:419-443` with `poll_app_data`, `:445-473`. -/
def pollOutput (bufLen now : Nat) (s : Eng) : Out × Eng :=
  let s := purge s
  if s.release then
    match nextApp s with
    | some r =>
      if r.rcd.fragment.length > bufLen then (.bufferTooSmall r.rcd.fragment.length, s)
      else (.appData r.rcd.fragment,
        { s with rx := markApp s.rx, log := .delivered r.rcd r.opened :: s.log })
    | none => pollRest bufLen now s
  else pollRest bufLen now s

end Verif.E12
