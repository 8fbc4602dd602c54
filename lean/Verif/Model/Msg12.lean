import Verif.Model.Msg
import Verif.Model.Session12
/-!
# Handshake messages of DTLS 1.2 (`src/dtls12/message/`)

Parsers and serialisers of the message bodies, and the functions that build the bodies a client or server
sends. `codec` puts them into the environment the session model takes them from. As everywhere in
`Verif.Model.Msg`, ranges are resolved to bytes.
-/
namespace Verif.Msg12
open Verif Verif.Msg
open Verif.E12 (ClientHello ServerHello ServerKx ClientKx PEnv)

/-- `Dtls12CipherSuite::supported`, `src/dtls12/message/mod.rs:190-206`. -/
def supportedSuites : List Nat := [0xC02C, 0xC02B, 0xCCA9, 0xC0A8]

/-- `ExtensionType::supported`, `src/dtls12/message/extension.rs:125-136`. -/
def supportedExts : List Nat := [10, 11, 13, 14, 22, 23, 0xFF01, 35]

/-- `SignatureAndHashAlgorithm::supported`, `src/dtls12/message/mod.rs:345-354`. -/
def supportedSigs : List Nat := [0x0403, 0x0503, 0x0401, 0x0501]

/-- `ClientHello::parse_extensions`, `src/dtls12/message/client_hello.rs:166-219`. -/
def parseClientExts (i : Bytes) : PRes (List (Nat × Bytes)) :=
  if i.isEmpty then .ok i []
  else (beNat 2 i).bind fun rem len =>
    if len = 0 then .ok rem []
    else (take len rem).bind fun rem d =>
      (parseExtData 8 supportedExts d).bind fun _ es => .ok rem es

/-- `ClientHello::parse`, `src/dtls12/message/client_hello.rs:123-163`. -/
def parseClientHello (i : Bytes) : PRes ClientHello :=
  (parseHead i).bind fun i h =>
  (vec 2 i).bind fun i d =>
  (many1 4 (beNat 2) (fun s => supportedSuites.contains s) d).bind fun r suites =>
  if !r.isEmpty then .failure else
  (parseCompression i).bind fun i cs =>
  (parseClientExts i).bind fun i es =>
  .ok i { version := h.version, random := h.random, sessionId := h.sessionId, cookie := h.cookie,
          suites, compressions := cs, exts := es }

/-- `ClientHello::serialize`, `src/dtls12/message/client_hello.rs:221-255`. -/
def putClientHello (h : ClientHello) : Bytes :=
  putHead h.version h.random h.sessionId h.cookie ++ putList 2 h.suites ++ putVec 1 h.compressions
    ++ (if h.exts.isEmpty then [] else putExts h.exts)

/-- `ClientHello::with_extensions`, `src/dtls12/message/client_hello.rs:48-121`. No suite needs
encrypt-then-MAC (`src/dtls12/message/mod.rs:164-170`), so that branch is absent. Pushing more than four
groups panics; the model writes them all. -/
def clientExts (hasEcdh : Bool) (groups : List Nat) : List (Nat × Bytes) :=
  (if hasEcdh then [(10, putList 2 groups), (11, putVec 1 [0])] else [])
    ++ [(13, putList 2 supportedSigs), (14, putUseSrtp defaultProfiles), (23, [])]

/-- `handshake_create_client_hello`, `src/dtls12/client.rs:1218-1260`. -/
def clientHello (env : PEnv) (hasEcdh : Bool) (random cookie sid : Bytes) : ClientHello :=
  { version := 0xFEFD, random, sessionId := sid, cookie,
    suites := (env.allowed.filter env.compatible).take 4, compressions := [0],
    exts := clientExts hasEcdh env.groups }

/-- `ServerHello::parse`, `src/dtls12/message/server_hello.rs:85-160`. -/
def parseServerHello (i : Bytes) : PRes ServerHello :=
  (beNat 2 i).bind fun i v =>
  (take 32 i).bind fun i random =>
  (idParse 32 i).bind fun i sid =>
  (beNat 2 i).bind fun i suite =>
  (beNat 1 i).bind fun i c =>
  (parseServerExts 8 supportedExts i).bind fun i es =>
  .ok i { version := v, random, sessionId := sid, suite, compression := UInt8.ofNat c, exts := es }

/-- `ServerHello::serialize`, `src/dtls12/message/server_hello.rs:162-186`. -/
def putServerHello (h : ServerHello) : Bytes :=
  beBytes 2 h.version ++ h.random ++ putVec 1 h.sessionId ++ beBytes 2 h.suite ++ [h.compression]
    ++ (match h.exts with | some es => putExts es | none => [])

/-- `handshake_create_server_hello`, `src/dtls12/server.rs:1188-1220`, with
`ServerHello::with_extensions`, `src/dtls12/message/server_hello.rs:45-83`. -/
def serverHello (random sid : Bytes) (suite : Nat) (srtp : Option Nat) : ServerHello :=
  { version := 0xFEFD, random, sessionId := sid, suite, compression := 0,
    exts := some ((match srtp with | some p => [(14, putUseSrtp [p])] | none => [])
      ++ [(23, []), (0xFF01, [0])]) }

/-- `HelloVerifyRequest::parse`, `src/dtls12/message/hello_verify.rs:21-36`. -/
def parseHelloVerify (i : Bytes) : PRes (Nat × Bytes) :=
  (beNat 2 i).bind fun i v =>
  (idParse 255 i).bind fun i c =>
  if c.isEmpty then .failure else .ok i (v, c)

/-- `HelloVerifyRequest::serialize` as the server calls it, `src/dtls12/message/hello_verify.rs:38-42`,
`src/dtls12/server.rs:377-385`. -/
def helloVerifyBody (cookie : Bytes) : Bytes := beBytes 2 0xFEFF ++ putVec 1 cookie

/-- `Certificate::parse`, `src/dtls12/message/certificate.rs:19-42`. -/
def parseCertificate (i : Bytes) : PRes (List Bytes) :=
  (vec 3 i).bind fun i d =>
  (loop parseCert (pushIf 32 fun _ => true) d.length [] d).bind fun _ cs => .ok i cs

/-- `Certificate::serialize`, `src/dtls12/message/certificate.rs:44-57`. -/
def putCertificate (cs : List Bytes) : Bytes := putVec 3 (cs.flatMap (putVec 3))

/-- `CertificateRequest`, `src/dtls12/message/certificate_request.rs:11-16`. -/
structure CertReq where
  types : List UInt8
  sigs : List Nat
  auths : List Bytes
deriving DecidableEq, Repr

/-- `DistinguishedName::parse`, `src/dtls12/message/wrapped.rs:14-31, 42`: not empty. -/
def parseName (i : Bytes) : PRes Bytes :=
  (beNat 2 i).bind fun i len => if len < 1 then .failure else take len i

/-- `CertificateRequest::parse`, `src/dtls12/message/certificate_request.rs:31-81`; only ECDSA_SIGN (64)
is a supported certificate type (`src/dtls12/message/mod.rs:267-269`). -/
def parseCertReq (i : Bytes) : PRes CertReq :=
  (vec 1 i).bind fun i d =>
  (many1 1 (fun b => (beNat 1 b).bind fun r v => .ok r (UInt8.ofNat v)) (fun c => c == 64) d).bind fun r ts =>
  if !r.isEmpty then .failure else
  (vec 2 i).bind fun i d =>
  (many0 4 (beNat 2) (fun s => supportedSigs.contains s) d).bind fun r sigs =>
  if !r.isEmpty then .failure else
  (vec 2 i).bind fun i d =>
  (loop parseName (pushIf 32 fun _ => true) d.length [] d).bind fun _ auths =>
  .ok i { types := ts, sigs, auths }

/-- `CertificateRequest::serialize`, `src/dtls12/message/certificate_request.rs:83-106`. -/
def putCertReq (r : CertReq) : Bytes :=
  putVec 1 r.types ++ putList 2 r.sigs ++ putVec 2 (r.auths.flatMap (putVec 2))

/-- `handshake_serialize_certificate_request`, `src/dtls12/server.rs:1305-1336`. -/
def certRequest (sigs : List Nat) : CertReq :=
  { types := [64], sigs := if sigs.isEmpty then supportedSigs else sigs, auths := [] }

/-- `as_key_exchange_algorithm`, `src/dtls12/message/mod.rs:110-123`: whether the suite uses PSK;
`none` for other suites. -/
def kxPsk (suite : Nat) : Option Bool :=
  if suite = 0xC02C ∨ suite = 0xC02B ∨ suite = 0xCCA9 then some false
  else if suite = 0xC0A8 then some true else none

/-- `EcdhParams::parse`, `src/dtls12/message/server_key_exchange.rs:71-106`. -/
def parseEcdh (i : Bytes) : PRes ServerKx :=
  (beNat 1 i).bind fun i c =>
  (beNat 2 i).bind fun i g =>
  (vec 1 i).bind fun i pub =>
  if i.isEmpty then .ok i (.ecdh (UInt8.ofNat c) g pub none)
  else (parseSigned i).bind fun i s => .ok i (.ecdh (UInt8.ofNat c) g pub (some s))

/-- `ServerKeyExchange::parse`, `src/dtls12/message/server_key_exchange.rs:21-39, 136-151`. -/
def parseServerKx (suite : Nat) (i : Bytes) : PRes ServerKx :=
  match kxPsk suite with
  | some false => parseEcdh i
  | some true => (vec 2 i).bind fun i h => .ok i (.psk h)
  | none => .failure

/-- The ECDHE ServerKeyExchange the server writes, `src/dtls12/server.rs:1281-1291`; the PSK hint is
`PskParams::serialize_from_bytes`, `src/dtls12/message/server_key_exchange.rs:160-163`. -/
def putEcdh (curve : UInt8) (group : Nat) (pub : Bytes) (alg : Nat) (sig : Bytes) : Bytes :=
  [curve] ++ beBytes 2 group ++ putVec 1 pub ++ putSigned alg sig

/-- `ClientKeyExchange::parse`, `src/dtls12/message/client_key_exchange.rs:30-50, 66-84, 113-128`. -/
def parseClientKx (suite : Nat) (i : Bytes) : PRes ClientKx :=
  match kxPsk suite with
  | some false => (vec 1 i).bind fun i p => .ok i (.ecdh p)
  | some true => (vec 2 i).bind fun i d => .ok i (.psk d)
  | none => .failure

/-- `Finished::parse`, `src/dtls12/message/finished.rs:17-32`; every suite has 12 bytes of verify data
(`src/dtls12/message/mod.rs:97-107`). -/
def parseFinished (_suite : Nat) (i : Bytes) : PRes Bytes := take 12 i

/-- `ECPointFormatsExtension::parse`, `src/dtls12/message/extensions/ec_point_formats.rs:57-87`. -/
def parsePointFormats (i : Bytes) : PRes (List Nat) :=
  (vec 1 i).bind fun i d =>
  if !i.isEmpty then .failure else
  loop (beNat 1) (pushIf 3 fun f => f < 3) d.length [] d

/-- `SignatureAlgorithmsExtension::parse`, `src/dtls12/message/extensions/signature_algorithms.rs:24-54`. -/
def parseSigAlgs (i : Bytes) : PRes (List Nat) :=
  listExt 2 4 (fun n => n == 0 || n % 2 != 0) (fun s => supportedSigs.contains s) i

/-- The environment with the codec of `src/dtls12/message/` in place of abstract parsers and serialisers;
`hasEcdh` and `cert` are `has_ecdh` of the provider and the own certificate. -/
def codec (env : PEnv) (hasEcdh : Bool) (cert : Bytes) : PEnv :=
  { env with
    parseClientHello := fun b => opt (parseClientHello b)
    parseHelloVerify := fun b => opt (parseHelloVerify b)
    parseServerHello := fun b => opt (parseServerHello b)
    parseCertificate := fun b => opt (parseCertificate b)
    parseServerKx := fun s b => opt (parseServerKx s b)
    parseCertificateRequest := fun b =>
      (opt (parseCertReq b)).map fun (r, c) => (r, c.sigs.map fun s => UInt8.ofNat (s / 256))
    parseCertificateVerify := fun b => opt (parseSigned b)
    parseClientKx := fun s b => opt (parseClientKx s b)
    parseFinished := fun s b => opt (parseFinished s b)
    parseUseSrtp := fun b => val (parseUseSrtp b)
    parseGroups := fun b => val (parseGroups b)
    parsePointFormats := fun b => (val (parsePointFormats b)).map fun _ => ()
    parseSigAlgs := fun b => val (parseSigAlgs b)
    clientHelloBody := fun random cookie sid => putClientHello (clientHello env hasEcdh random cookie sid)
    serverHelloBody := fun random sid suite srtp => putServerHello (serverHello random sid suite srtp)
    helloVerifyBody := helloVerifyBody
    certificateBody := putCertificate [cert]
    certRequestBody := fun sigs => putCertReq (certRequest sigs)
    clientKxBody := putVec 1
    clientPskBody := putVec 2
    pskHintBody := putVec 2 }

end Verif.Msg12
