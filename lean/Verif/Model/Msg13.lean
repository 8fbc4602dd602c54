import Verif.Model.Msg
import Verif.Model.Session13
/-!
# Handshake messages of DTLS 1.3 (`src/dtls13/message/`)

As `Verif.Model.Msg12`, for DTLS 1.3.
-/
namespace Verif.Msg13
open Verif Verif.Msg
open Verif.E13 (ClientHello ServerHello PEnv supportedSchemes hrrRandom)

/-- `Dtls13CipherSuite::supported`, `src/types.rs:752-758`. -/
def supportedSuites : List Nat := [0x1301, 0x1302, 0x1303]

/-- `ExtensionType::supported`, `src/dtls13/message/extension.rs:122-131`. -/
def supportedExts : List Nat := [43, 10, 13, 51, 14, 44]

/-- `ClientHello::parse_extensions`, `src/dtls13/message/client_hello.rs:104-151`. -/
def parseClientExts (i : Bytes) : PRes (List (Nat × Bytes)) :=
  if i.isEmpty then .ok i []
  else (vec 2 i).bind fun rem d =>
    if !rem.isEmpty then .failure
    else (parseExtData 8 supportedExts d).bind fun _ es => .ok rem es

/-- `ClientHello::parse_with_options`, `src/dtls13/message/client_hello.rs:54-102`. -/
def parseClientHello (allowUnknown : Bool) (i : Bytes) : PRes ClientHello :=
  (parseHead i).bind fun i h =>
  (beNat 2 i).bind fun i len =>
  if len = 0 ∨ len % 2 ≠ 0 then .failure else
  (take len i).bind fun i d =>
  (if allowUnknown then many0 3 (beNat 2) (fun s => supportedSuites.contains s) d
   else many1 3 (beNat 2) (fun s => supportedSuites.contains s) d).bind fun r suites =>
  if !r.isEmpty then .failure else
  (parseCompression i).bind fun i cs =>
  (parseClientExts i).bind fun i es =>
  .ok i { version := h.version, random := h.random, sessionId := h.sessionId, cookie := h.cookie,
          suites, compressions := cs, exts := es }

/-- `ClientHello::serialize`, `src/dtls13/message/client_hello.rs:153-182`. -/
def putClientHello (h : ClientHello) : Bytes :=
  putHead h.version h.random h.sessionId h.cookie ++ putList 2 h.suites ++ putVec 1 h.compressions
    ++ (if h.exts.isEmpty then [] else putExts h.exts)

/-- `KeyShareEntry::serialize`, `src/dtls13/message/extensions/key_share.rs:42-47`. -/
def putShare (e : Nat × Bytes) : Bytes := beBytes 2 e.1 ++ putVec 2 e.2

/-- The extensions of the ClientHello before padding, `src/dtls13/client.rs:1201-1271`. -/
def clientExts0 (groups : List Nat) (group : Nat) (pub : Bytes) (cookie : Option Bytes) :
    List (Nat × Bytes) :=
  [(43, putList 1 [0xFEFC]), (10, putList 2 groups), (51, putVec 2 (putShare (group, pub))),
   (13, putList 2 supportedSchemes), (14, putUseSrtp defaultProfiles)]
    ++ (match cookie with | some c => [(44, c)] | none => [])

/-- The padding extension, `src/dtls13/client.rs:1273-1300`, for `n` cipher suites. -/
def clientExts (mtu n : Nat) (es : List (Nat × Bytes)) : List (Nat × Bytes) :=
  let total := 13 + 12 + (2 + 32 + 1 + 1 + (2 + n * 2) + (1 + 1) + 2 + es.length * 4
    + (es.map fun e => e.2.length).sum)
  let deficit := mtu - total
  if deficit ≥ 4 then es ++ [(21, List.replicate (deficit - 4) 0)] else es

/-- `handshake_create_client_hello`, `src/dtls13/client.rs:1171-1316`. -/
def clientHello (env : PEnv) (mtu : Nat) (random : Bytes) (group : Nat) (pub : Bytes)
    (cookie : Option Bytes) : ClientHello :=
  let suites := env.allowed.take 3
  { version := 0xFEFD, random, sessionId := [], cookie := [], suites, compressions := [0],
    exts := clientExts mtu suites.length (clientExts0 env.groups group pub cookie) }

/-- `ServerHello::parse`, `src/dtls13/message/server_hello.rs:49-119`. -/
def parseServerHello (i : Bytes) : PRes ServerHello :=
  (beNat 2 i).bind fun i v =>
  (take 32 i).bind fun i random =>
  (idParse 32 i).bind fun i sid =>
  (beNat 2 i).bind fun i suite =>
  (beNat 1 i).bind fun i c =>
  (parseServerExts 5 supportedExts i).bind fun i es =>
  .ok i { version := v, random, sessionId := sid, suite, compression := UInt8.ofNat c, exts := es }

/-- `ServerHello::serialize`, `src/dtls13/message/server_hello.rs:121-141`. -/
def putServerHello (h : ServerHello) : Bytes :=
  beBytes 2 h.version ++ h.random ++ putVec 1 h.sessionId ++ beBytes 2 h.suite ++ [h.compression]
    ++ (match h.exts with | some es => putExts es | none => [])

/-- `handshake_create_server_hello`, `src/dtls13/server.rs:1349-1403`; the session id is empty
(`src/dtls13/server.rs:801`). -/
def serverHello (random : Bytes) (suite group : Nat) (pub : Bytes) : ServerHello :=
  { version := 0xFEFD, random, sessionId := [], suite, compression := 0,
    exts := some [(43, beBytes 2 0xFEFC), (51, putShare (group, pub))] }

/-- `send_hello_retry_request`, `src/dtls13/server.rs:1278-1347`. -/
def helloRetry (suite : Nat) (cookie : Bytes) (group : Option Nat) : ServerHello :=
  { version := 0xFEFD, random := hrrRandom, sessionId := [], suite, compression := 0,
    exts := some ([(43, beBytes 2 0xFEFC)]
      ++ (match group with | some g => [(51, beBytes 2 g)] | none => [])
      ++ [(44, putVec 2 cookie)]) }

/-- `EncryptedExtensions::parse`, `src/dtls13/message/encrypted_extensions.rs:17-49`. -/
def parseEncExts (i : Bytes) : PRes (List (Nat × Bytes)) :=
  (vec 2 i).bind fun i d => (parseExtData 5 supportedExts d).bind fun _ es => .ok i es

/-- `handshake_create_encrypted_extensions`, `src/dtls13/server.rs:1405-1441`. -/
def encExts (srtp : Option Nat) : List (Nat × Bytes) :=
  match srtp with | some p => [(14, putUseSrtp [p])] | none => []

/-- An entry of `Certificate::parse`, `src/dtls13/message/certificate.rs:47-65`. -/
def parseCertEntry (i : Bytes) : PRes Bytes :=
  (parseCert i).bind fun i c => (vec 2 i).bind fun i _ => .ok i c

/-- `Certificate::parse`, `src/dtls13/message/certificate.rs:26-75`; the extensions of an entry are
parsed and dropped: no caller reads them. -/
def parseCertificate (i : Bytes) : PRes (Bytes × List Bytes) :=
  (vec 1 i).bind fun i ctx =>
  (vec 3 i).bind fun i d =>
  (loop parseCertEntry (pushIf 32 fun _ => true) d.length [] d).bind fun _ cs => .ok i (ctx, cs)

/-- `Certificate::serialize`, `src/dtls13/message/certificate.rs:77-104`, for entries without extensions. -/
def putCertificate (ctx : Bytes) (cs : List Bytes) : Bytes :=
  putVec 1 ctx ++ putVec 3 (cs.flatMap fun c => putVec 3 c ++ putVec 2 [])

/-- `handshake_create_certificate_request`, `src/dtls13/server.rs:1443-1475`. -/
def certRequestBody : Bytes := putVec 1 [] ++ putExts [(13, putList 2 supportedSchemes)]

/-- The length of Finished is that of the hash, `src/types.rs:724-733, 761-763`; zero for a suite without known hash (`src/types.rs:309-319`). -/
def hashLen (suite : Nat) : Nat :=
  if suite = 0x1302 then 48
  else if suite = 0x1301 ∨ suite = 0x1303 ∨ suite = 0x1304 ∨ suite = 0x1305 then 32 else 0

/-- `Finished::parse`, `src/dtls13/message/finished.rs:17-31`. -/
def parseFinished (suite : Nat) (i : Bytes) : PRes Bytes := take (hashLen suite) i

/-- `ProtocolVersion::is_unknown`, `src/types.rs:808-811`. -/
def knownVersions : List Nat := [0xFEFF, 0xFEFD, 0xFEFC]

/-- `SupportedVersionsClientHello::parse`, `src/dtls13/message/extensions/supported_versions.rs:17-41`. -/
def parseClientVersions (i : Bytes) : PRes (List Nat) :=
  listExt 1 3 (fun n => n == 0 || n % 2 != 0) (fun v => knownVersions.contains v) i

/-- `SupportedVersionsServerHello::parse`, `src/dtls13/message/extensions/supported_versions.rs:58-65`. -/
def parseServerVersion (i : Bytes) : PRes Nat := (beNat 2 i).bind fun r v => done r v

/-- `KeyShareEntry::parse`, `src/dtls13/message/extensions/key_share.rs:23-40`. -/
def parseShare (i : Bytes) : PRes (Nat × Bytes) :=
  (beNat 2 i).bind fun i g => (vec 2 i).bind fun i k => .ok i (g, k)

/-- `KeyShareClientHello::parse`, `src/dtls13/message/extensions/key_share.rs:57-83`. -/
def parseClientShares (i : Bytes) : PRes (List (Nat × Bytes)) :=
  (vec 2 i).bind fun i d =>
  if !i.isEmpty then .failure else
  loop parseShare (pushIf 4 fun e => supportedGroups.contains e.1) d.length [] d

/-- `KeyShareServerHello::parse`, `src/dtls13/message/extensions/key_share.rs:107-114`. -/
def parseServerShare (i : Bytes) : PRes (Nat × Bytes) := (parseShare i).bind fun r e => done r e

/-- `KeyShareHelloRetryRequest::parse`, `src/dtls13/message/extensions/key_share.rs:128-135`. -/
def parseRetryShare (i : Bytes) : PRes Nat := (beNat 2 i).bind fun r g => done r g

/-- `parse_cookie_extension`, `src/dtls13/message/extensions/cookie.rs:10-21`. -/
def parseCookie (i : Bytes) : PRes Bytes :=
  if i.length < 2 then .failure
  else (beNat 2 i).bind fun r len => if len = 0 ∨ r.length ≠ len then .failure else .ok [] r

/-- `SignatureAlgorithmsExtension::parse`, `src/dtls13/message/extensions/signature_algorithms.rs:25-53`. -/
def parseSigAlgs (i : Bytes) : PRes (List Nat) :=
  listExt 2 2 (fun n => n == 0 || n % 2 != 0) (fun s => supportedSchemes.contains s) i

/-- The environment with the codec of `src/dtls13/message/` in place of abstract parsers and serialisers;
`mtu` is the configured MTU, `cert` the own certificate. -/
def codec (env : PEnv) (mtu : Nat) (cert : Bytes) : PEnv :=
  { env with
    parseClientHello := fun u b => opt (parseClientHello u b)
    parseServerHello := fun b => opt (parseServerHello b)
    parseEncryptedExtensions := fun b => opt (parseEncExts b)
    parseCertificate := fun b => opt (parseCertificate b)
    parseCertificateVerify := fun b => opt (parseSigned b)
    parseFinished := fun s b => opt (parseFinished s b)
    parseUseSrtp := fun b => val (parseUseSrtp b)
    parseGroups := fun b => val (parseGroups b)
    parseClientVersions := fun b => val (parseClientVersions b)
    parseServerVersion := fun b => val (parseServerVersion b)
    parseClientShares := fun b => val (parseClientShares b)
    parseServerShare := fun b => val (parseServerShare b)
    parseRetryShare := fun b => val (parseRetryShare b)
    parseCookie := fun b => val (parseCookie b)
    clientHelloBody := fun random group pub cookie =>
      putClientHello (clientHello env mtu random group pub cookie)
    serverHelloBody := fun random suite group pub => putServerHello (serverHello random suite group pub)
    retryBody := fun suite cookie group => putServerHello (helloRetry suite cookie group)
    encryptedExtensionsBody := fun srtp => putExts (encExts srtp)
    certRequestBody := certRequestBody
    certificateBody := fun ctx => putCertificate ctx [cert] }

end Verif.Msg13
