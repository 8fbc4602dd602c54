import Verif.Model.Client12
import Verif.Model.Server12
/-!
# A toy environment for concrete DTLS 1.2 executions

Used for the examples and counterexamples beside the theorems. The "cryptography" is a checksum and
message bodies have toy encodings; everything is computable so that whole handshakes evaluate.
-/
namespace Verif.E12.Demo
open Verif Wire

/-- Checksum. -/
def sum (b : Bytes) : UInt8 := b.foldl (· + ·) 7

/-- A correct search: the first equal element, or the number of smaller ones. -/
def search (_ : Nat) (cs : List Ordering) : Found :=
  match cs.findIdx? (· == .eq) with
  | some i => .at_ i
  | none => .insertAt (cs.takeWhile (· == .lt)).length

def parseSig (b : Bytes) : Nat × Bytes := (ofBe (b.take 2), b.drop 4)

def parseSkx (suite : Nat) (b : Bytes) : Option (Bytes × ServerKx) :=
  if Config.isPsk suite then some ([], .psk b)
  else match b with
    | c :: g1 :: g2 :: n :: rest =>
      some ([], .ecdh c (ofBe [g1, g2]) (rest.take n.toNat) (some (parseSig (rest.drop n.toNat))))
    | _ => none

def parseCh (suites : List Nat) (b : Bytes) : Option (Bytes × ClientHello) :=
  match b with
  | n :: rest => some ([], { version := verDtls12, random := rest.take n.toNat, sessionId := [],
                             cookie := rest.drop n.toNat, suites, compressions := [0], exts := [(23, [])] })
  | [] => none

def parseSh (b : Bytes) : Option (Bytes × ServerHello) :=
  match b with
  | a :: c :: rest => some ([], { version := verDtls12, random := rest, sessionId := [],
                                  suite := ofBe [a, c], compression := 0, exts := some [(23, [])] })
  | _ => none

/-- PSK suite 0xC0A8 and ECDSA suite 0xC02B have explicit nonces; 0xCCA9 has none. -/
def params (suite : Nat) : Option (Nat × Nat) :=
  if suite = 0xC0A8 ∨ suite = 0xC02B then some (8, 9) else if suite = 0xCCA9 then some (0, 1) else none

def baseEnv (suites : List Nat) : Env where
  enc k n a p := some (p ++ [sum (k ++ n ++ a ++ p)])
  dec k n a c := if c.getLast? = some (sum (k ++ n ++ a ++ c.dropLast)) then some c.dropLast else none
  rand i n := beBytes n i
  jitter _ := 0
  search := search
  suiteParams := params
  parseClientHello := parseCh suites
  parseHelloVerify b := some ([], (verDtls12, b))
  parseServerHello := parseSh
  parseCertificate b := some ([], if b.isEmpty then [] else [b])
  parseServerKx := parseSkx
  parseCertificateRequest b := some ([], b)
  parseCertificateVerify b := some ([], parseSig b)
  parseClientKx suite b := some ([], if Config.isPsk suite then .psk b else .ecdh b)
  parseFinished _ b := some ([], b)
  verifyData m c t := some ([sum m, if c then 1 else 0, sum t] ++ List.replicate 9 0)
  deriveKeys _ _ _ _ := none

/-- Toy environment: `auth` chooses PSK or certificates, `suites` are offered and allowed. -/
def env (auth : Auth) (suites : List Nat) (cookie clientCert : Bool) : PEnv :=
  { baseEnv suites with
    auth
    suiteSig := fun s => if Config.isPsk s then none else some 3
    suiteUnknown := fun _ => false
    allowed := suites
    groups := [29]
    providerGroups := [29]
    requireClientCert := clientCert
    useCookie := cookie
    pskIdentity := some [1]
    pskResolver := some fun i => if i = [1] then some [5] else none
    pskHint := none
    cookieSecret := [9]
    hmac := fun k d => some (List.replicate 32 (sum (k ++ d)))
    kxStart := fun n _ => some [UInt8.ofNat n]
    kxComplete := fun n _ p => some [UInt8.ofNat n * p.headD 0]
    ems := fun _ p t => some [sum p, sum t]
    deriveKeys := fun s m _ _ =>
      let n := if s = 0xCCA9 then 12 else 4
      some { clientKey := [sum m + 1], serverKey := [sum m + 2], clientIv := List.replicate n 1,
             serverIv := List.replicate n 2 }
    sign := fun _ d _ => some [sum d]
    verifySig := fun _ d _ s => s == [sum d]
    srtpKeys := fun _ _ _ _ _ => none
    parseUseSrtp := fun _ => none
    parseGroups := fun _ => none
    parsePointFormats := fun _ => none
    parseSigAlgs := fun _ => none
    clientHelloBody := fun r c _ => UInt8.ofNat r.length :: r ++ c
    serverHelloBody := fun r _ s _ => beBytes 2 s ++ r
    helloVerifyBody := id
    certificateBody := [77, 78]
    certRequestBody := fun l => l.map fun a => UInt8.ofNat (a / 256)
    clientKxBody := id
    clientPskBody := id
    pskHintBody := id }

def pskEnv : PEnv := env .psk [0xC0A8] true false
def certEnv : PEnv := env (.cert 3 4 [4]) [0xC02B] false true
def chachaEnv : PEnv := env (.cert 3 4 [4]) [0xCCA9] false false

def cfg : Cfg :=
  { mtu := 150, maxRx := 30, maxTx := 10, handshakeTimeout := 40000000000, startRto := 1000000000,
    retries := 4 }

/-- Poll until a timeout comes out. -/
def drain (R : Role) (env : PEnv) : Nat → Ses R.St → List Call × List Bytes × Ses R.St
  | 0, s => ([], [], s)
  | fuel + 1, s =>
    match call R env s (.poll 2000) with
    | (.out (.eng (.timeout _)), s') => ([.poll 2000], [], s')
    | (.out (.eng (.packet p)), s') =>
      let (cs, ps, s'') := drain R env fuel s'
      (.poll 2000 :: cs, p :: ps, s'')
    | (_, s') =>
      let (cs, ps, s'') := drain R env fuel s'
      (.poll 2000 :: cs, ps, s'')

/-- Both ends with the calls made so far. -/
structure Duo where
  client : Ses CSt
  server : Ses SSt
  cCalls : List Call
  sCalls : List Call

/-- Let the client talk, then the server. -/
def round (env : PEnv) (d : Duo) : Duo :=
  let (c1, ps, cl) := drain C12.role env 30 d.client
  let sv := (run S12.role env d.server (ps.map .packet)).2
  let (c2, qs, sv) := drain S12.role env 30 sv
  let cl := (run C12.role env cl (qs.map .packet)).2
  { client := cl, server := sv, cCalls := d.cCalls ++ c1 ++ qs.map .packet,
    sCalls := d.sCalls ++ ps.map .packet ++ c2 }

def duo0 (env : PEnv) : Duo :=
  { client := (call C12.role env (C12.start env cfg 0) (.timeout 0)).2
    server := (call S12.role env (S12.start env cfg 0) (.timeout 0)).2
    cCalls := [.timeout 0], sCalls := [.timeout 0] }

def rounds (env : PEnv) : Nat → Duo
  | 0 => duo0 env
  | n + 1 => round env (rounds env n)

/-- Calls of a client whose handshake completes, and of its server. -/
def clientCalls (env : PEnv) : List Call := (rounds env 3).cCalls ++ List.replicate 6 (.poll 2000)
def serverCalls (env : PEnv) : List Call := (rounds env 3).sCalls

def clientRun (env : PEnv) (more : List Call) : List Ret × Ses CSt :=
  run C12.role env (C12.start env cfg 0) (clientCalls env ++ more)
def serverRun (env : PEnv) (more : List Call) : List Ret × Ses SSt :=
  run S12.role env (S12.start env cfg 0) (serverCalls env ++ more)

/-- The datagrams among what calls returned. -/
def packets : List Ret → List Bytes
  | [] => []
  | .out (.eng (.packet p)) :: l => p :: packets l
  | _ :: l => packets l

/-- The datagrams of the connected client, and of the connected server, for further calls. -/
def clientSays (env : PEnv) (more : List Call) : List Bytes :=
  packets (run C12.role env (clientRun env []).2 more).1
def serverSays (env : PEnv) (more : List Call) : List Bytes :=
  packets (run S12.role env (serverRun env []).2 more).1

end Verif.E12.Demo
