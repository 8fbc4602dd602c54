import Verif.Model.Client13
import Verif.Model.Server13
import Verif.Props.Demo12
/-!
# A toy environment for concrete DTLS 1.3 executions

Used for the examples and counterexamples beside the theorems, as `Verif.Props.Demo12`.
-/
namespace Verif.E13.Demo
open Verif Wire
open Verif.E12.Demo (sum search)

/-- Random, group, cookie length, cookie, public key. -/
def helloBody (r : Bytes) (g : Nat) (pub : Bytes) (cookie : Option Bytes) : Bytes :=
  UInt8.ofNat r.length :: (r ++ UInt8.ofNat g :: UInt8.ofNat (cookie.getD []).length ::
    (cookie.getD [] ++ pub))

def parseCh (groups suites : List Nat) (b : Bytes) : Option (Bytes × ClientHello) :=
  match b with
  | n :: rest =>
    match rest.drop n.toNat with
    | g :: m :: rest' =>
      let cookie := rest'.take m.toNat
      some ([], { version := verDtls12, random := rest.take n.toNat, sessionId := [], cookie := [],
                  suites, compressions := [0],
                  exts := [(43, []), (51, g :: rest'.drop m.toNat),
                           (10, groups.map UInt8.ofNat)] ++
                    if cookie.isEmpty then [] else [(44, cookie)] })
    | _ => none
  | [] => none

def parseSh (b : Bytes) : Option (Bytes × ServerHello) :=
  match b with
  | a :: c :: g :: n :: rest =>
    let random := rest.take n.toNat
    let more := rest.drop n.toNat
    some ([], { version := verDtls12, random, sessionId := [], suite := ofBe [a, c], compression := 0,
                exts := some ([(43, [])] ++
                  if random = hrrRandom then
                    [(44, more)] ++ if g = 0 then [] else [(51, [g])]
                  else [(51, g :: more)]) })
  | _ => none

def parseCert (b : Bytes) : Option (Bytes × (Bytes × List Bytes)) :=
  match b with
  | n :: rest =>
    let c := rest.drop n.toNat
    some ([], (rest.take n.toNat, if c = [0, 0, 0] ∨ c.isEmpty then [] else [c]))
  | [] => none

def keysOf (secret : Bytes) : Keys :=
  { key := [sum secret], iv := List.replicate 12 (sum secret + 1), sn := [sum secret + 2], secret }

/-- Checksum as AEAD tag; suite 0x1301 only. -/
def baseEnv (groups : List Nat) : Env where
  allowed := [0x1301]
  enc k n a p := some (p ++ [sum (k ++ n ++ a ++ p)])
  dec k n a c := if c.getLast? = some (sum (k ++ n ++ a ++ c.dropLast)) then some c.dropLast else none
  snMask _ k s := (sum (k ++ s), sum s)
  rand i n := beBytes n i
  randNat _ := 0
  jitter _ := 0
  search := search
  suiteTag s := if s = 0x1301 then some 1 else none
  epochKeys _ secret := some (keysOf secret)
  nextSecret _ secret := some (5 :: secret)
  hash _ b := [sum b, UInt8.ofNat b.length]
  parseClientHello _ := parseCh groups [0x1301]
  parseServerHello := parseSh
  parseEncryptedExtensions b := some ([], if b.isEmpty then [] else [(14, b)])
  parseCertificate := parseCert
  parseCertificateVerify b := some ([], (ofBe (b.take 2), b.drop 4))
  parseFinished _ b := some ([], b)

/-- Toy environment. -/
def env (groups : List Nat) (cookie clientCert : Bool) : PEnv :=
  { baseEnv groups with
    suiteUnknown := fun s => s != 0x1301
    groups
    requireClientCert := clientCert
    useCookie := cookie
    cookieSecret := [9]
    hmac := fun k d => some (List.replicate 32 (sum (k ++ d)))
    kxStart := fun n _ => some [UInt8.ofNat n]
    kxComplete := fun n _ p => some [UInt8.ofNat n * p.headD 0]
    deriveHs := fun _ s t => some (1 :: (s ++ [sum t]), 2 :: (s ++ [sum t]), 3 :: (s ++ [sum t]))
    deriveApp := fun _ s t => some (4 :: (s ++ [sum t]), 6 :: (s ++ [sum t]), 7 :: (s ++ [sum t]))
    verifyData := fun _ s t => some [sum s, sum t]
    hasCert := true
    sign := fun _ d => some (0x0403, [sum d])
    schemeError := fun _ _ => none
    verifySig := fun _ d _ s => s == [sum d]
    srtpKeys := fun _ p x => some (UInt8.ofNat p :: x)
    parseUseSrtp := fun b => some (b.map UInt8.toNat)
    parseGroups := fun b => some (b.map UInt8.toNat)
    parseClientVersions := fun _ => some [verDtls13]
    parseServerVersion := fun _ => some verDtls13
    parseClientShares := fun b => match b with | g :: p => some [(g.toNat, p)] | [] => none
    parseServerShare := fun b => match b with | g :: p => some (g.toNat, p) | [] => none
    parseRetryShare := fun b => match b with | [g] => some g.toNat | _ => none
    parseCookie := fun b => some b
    clientHelloBody := helloBody
    serverHelloBody := fun r s g p => beBytes 2 s ++ [UInt8.ofNat g, UInt8.ofNat r.length] ++ r ++ p
    retryBody := fun s c g => beBytes 2 s ++ [UInt8.ofNat (g.getD 0), 32] ++ hrrRandom ++ c
    encryptedExtensionsBody := fun p => match p with | some p => [UInt8.ofNat p] | none => []
    certRequestBody := [2, 8, 9, 0, 0]
    certificateBody := fun ctx => UInt8.ofNat ctx.length :: (ctx ++ [77, 78]) }

/-- Without cookies and client certificates, with both. -/
def plainEnv : PEnv := env [29] false false
def fullEnv : PEnv := env [29] true true

def cfg : Cfg :=
  { mtu := 150, maxRx := 30, maxTx := 10, handshakeTimeout := 40000000000, startRto := 1000000000,
    retries := 4, aeadLimit := 1000 }

/-- Poll until a timeout comes out. -/
def drain (R : Role) (env : PEnv) : Nat → Ses R.St → List Call × List Bytes × Ses R.St
  | 0, s => ([], [], s)
  | fuel + 1, s =>
    match call R env s (.poll 2000) with
    | (.out (.eng (.timeout _)), s') => ([.poll 2000], [], s')
    | (.out (.eng (.packet p)), s') =>
      let (cs, ps, s'') := drain R env fuel s'
      (.poll 2000 :: cs, p :: ps, s'')
    | (_, s') =>
      let (cs, ps, s'') := drain R env fuel s'
      (.poll 2000 :: cs, ps, s'')

/-- Both ends with the calls made so far. -/
structure Duo where
  client : Ses CSt
  server : Ses SSt
  cCalls : List Call
  sCalls : List Call

/-- Let the client talk, then the server; they may be configured differently. -/
def round (cenv senv : PEnv) (d : Duo) : Duo :=
  let (c1, ps, cl) := drain C13.role cenv 30 d.client
  let sv := (run S13.role senv d.server (ps.map .packet)).2
  let (c2, qs, sv) := drain S13.role senv 30 sv
  let cl := (run C13.role cenv cl (qs.map .packet)).2
  { client := cl, server := sv, cCalls := d.cCalls ++ c1 ++ qs.map .packet,
    sCalls := d.sCalls ++ ps.map .packet ++ c2 }

def duo0 (cenv senv : PEnv) : Duo :=
  { client := (call C13.role cenv (C13.start cenv cfg 0) (.timeout 0)).2
    server := (call S13.role senv (S13.start senv cfg 0 false) (.timeout 0)).2
    cCalls := [.timeout 0], sCalls := [.timeout 0] }

def rounds (cenv senv : PEnv) : Nat → Duo
  | 0 => duo0 cenv senv
  | n + 1 => round cenv senv (rounds cenv senv n)

/-- Calls of a client whose handshake completes, and of its server. -/
def clientCalls (env : PEnv) : List Call := (rounds env env 4).cCalls ++ List.replicate 6 (.poll 2000)
def serverCalls (env : PEnv) : List Call := (rounds env env 4).sCalls

def clientRun (env : PEnv) (more : List Call) : List Ret × Ses CSt :=
  run C13.role env (C13.start env cfg 0) (clientCalls env ++ more)
def serverRun (env : PEnv) (more : List Call) : List Ret × Ses SSt :=
  run S13.role env (S13.start env cfg 0 false) (serverCalls env ++ more)

/-- The datagrams of the connected client, and of the connected server, for further calls. -/
def clientSays (env : PEnv) (more : List Call) : List Bytes :=
  E12.Demo.packets (run C13.role env (clientRun env []).2 more).1
def serverSays (env : PEnv) (more : List Call) : List Bytes :=
  E12.Demo.packets (run S13.role env (serverRun env []).2 more).1

end Verif.E13.Demo
