import Verif.Model.Auto
import Verif.Model.Client12
import Verif.Model.Server12
import Verif.Model.Client13
import Verif.Model.Server13
/-!
# The public type `Dtls` (`src/lib.rs`): constructors, role switching, version auto-sensing, dispatch

Each inner value carries the environment (configuration, provider, random numbers) its session runs
with. `Dtls::inner` is an `Option` here as in the code; `unwrap` of `None` is a panic.
-/
namespace Verif.Dtls

open Verif.E12 (Call Ret ApiRes Output toApi)

/-! ## The hybrid ClientHello (`src/auto.rs`) -/

/-- One extension: type, length, data, `src/auto.rs:204-210`. -/
def extBytes (e : Nat × Bytes) : Bytes := beBytes 2 e.1 ++ beBytes 2 e.2.length ++ e.2

/-- The extensions before the padding, `src/auto.rs:124-185`. The signature schemes and SRTP profiles
are the defaults of their extensions (`src/types.rs:615-620`,
`src/dtls13/message/extensions/use_srtp.rs:91-104`). -/
def hybridExts (groups : List Nat) (group : Nat) (pub : Bytes) : List (Nat × Bytes) :=
  [(0x002B, [4, 0xFE, 0xFC, 0xFE, 0xFD]),
   (0x000A, beBytes 2 (groups.length * 2) ++ groups.flatMap (beBytes 2)),
   (0x0033, beBytes 2 (4 + pub.length) ++ (beBytes 2 group ++ beBytes 2 pub.length ++ pub)),
   (0x000D, [0, 4, 4, 3, 5, 3]),
   (0x000E, [0, 6, 0, 8, 0, 7, 0, 1, 0]),
   (0x000B, [1, 0]),
   (0x0017, []),
   (0xFF01, [0])]

/-- The body before the extensions, `src/auto.rs:92-122`. -/
def hybridHead (random : Bytes) (suites : List Nat) : Bytes :=
  [0xFE, 0xFD] ++ random ++ [0, 0] ++ beBytes 2 (suites.length * 2) ++ suites.flatMap (beBytes 2) ++ [1, 0]

/-- With the padding extension, `src/auto.rs:187-202`. -/
def padded (mtu headLen : Nat) (exts : List (Nat × Bytes)) : List (Nat × Bytes) :=
  let soFar := 13 + 12 + (headLen + 2 + (exts.map fun e => 4 + e.2.length).sum)
  if mtu - soFar ≥ 4 then exts ++ [(0x0015, List.replicate (mtu - soFar - 4) 0)] else exts

/-- The ClientHello body, `src/auto.rs:92-212`. -/
def hybridBody (mtu : Nat) (random : Bytes) (suites groups : List Nat) (group : Nat) (pub : Bytes) : Bytes :=
  let head := hybridHead random suites
  let exts := padded mtu head.length (hybridExts groups group pub)
  head ++ beBytes 2 (exts.map fun e => 4 + e.2.length).sum ++ exts.flatMap extBytes

/-- `struct HybridClientHello`, `src/auto.rs:53-70`: random, ClientHello body and the running key
exchange. -/
structure Hybrid where
  random : Bytes
  body : Bytes
  kx : Nat × Nat
deriving DecidableEq, Repr

/-- `transcript_bytes`, `src/auto.rs:214-219`. -/
def Hybrid.transcript (h : Hybrid) : Bytes := 1 :: (beBytes 3 h.body.length ++ h.body)

/-- `handshake_fragment`, `src/auto.rs:221-229`. -/
def Hybrid.fragment (h : Hybrid) : Bytes :=
  1 :: (beBytes 3 h.body.length ++ [0, 0, 0, 0, 0] ++ beBytes 3 h.body.length ++ h.body)

/-- `wire_packet`, `src/auto.rs:240-250`. -/
def Hybrid.wire (h : Hybrid) : Bytes :=
  [0x16, 0xFE, 0xFD, 0, 0, 0, 0, 0, 0, 0, 0] ++ beBytes 2 h.fragment.length ++ h.fragment

/-! ## The value -/

/-- Configuration, provider and random numbers. Engines made at different times draw different random
numbers, so each way of making one has its own environment; a Boolean argument says whether
authentication is by PSK. -/
structure Env where
  /-- limits of the engines -/
  lim : E13.Cfg
  /-- `config.psk().is_some()` -/
  psk : Bool
  /-- `config.dtls12_cipher_suites()` -/
  suites12 : List Nat
  /-- `config.dtls13_cipher_suites()` -/
  suites13 : List Nat
  /-- `config.kx_groups()` -/
  groups : List Nat
  /-- `Dtls12CipherSuite::is_psk` -/
  isPsk : Nat → Bool
  /-- a DTLS 1.2 session constructed as such -/
  e12 : Bool → E12.PEnv
  /-- a DTLS 1.3 session constructed as such -/
  e13 : E13.PEnv
  /-- the DTLS 1.2 server an auto-sensing server falls back to -/
  back : Bool → E12.PEnv
  /-- the DTLS 1.2 client an auto-sensing client becomes -/
  hyb12 : E12.PEnv
  /-- the DTLS 1.3 client an auto-sensing client becomes -/
  hyb13 : E13.PEnv
  /-- random of the hybrid ClientHello -/
  random : Bytes
  /-- tick of the key exchange of the hybrid ClientHello -/
  kxTick : Nat
  /-- `start_exchange` for a group: our public key -/
  kxStart : Nat → Option Bytes

/-- Limits of a DTLS 1.2 engine. -/
def Env.lim12 (env : Env) : E12.Cfg :=
  { mtu := env.lim.mtu, maxRx := env.lim.maxRx, maxTx := env.lim.maxTx,
    handshakeTimeout := env.lim.handshakeTimeout, startRto := env.lim.startRto, retries := env.lim.retries }

/-- `HybridClientHello::new`, `src/auto.rs:79-236`; `none`: the error on which `set_active` panics. The
list of suites has room for 16 (`src/auto.rs:108`), the list of groups for 4 (`:134`); beyond, it
panics as well. -/
def Env.hybrid (env : Env) : Option Hybrid :=
  match env.groups with
  | [] => none
  | g :: _ =>
    match env.kxStart g with
    | none => none
    | some pub =>
      let suites := env.suites13 ++ env.suites12.filter fun s => !env.isPsk s
      if suites.length > 16 ∨ env.groups.length > 4 then none
      else some { random := env.random, kx := (env.kxTick, g),
                  body := hybridBody env.lim.mtu env.random suites env.groups g pub }

/-- `enum Inner`, `src/lib.rs:304-310`. -/
inductive Inner where
  | client12 (env : E12.PEnv) (s : E12.Ses E12.CSt)
  | server12 (env : E12.PEnv) (s : E12.Ses E12.SSt)
  | client13 (env : E13.PEnv) (s : E13.Ses E13.CSt)
  | server13 (env : E13.PEnv) (s : E13.Ses E13.SSt)
  | clientPending (p : Auto.Pending) (h : Hybrid)

/-- `struct Dtls`, `src/lib.rs:300-302`. -/
abbrev Dtls := Option Inner

/-- `Dtls::new_12`, `src/lib.rs:475-478`. -/
def new12 (env : Env) (now : Nat) : Dtls :=
  some (.server12 (env.e12 false) (E12.S12.start (env.e12 false) env.lim12 now))

/-- `Dtls::new_12_psk`, `src/lib.rs:489-498`; without a PSK it panics. -/
def new12psk (env : Env) (now : Nat) : Option Dtls :=
  if env.psk then some (some (.server12 (env.e12 true) (E12.S12.start (env.e12 true) env.lim12 now)))
  else none

/-- `Dtls::new_13`, `src/lib.rs:507-510`. -/
def new13 (env : Env) (now : Nat) : Dtls :=
  some (.server13 env.e13 (E13.S13.start env.e13 env.lim now false))

/-- `is_dtls12_psk_only`, `src/lib.rs:312-321`. -/
def Env.pskOnly (env : Env) : Bool :=
  env.suites13.isEmpty && (match env.suites12 with
    | [] => false
    | s :: rest => env.isPsk s && rest.all env.isPsk)

/-- `Dtls::new_auto`, `src/lib.rs:527-534`. -/
def newAuto (env : Env) (now : Nat) : Dtls :=
  if env.pskOnly then some (.server12 (env.e12 true) (E12.S12.start (env.e12 true) env.lim12 now))
  else some (.server13 env.e13 (E13.S13.start env.e13 env.lim now true))

/-- `is_pending`, `src/lib.rs:814-822`. -/
def Inner.isPending : Inner → Bool
  | .server13 _ s => s.autoMode
  | .clientPending .. => true
  | _ => false

/-- `is_active`, `src/lib.rs:557-562`. -/
def isActive : Dtls → Bool
  | some (.client12 ..) | some (.client13 ..) | some (.clientPending ..) => true
  | _ => false

/-- The versions `protocol_version` reports. -/
inductive Version where
  | dtls12
  | dtls13
deriving DecidableEq, Repr

/-- `protocol_version`, `src/lib.rs:540-554`. -/
def protocolVersion : Dtls → Option Version
  | some (.client12 ..) | some (.server12 ..) => some .dtls12
  | some (.client13 ..) => some .dtls13
  | some (.server13 _ s) => if s.autoMode then none else some .dtls13
  | some (.clientPending ..) => none
  | none => none

/-- `Client::into_server` with `Server::new_with_engine`, `src/dtls12/client.rs:181-183`,
`src/dtls12/server.rs:157-181`. -/
def toServer12 (s : E12.Ses E12.CSt) : E12.Ses E12.SSt :=
  .start .awaitClientHello { s.eng with isClient := false } s.lastNow

/-- `Server::into_client` with `Client::new_with_engine`, `src/dtls12/server.rs:183-185`,
`src/dtls12/client.rs:93-113`. -/
def toClient12 (s : E12.Ses E12.SSt) : E12.Ses E12.CSt :=
  .start .sendClientHello { s.eng with isClient := true } s.lastNow

/-- `Client::into_server` with `Server::new_with_engine`, `src/dtls13/client.rs:213-215`,
`src/dtls13/server.rs:186-213`. The engine keeps its role. -/
def toServer13 (s : E13.Ses E13.CSt) : E13.Ses E13.SSt :=
  .start .awaitClientHello s.eng s.lastNow false

/-- `Server::into_client` with `Client::new_with_engine`, `src/dtls13/server.rs:215-217`,
`src/dtls13/client.rs:138-164`. -/
def toClient13 (s : E13.Ses E13.SSt) : E13.Ses E13.CSt :=
  .start .sendClientHello { s.eng with isClient := true } s.lastNow false

/-- `set_active`, `src/lib.rs:572-611`; `false`: panic. -/
def setActive (env : Env) (active : Bool) (d : Dtls) : Bool × Dtls :=
  match isActive d, active with
  | true, false =>
    match d with
    | some (.client12 e s) => (true, some (.server12 e (toServer12 s)))
    | some (.client13 e s) => (true, some (.server13 e (toServer13 s)))
    | _ => (false, none)
  | false, true =>
    match d with
    | some (.server12 e s) => (true, some (.client12 e (toClient12 s)))
    | some (.server13 e s) =>
      if s.autoMode then
        match env.hybrid with
        | some h => (true, some (.clientPending (Auto.Pending.new h.wire s.lastNow) h))
        | none => (false, none)
      else (true, some (.client13 e (toClient13 s)))
    | _ => (false, none)
  | _, _ => (true, d)

/-- The loop `for p in &buffered`, `src/lib.rs:731-733`. -/
def replay (env : E12.PEnv) : List Bytes → E12.Ses E12.SSt → ApiRes × E12.Ses E12.SSt
  | [], s => (.ok, s)
  | p :: ps, s =>
    match toApi (E12.handlePacketM E12.S12.role env p s).1 with
    | .ok => replay env ps (E12.handlePacketM E12.S12.role env p s).2
    | r => (r, (E12.handlePacketM E12.S12.role env p s).2)

/-- Whether one of the buffered datagrams asks for a PSK, `src/lib.rs:718-719`; `none`: panic. -/
def wantsPsk (env : Env) : List Bytes → Option Bool
  | [] => some false
  | p :: ps =>
    match Auto.clientHelloWantsPsk p env.suites12 env.isPsk with
    | .yes => some true
    | .no => wantsPsk env ps
    | .panic => none

/-- `handle_pending_auto_server`, `src/lib.rs:704-735`. -/
def fallback (env : Env) (s : E13.Ses E13.SSt) : ApiRes × Dtls :=
  match (if env.psk then wantsPsk env s.retained else some false) with
  | none => (.panic, none)
  | some usePsk =>
    let e := env.back usePsk
    let r := E12.handleTimeoutM E12.S12.role e s.lastNow (E12.S12.start e env.lim12 s.lastNow)
    match toApi r.1 with
    | .ok => ((replay e s.retained r.2).1, some (.server12 e (replay e s.retained r.2).2))
    | x => (x, none)

/-- `handle_pending_auto_client`, `src/lib.rs:653-700`. -/
def resolve (env : Env) (packet : Bytes) (p : Auto.Pending) (h : Hybrid) : ApiRes × Dtls :=
  match Auto.serverHelloVersion packet with
  | .unknown => (.err .unexpectedMessage, some (.clientPending p h))
  | .panic => (.panic, some (.clientPending p h))
  | .dtls12 =>
    let e := env.hyb12
    let r := E12.handleTimeoutM E12.C12.role e p.lastNow
      (E12.C12.startHybrid e env.lim12 h.random h.fragment p.lastNow)
    match toApi r.1 with
    | .ok => (toApi (E12.handlePacketM E12.C12.role e packet r.2).1,
              some (.client12 e (E12.handlePacketM E12.C12.role e packet r.2).2))
    | x => (x, none)
  | .dtls13 =>
    let e := env.hyb13
    let r := E13.handleTimeoutM E13.C13.role e p.lastNow
      (E13.C13.startHybrid e env.lim h.random h.transcript h.kx p.lastNow)
    match toApi r.1 with
    | .ok => (toApi (E13.handlePacketM E13.C13.role e packet r.2).1,
              some (.client13 e (E13.handlePacketM E13.C13.role e packet r.2).2))
    | x => (x, none)

/-- `handle_packet` with `handle_pending_auto`, `src/lib.rs:614-651`. -/
def handlePacket (env : Env) (p : Bytes) : Inner → ApiRes × Dtls
  | .client12 e s => (toApi (E12.handlePacketM E12.C12.role e p s).1,
      some (.client12 e (E12.handlePacketM E12.C12.role e p s).2))
  | .server12 e s => (toApi (E12.handlePacketM E12.S12.role e p s).1,
      some (.server12 e (E12.handlePacketM E12.S12.role e p s).2))
  | .client13 e s => (toApi (E13.handlePacketM E13.C13.role e p s).1,
      some (.client13 e (E13.handlePacketM E13.C13.role e p s).2))
  | .server13 e s =>
    let r := E13.handlePacketM E13.S13.role e p s
    if s.autoMode ∧ toApi r.1 = .err .dtls12Fallback then fallback env r.2
    else (toApi r.1, some (.server13 e r.2))
  | .clientPending q h => resolve env p q h

/-- `ClientPending::poll_output` as an `Output`. -/
def pendingOutput : Auto.POut → Output
  | .packet b => .eng (.packet b)
  | .bufferTooSmall n => .eng (.bufferTooSmall n)
  | .timeout t => .eng (.timeout t)

/-- The calls a value refuses while its version is not decided, `src/lib.rs:767-770, 799-802`. -/
def refused : Call → Bool
  | .close | .send _ => true
  | _ => false

/-- One call of the public API on an inner value, `src/lib.rs:614-810`. The timeout of the hybrid
ClientHello is not told apart from that of a flight. -/
def callInner (env : Env) (i : Inner) (c : Call) : Ret × Dtls :=
  match i, c with
  | i, .packet p => (.res (handlePacket env p i).1, (handlePacket env p i).2)
  | .client12 e s, c => ((E12.call E12.C12.role e s c).1, some (.client12 e (E12.call E12.C12.role e s c).2))
  | .server12 e s, c => ((E12.call E12.S12.role e s c).1, some (.server12 e (E12.call E12.S12.role e s c).2))
  | .client13 e s, c => ((E13.call E13.C13.role e s c).1, some (.client13 e (E13.call E13.C13.role e s c).2))
  | .server13 e s, c =>
    if s.autoMode && refused c then (.res (.err .handshakePending), some (.server13 e s))
    else ((E13.call E13.S13.role e s c).1, some (.server13 e (E13.call E13.S13.role e s c).2))
  | .clientPending p h, .timeout now =>
    (.res (if (p.handleTimeout env.lim.retries now).2 then .ok else .err .timeoutHandshake),
      some (.clientPending (p.handleTimeout env.lim.retries now).1 h))
  | .clientPending p h, .poll n => (.out (pendingOutput (p.pollOutput n).2), some (.clientPending (p.pollOutput n).1 h))
  | .clientPending p h, _ => (.res (.err .handshakePending), some (.clientPending p h))

/-- A call of the public API: one of the session calls or `set_active`. -/
inductive DCall where
  | api (c : Call)
  | setActive (active : Bool)
deriving DecidableEq, Repr

/-- One call of the public API. -/
def call (env : Env) (d : Dtls) : DCall → Ret × Dtls
  | .setActive a => (.res (if (setActive env a d).1 then .ok else .panic), (setActive env a d).2)
  | .api c =>
    match d with
    | none => (.res .panic, none)
    | some i => callInner env i c

/-- A whole life of a value. Nothing follows a panic. -/
def run (env : Env) (d : Dtls) : List DCall → List Ret × Dtls
  | [] => ([], d)
  | c :: cs =>
    let (r, d') := call env d c
    if r = .res .panic ∨ r = .res .diverge ∨ r = .out .panic then ([r], d')
    else
      let (rs, d'') := run env d' cs
      (r :: rs, d'')

end Verif.Dtls
