import Verif.Model.Bytes
/-!
# What the handshake message codecs of both versions share

`src/util.rs`, and the parts of `src/dtls12/message/` and `src/dtls13/message/` that are the same text
in both versions.

Simplification used throughout: where the Rust parsers return a `Range` into the buffer that holds the
message (extension data, certificates, keys, signatures), the model returns the bytes. An `ArrayVec` is a
list; pushing beyond its capacity with `try_push` is the stated error. A number type that keeps every wire
value (`NamedGroup(u16)`, `Dtls12CipherSuite(u16)`, …) is that number.
-/
namespace Verif.Msg
open Verif

/-- The loop of `many0` and `many1`, `src/util.rs:19-41, 64-86`: parse items until the input is used up or
the item parser reports a recoverable error; keep those passing the filter; an item that consumed nothing
and a kept item beyond the capacity are errors. The first argument is fuel, one per byte of input. -/
def manyLoop {α : Type} (cap : Nat) (one : Bytes → PRes α) (keep : α → Bool) :
    Nat → List α → Bytes → PRes (List α)
  | 0, acc, i => .ok i acc
  | f + 1, acc, i =>
    if i.isEmpty then .ok i acc
    else match one i with
      | .error => .ok i acc
      | .failure => .failure
      | .panic => .panic
      | .ok i1 o =>
        if i1.length = i.length then .error
        else if keep o then
          if acc.length < cap then manyLoop cap one keep f (acc ++ [o]) i1 else .error
        else manyLoop cap one keep f acc i1

/-- `many0`, `src/util.rs:8-45`. -/
def many0 {α : Type} (cap : Nat) (one : Bytes → PRes α) (keep : α → Bool) (i : Bytes) : PRes (List α) :=
  manyLoop cap one keep i.length [] i

/-- `many1`, `src/util.rs:50-98`. -/
def many1 {α : Type} (cap : Nat) (one : Bytes → PRes α) (keep : α → Bool) (i : Bytes) : PRes (List α) :=
  (manyLoop cap one keep i.length [] i).bind fun r l => if l.isEmpty then .error else .ok r l

/-- The loop `while !rest.is_empty() { let (r, x) = one(rest)?; …; rest = r }` all hand-written list
parsers have. `push` is what the body does with an item; `none` is its `Err::Failure`. The first argument
is fuel, one per byte of input. -/
def loop {α : Type} (one : Bytes → PRes α) (push : List α → α → Option (List α)) :
    Nat → List α → Bytes → PRes (List α)
  | 0, acc, _ => .ok [] acc
  | f + 1, acc, i =>
    if i.isEmpty then .ok [] acc
    else (one i).bind fun r x =>
      match push acc x with
      | none => .failure
      | some acc => loop one push f acc r

/-- Body of such a loop: keep an item passing the filter, `try_push`. -/
def pushIf {α : Type} (cap : Nat) (keep : α → Bool) (acc : List α) (x : α) : Option (List α) :=
  if keep x then (if acc.length < cap then some (acc ++ [x]) else none) else some acc

/-- Body of the extension loops, for instance `src/dtls12/message/client_hello.rs:192-216`: only supported
types are kept, and none of them twice. -/
def pushExt (cap : Nat) (supported : List Nat) (acc : List (Nat × Bytes)) (e : Nat × Bytes) :
    Option (List (Nat × Bytes)) :=
  if supported.contains e.1 then
    if acc.any (·.1 == e.1) then none
    else if acc.length < cap then some (acc ++ [e]) else none
  else some acc

/-- `ErrorKind::LengthValue` unless the input is used up, then the value: the check
`if !rest.is_empty() { return Err(Failure) }`. -/
def done {α : Type} (r : Bytes) (a : α) : PRes α := if r.isEmpty then .ok [] a else .failure

/-- A vector with a length of `n` bytes: `be_uN` then `take`. -/
def vec (n : Nat) (i : Bytes) : PRes Bytes := (beNat n i).bind fun i len => take len i

/-- `len as uN`, then the bytes. -/
def putVec (n : Nat) (b : Bytes) : Bytes := beBytes n b.length ++ b

/-- `Extension::parse`, `src/dtls12/message/extension.rs:15-38`, `src/dtls13/message/extension.rs:12-35`. -/
def parseExt (i : Bytes) : PRes (Nat × Bytes) :=
  (beNat 2 i).bind fun i t =>
  (beNat 2 i).bind fun i len =>
  if len > 0 then (take len i).bind fun i d => .ok i (t, d) else .ok i (t, [])

/-- `Extension::serialize`, `src/dtls12/message/extension.rs:44-51`, `src/dtls13/message/extension.rs:41-48`. -/
def putExt (e : Nat × Bytes) : Bytes := beBytes 2 e.1 ++ putVec 2 e.2

/-- The extension block: total length `as u16`, then each extension, for instance
`src/dtls12/message/client_hello.rs:238-254`. -/
def putExts (es : List (Nat × Bytes)) : Bytes := putVec 2 (es.flatMap putExt)

/-- The loop over extension data, with the types kept and the capacity of the vector. -/
def parseExtData (cap : Nat) (supported : List Nat) (i : Bytes) : PRes (List (Nat × Bytes)) :=
  loop parseExt (pushExt cap supported) i.length [] i

/-- `var_array!` parse, `src/dtls12/message/id.rs:69-78` (used by both versions), with minimum 0. -/
def idParse (max : Nat) (i : Bytes) : PRes Bytes :=
  (beNat 1 i).bind fun i len => if len > max then .failure else take len i

/-- `Asn1Cert::parse`, `src/dtls12/message/wrapped.rs:14-31, 41`. -/
def parseCert (i : Bytes) : PRes Bytes := vec 3 i

/-- The list with capacity `cap` of an extension, kept where `keep` says: a length of `n` bytes that must
cover the rest, then a loop. -/
def listExt (n cap : Nat) (bad : Nat → Bool) (keep : Nat → Bool) (i : Bytes) : PRes (List Nat) :=
  (beNat n i).bind fun i len =>
  if bad len then .failure else
  (take len i).bind fun i d =>
  if !i.isEmpty then .failure else
  loop (beNat 2) (pushIf cap keep) d.length [] d

/-- `NamedGroup::supported`, `src/types.rs:205-212`. -/
def supportedGroups : List Nat := [0x001D, 0x0017, 0x0018, 0x0019]

/-- `SupportedGroupsExtension::parse`, `src/dtls12/message/extensions/supported_groups.rs:15-42`,
`src/dtls13/message/extensions/supported_groups.rs:16-43`. -/
def parseGroups (i : Bytes) : PRes (List Nat) :=
  listExt 2 4 (fun n => n % 2 != 0) (fun g => supportedGroups.contains g) i

/-- A list of 16-bit numbers with its length in `n` bytes: `SupportedGroupsExtension::serialize`,
`SignatureAlgorithmsExtension::serialize` and `SupportedVersionsClientHello::serialize` of both versions. -/
def putList (n : Nat) (l : List Nat) : Bytes := putVec n (l.flatMap (beBytes 2))

/-- Recognised SRTP profiles, `src/dtls12/message/extensions/use_srtp.rs:44-55`. -/
def srtpProfiles : List Nat := [1, 7, 8]

/-- The loop over profiles, `src/dtls12/message/extensions/use_srtp.rs:110-138`: it runs while two bytes
are left. -/
def profilesLoop : Nat → List Nat → Bytes → PRes (List Nat)
  | 0, acc, i => done i acc
  | f + 1, acc, i =>
    if i.length < 2 then done i acc
    else (beNat 2 i).bind fun r v =>
      match pushIf 3 (fun v => srtpProfiles.contains v) acc v with
      | none => .failure
      | some acc => profilesLoop f acc r

/-- `UseSrtpExtension::parse`, `src/dtls12/message/extensions/use_srtp.rs:105-153`,
`src/dtls13/message/extensions/use_srtp.rs:103-151`. The MKI is parsed and dropped: no caller reads it. -/
def parseUseSrtp (i : Bytes) : PRes (List Nat) :=
  (vec 2 i).bind fun i d =>
  (profilesLoop d.length [] d).bind fun _ ps =>
  (vec 1 i).bind fun i _ =>
  if !i.isEmpty then .failure else .ok [] ps

/-- `UseSrtpExtension::serialize` with an empty MKI, `src/dtls12/message/extensions/use_srtp.rs:155-167`,
`src/dtls13/message/extensions/use_srtp.rs:153-165`. -/
def putUseSrtp (ps : List Nat) : Bytes := putList 2 ps ++ putVec 1 []

/-- `UseSrtpExtension::default`, `src/dtls12/message/extensions/use_srtp.rs:91-103`. -/
def defaultProfiles : List Nat := [8, 7, 1]

/-- `DigitallySigned::parse` of both versions: `src/dtls12/message/digitally_signed.rs:18-36`,
`src/dtls13/message/digitally_signed.rs:18-36`. -/
def parseSigned (i : Bytes) : PRes (Nat × Bytes) :=
  (beNat 2 i).bind fun i alg => (vec 2 i).bind fun i s => .ok i (alg, s)

/-- `DigitallySigned::serialize`, `src/dtls12/message/digitally_signed.rs:38-43`. -/
def putSigned (alg : Nat) (sig : Bytes) : Bytes := beBytes 2 alg ++ putVec 2 sig

/-- What the callers of the parsers see: the unconsumed rest and the value, or that it failed. -/
def opt {α : Type} : PRes α → Option (Bytes × α)
  | .ok r a => some (r, a)
  | _ => none

/-- The same for callers that ignore the rest. -/
def val {α : Type} : PRes α → Option α
  | .ok _ a => some a
  | _ => none

/-- The head common to the hellos of clients: version, random, session id, cookie. -/
structure Head where
  version : Nat
  random : Bytes
  sessionId : Bytes
  cookie : Bytes
deriving DecidableEq, Repr

/-- `src/dtls12/message/client_hello.rs:125-128`, `src/dtls13/message/client_hello.rs:60-63`. -/
def parseHead (i : Bytes) : PRes Head :=
  (beNat 2 i).bind fun i v =>
  (take 32 i).bind fun i random =>
  (idParse 32 i).bind fun i sid =>
  (idParse 255 i).bind fun i cookie =>
  .ok i { version := v, random, sessionId := sid, cookie }

/-- `src/dtls12/message/client_hello.rs:222-227`, `src/dtls13/message/client_hello.rs:154-159`. -/
def putHead (version : Nat) (random sid cookie : Bytes) : Bytes :=
  beBytes 2 version ++ random ++ putVec 1 sid ++ putVec 1 cookie

/-- Compression methods of a ClientHello: only Null is supported (`src/types.rs:881-883`), capacity one;
`src/dtls12/message/client_hello.rs:136-142`, `src/dtls13/message/client_hello.rs:77-83`. -/
def parseCompression (i : Bytes) : PRes (List UInt8) :=
  (vec 1 i).bind fun i d =>
  (many1 1 (fun b => (beNat 1 b).bind fun r v => .ok r (UInt8.ofNat v)) (fun c => c == 0) d).bind fun r cs =>
  if !r.isEmpty then .failure else .ok i cs

/-- The extensions of a ServerHello, the same in both versions up to the capacity and the types kept:
`src/dtls12/message/server_hello.rs:94-146`, `src/dtls13/message/server_hello.rs:57-105`. A block of length
zero leaves the rest to the caller. -/
def parseServerExts (cap : Nat) (supported : List Nat) (i : Bytes) : PRes (Option (List (Nat × Bytes))) :=
  if i.isEmpty then .ok i none
  else if i.length < 2 then .failure
  else (beNat 2 i).bind fun i len =>
    if i.length < len then .failure
    else if len > 0 then
      (take len i).bind fun rest d =>
      if !rest.isEmpty then .failure
      else (parseExtData cap supported d).bind fun _ es => .ok rest (some es)
    else .ok i none

end Verif.Msg
