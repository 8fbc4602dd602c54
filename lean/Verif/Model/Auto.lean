import Verif.Model.Bytes
/-!
# Version auto-sensing (`src/auto.rs`) and the ClientHello peek (`src/lib.rs`)

A slice index out of range is a panic in Rust and the value `panic` here.
-/
namespace Verif.Auto
open Verif

/-- `&l[i..i + n]`, only used where the range is inside the slice or the caller tests it. -/
def slice (l : Bytes) (i n : Nat) : Bytes := (l.drop i).take n

/-- `l.get(i..i + n)`. -/
def get? (l : Bytes) (i n : Nat) : Option Bytes :=
  if i + n ≤ l.length then some (slice l i n) else none

/-- `src/auto.rs:345-350`, `DetectedVersion`, with `panic` for an index out of range. -/
inductive Detected where
  | unknown
  | dtls12
  | dtls13
  | panic
deriving DecidableEq, Repr

/-- The extension walk, `src/auto.rs:424-448`. Every round advances by at least four, so `fuel` equal
to the body length is never exhausted before the loop ends. -/
def walkExts (body : Bytes) (extEnd : Nat) : Nat → Nat → Detected
  | 0, _ => .dtls12
  | fuel + 1, pos =>
    if pos + 4 ≤ extEnd then
      let extType := ofBe (slice body pos 2)
      let extLen := ofBe (slice body (pos + 2) 2)
      let pos := pos + 4
      if extType = 0x002B then
        if extLen ≥ 2 then
          if pos + 2 ≤ body.length then
            if ofBe (slice body pos 2) = 0xFEFC then .dtls13 else .dtls12
          else .panic
        else .dtls12
      else walkExts body extEnd fuel (pos + extLen)
    else .dtls12

/-- Inspection of a ServerHello body, `src/auto.rs:395-448`. -/
def serverHelloBody (body : Bytes) : Detected :=
  if body.length < 35 then .dtls12
  else
    let sidLen := (body.getD 34 0).toNat
    let pos := 34 + (1 + sidLen) + 2 + 1
    if pos + 2 > body.length then .dtls12
    else
      let extTotalLen := ofBe (slice body pos 2)
      let pos := pos + 2
      let extEnd := pos + extTotalLen
      if extEnd > body.length then .dtls12
      else walkExts body extEnd body.length pos

/-- `src/auto.rs:358-449`, `server_hello_version` with `server_hello_version_inner`. -/
def serverHelloVersion (packet : Bytes) : Detected :=
  if packet.length < 13 then .unknown
  else if packet.getD 0 0 ≠ 0x16 then .unknown
  else
    match get? packet 13 (ofBe (slice packet 11 2)) with
    | none => .unknown
    | some rb =>
      if rb.length < 12 then .unknown
      else if rb.getD 0 0 = 3 then .dtls12
      else if rb.getD 0 0 ≠ 2 then .unknown
      else
        match get? rb 12 (ofBe (slice rb 9 3)) with
        | none => .unknown
        | some body => serverHelloBody body

/-! ## The auto-sensing client before the first answer -/

/-- `src/auto.rs:255-270`, `ClientPending`: the fields that time and polling read. Instants are
nanoseconds. -/
structure Pending where
  wire : Bytes
  needsSend : Bool
  lastNow : Nat
  retransmitAt : Option Nat
  retransmitCount : Nat
deriving DecidableEq, Repr

/-- `src/auto.rs:273-291`, `ClientPending::new`. -/
def Pending.new (wire : Bytes) (now : Nat) : Pending :=
  { wire, needsSend := true, lastNow := now, retransmitAt := none, retransmitCount := 0 }

def second : Nat := 1000000000

/-- `src/auto.rs:293-315`, `ClientPending::handle_timeout`; `false` is
`Err(Timeout(HybridClientHello))`. -/
def Pending.handleTimeout (p : Pending) (retries now : Nat) : Pending × Bool :=
  let p := { p with lastNow := now }
  match p.retransmitAt with
  | none => ({ p with retransmitAt := some (now + second) }, true)
  | some deadline =>
    if now ≥ deadline then
      if p.retransmitCount ≥ retries then (p, false)
      else
        let count := p.retransmitCount + 1
        let shift := min count 5
        ({ p with retransmitCount := count, needsSend := true,
                  retransmitAt := some (now + second * 2 ^ shift) }, true)
    else (p, true)

/-- Output of `ClientPending::poll_output`. -/
inductive POut where
  | packet (b : Bytes)
  | bufferTooSmall (needed : Nat)
  | timeout (at_ : Nat)
deriving DecidableEq, Repr

/-- `src/auto.rs:317-332`, `ClientPending::poll_output` with an output buffer of `cap` bytes. -/
def Pending.pollOutput (p : Pending) (cap : Nat) : Pending × POut :=
  if p.needsSend then
    if cap < p.wire.length then (p, .bufferTooSmall p.wire.length)
    else ({ p with needsSend := false }, .packet p.wire)
  else (p, .timeout (p.retransmitAt.getD (p.lastNow + second)))

/-! ## The server-side peek for PSK -/

/-- Outcome of the peek: Rust `bool`, or an index panic. -/
inductive Peek where
  | no
  | yes
  | panic
deriving DecidableEq, Repr

/-- `src/lib.rs:330-345`, `client_hello_handshake`. -/
def clientHelloHandshake (packet : Bytes) : Option Bytes :=
  if packet.length < 13 ∨ packet.getD 0 0 ≠ 0x16 then none
  else
    match get? packet 13 (ofBe (slice packet 11 2)) with
    | none => none
    | some rb => if rb.length < 12 ∨ rb.getD 0 0 ≠ 1 then none else some rb

/-- The suite loop, `src/lib.rs:455-462`: `chunks_exact(2)` over the offered suites. `allowed` is
`config.dtls12_cipher_suites()` as wire values and `isPsk` the suite predicate. -/
def firstAllowed (allowed : List Nat) (isPsk : Nat → Bool) : Bytes → Peek
  | a :: b :: rest =>
    let s := ofBe [a, b]
    if allowed.contains s then (if isPsk s then .yes else .no)
    else firstAllowed allowed isPsk rest
  | _ => .no

/-- `src/lib.rs:415-463`, `client_hello_wants_psk`. Every unchecked index of the code
(`body[pos]`, `body[pos + 1]`, `body[pos..pos + suites_len]`) is guarded here by an explicit `panic`. -/
def clientHelloWantsPsk (packet : Bytes) (allowed : List Nat) (isPsk : Nat → Bool) : Peek :=
  match clientHelloHandshake packet with
  | none => .no
  | some rb =>
    if rb.length < 12 then .panic else
    if ofBe (slice rb 6 3) ≠ 0 then .no
    else match get? rb 12 (ofBe (slice rb 9 3)) with
      | none => .no
      | some body =>
        match body[34]? with
        | none => .no
        | some sidLen =>
          let pos := 34 + (1 + sidLen.toNat)
          match body[pos]? with
          | none => .no
          | some cookieLen =>
            let pos := pos + (1 + cookieLen.toNat)
            if pos + 2 > body.length then .no
            else
              if pos + 1 ≥ body.length then .panic else
              let suitesLen := ofBe (slice body pos 2)
              let pos := pos + 2
              if pos + suitesLen > body.length ∨ suitesLen % 2 ≠ 0 then .no
              else if body.length < pos + suitesLen then .panic
              else firstAllowed allowed isPsk (slice body pos suitesLen)

end Verif.Auto
