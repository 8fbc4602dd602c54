import Verif.Model.Bytes
/-!
# Record and handshake framing (DTLS 1.2 and 1.3)

Simplification used throughout: a parsed record carries its fragment bytes, where the code carries
a `Range` into the datagram buffer; the range always denotes exactly these bytes.
-/
namespace Verif.Wire

/-- `src/types.rs:416-426`, content type wire values. -/
abbrev ctCCS : UInt8 := 20
abbrev ctAlert : UInt8 := 21
abbrev ctHandshake : UInt8 := 22
abbrev ctAppData : UInt8 := 23
abbrev ctAck : UInt8 := 26

/-- `src/types.rs:790-822`, `ProtocolVersion` wire values accepted in record headers. -/
abbrev verDtls10 : Nat := 0xFEFF
abbrev verDtls12 : Nat := 0xFEFD

/-! ## DTLS 1.2 records -/

/-- `src/dtls12/message/record.rs:17-29`, `struct DTLSRecord`. -/
structure Rec12 where
  ctype : UInt8
  version : Nat
  epoch : Nat
  seq : Nat
  length : Nat
  fragment : Bytes
deriving DecidableEq, Repr

/-- `src/dtls12/message/record.rs:42-111`, `DTLSRecord::parse`. `skip` is `skip_offset`; indexing
`&input[skip_offset..]` beyond the end panics. -/
def parse12 (input : Bytes) (skip : Nat) : PRes Rec12 :=
  (beNat 1 input).bind fun input ctype =>
  (beNat 2 input).bind fun input version =>
  if version ≠ verDtls10 ∧ version ≠ verDtls12 then .failure else
  (beNat 2 input).bind fun input epoch =>
  let ct := UInt8.ofNat ctype
  if epoch = 0 ∧ ct ≠ ctCCS ∧ ct ≠ ctAlert ∧ ct ≠ ctHandshake then .failure else
  (beNat 6 input).bind fun input seq =>
  (beNat 2 input).bind fun input length =>
  if skip > input.length then .panic else
  (take length (input.drop skip)).bind fun rest fragment =>
  .ok rest { ctype := ct, version, epoch, seq, length, fragment }

/-- `src/dtls12/message/record.rs:119-126`, `DTLSRecord::serialize`. -/
def serialize12 (r : Rec12) : Bytes :=
  r.ctype :: (beBytes 2 r.version ++ beBytes 2 r.epoch ++ beBytes 6 r.seq ++ beBytes 2 r.length
    ++ r.fragment)

/-- How the record-splitting loop of a datagram ends. -/
inductive SplitEnd where
  /-- the datagram was consumed -/
  | done
  /-- `InternalError::parse_incomplete()` -/
  | incomplete
  /-- DTLS 1.3: connection-id bit set, rest of datagram discarded -/
  | discardRest
deriving DecidableEq, Repr

/-- `src/dtls12/incoming.rs:78-110`, the boundary search of `Records::parse`: the slices handed to
`Record::parse`, in order, and how the loop ends. In the code the search and the parsing of each
slice are interleaved; the search does not read any state, so it is separated here. The recursion
measure `fuel` is the datagram length (each record consumes at least 13 bytes). -/
def split12Aux : Nat → Bytes → List Bytes × SplitEnd
  | 0, _ => ([], .done)
  | fuel + 1, packet =>
    if packet.isEmpty then ([], .done)
    else if packet.length < 13 then ([], .incomplete)
    else
      let length := ofBe ((packet.drop 11).take 2)
      let recordEnd := 13 + length
      if packet.length < recordEnd then ([], .incomplete)
      else
        let (rs, e) := split12Aux fuel (packet.drop recordEnd)
        (packet.take recordEnd :: rs, e)

def split12 (packet : Bytes) : List Bytes × SplitEnd := split12Aux (packet.length + 1) packet

/-! ## DTLS 1.3 records -/

/-- `src/dtls13/message/record.rs:47-49`, `is_ciphertext_header`: top three bits are `001`. -/
def isCiphertextHeader (b : UInt8) : Bool := b &&& 0xE0 == 0x20

/-- Flag bits of the unified header (`src/dtls13/message/record.rs:149-160`). -/
def flagC (b : UInt8) : Bool := b &&& 0x10 != 0
def flagS (b : UInt8) : Bool := b &&& 0x08 != 0
def flagL (b : UInt8) : Bool := b &&& 0x04 != 0
def epochBits (b : UInt8) : Nat := (b &&& 0x03).toNat

/-- `src/dtls13/message/record.rs:21-34`, `struct Dtls13Record`; `headerLen` is
`fragment_range.start` when the record is parsed at offset 0. -/
structure Rec13 where
  ctype : UInt8
  epoch : Nat
  seq : Nat
  length : Nat
  headerLen : Nat
  fragment : Bytes
deriving DecidableEq, Repr

/-- `src/dtls13/message/record.rs:70-133`, `parse_plaintext`. -/
def parsePlain13 (input : Bytes) : PRes Rec13 :=
  (beNat 1 input).bind fun input ctype =>
  (beNat 2 input).bind fun input version =>
  let ct := UInt8.ofNat ctype
  if ct ≠ ctAlert ∧ ct ≠ ctHandshake ∧ ct ≠ ctAck then .failure else
  if version ≠ verDtls10 ∧ version ≠ verDtls12 then .failure else
  (beNat 2 input).bind fun input epoch =>
  if epoch ≠ 0 then .failure else
  (beNat 6 input).bind fun input seq =>
  (beNat 2 input).bind fun input length =>
  (take length input).bind fun rest fragment =>
  .ok rest { ctype := ct, epoch, seq, length, headerLen := 13, fragment }

/-- `src/dtls13/message/record.rs:145-199`, `parse_ciphertext`. Without the length flag the length
is `input.len() as u16`. -/
def parseCipher13 (input : Bytes) : PRes Rec13 :=
  (beNat 1 input).bind fun input fl =>
  let flags := UInt8.ofNat fl
  if flagC flags then .failure else
  (beNat (if flagS flags then 2 else 1) input).bind fun input seq =>
  let seqLen := if flagS flags then 2 else 1
  if flagL flags then
    (beNat 2 input).bind fun input length =>
    (take length input).bind fun rest fragment =>
    .ok rest { ctype := ctAppData, epoch := epochBits flags, seq, length,
               headerLen := 1 + seqLen + 2, fragment }
  else
    let length := input.length % 65536
    (take length input).bind fun rest fragment =>
    .ok rest { ctype := ctAppData, epoch := epochBits flags, seq, length,
               headerLen := 1 + seqLen, fragment }

/-- `src/dtls13/message/record.rs:54-67`, `Dtls13Record::parse`. -/
def parse13 (input : Bytes) : PRes Rec13 :=
  match input with
  | [] => .error
  | b :: _ => if isCiphertextHeader b then parseCipher13 input else parsePlain13 input

/-- `src/dtls13/message/record.rs:215-222`, `serialize_plaintext`. -/
def serializePlain13 (ctype : UInt8) (epoch seq length : Nat) (fragment : Bytes) : Bytes :=
  ctype :: (beBytes 2 verDtls12 ++ beBytes 2 epoch ++ beBytes 6 seq ++ beBytes 2 length ++ fragment)

/-- `src/dtls13/message/record.rs:224-234`, `serialize_ciphertext`, and the header built by
`create_ciphertext_record`, `src/dtls13/engine.rs:1075-1090`: S=1, L=1, low epoch bits. -/
def cipherFlags (epoch : Nat) : UInt8 := 0x2C ||| (UInt8.ofNat epoch &&& 0x03)
def serializeCipher13 (epoch seq length : Nat) (fragment : Bytes) : Bytes :=
  cipherFlags epoch :: (beBytes 2 seq ++ beBytes 2 length ++ fragment)

/-- End of the first record of a 1.3 datagram, `src/dtls13/incoming.rs:79-128`: `none` means the
rest is discarded (connection id), `some none` incomplete, `some (some n)` the record end. -/
def recordEnd13 (packet : Bytes) : Option (Option Nat) :=
  match packet with
  | [] => some none
  | b :: _ =>
    if isCiphertextHeader b then
      if flagC b then none
      else if packet.length < 2 then some none
      else
        let seqLen := if flagS b then 2 else 1
        let lenLen := if flagL b then 2 else 0
        let headerLen := 1 + seqLen + lenLen
        if packet.length < headerLen then some none
        else if flagL b then
          some (some (headerLen + ofBe ((packet.drop (1 + seqLen)).take 2)))
        else some (some packet.length)
    else if packet.length < 13 then some none
    else some (some (13 + ofBe ((packet.drop 11).take 2)))

/-- `src/dtls13/incoming.rs:76-147`, the boundary search of `Records::parse` for DTLS 1.3, same
separation as `split12Aux`. -/
def split13Aux : Nat → Bytes → List Bytes × SplitEnd
  | 0, _ => ([], .done)
  | fuel + 1, packet =>
    if packet.isEmpty then ([], .done)
    else match recordEnd13 packet with
      | none => ([], .discardRest)
      | some none => ([], .incomplete)
      | some (some n) =>
        if packet.length < n then ([], .incomplete)
        else
          let (rs, e) := split13Aux fuel (packet.drop n)
          (packet.take n :: rs, e)

def split13 (packet : Bytes) : List Bytes × SplitEnd := split13Aux (packet.length + 1) packet

/-- `src/dtls13/incoming.rs:467-481`, `recover_inner_content_type`: scan backwards over zero
padding; the last non-zero byte is the content type, what precedes it is the content. -/
def recoverInner (decrypted : Bytes) : Option (UInt8 × Bytes) :=
  match decrypted.reverse.dropWhile (· == 0) with
  | [] => none
  | ct :: revContent => some (ct, revContent.reverse)

/-- `src/dtls13/engine.rs:1040-1047`: `DTLSInnerPlaintext` as sent, content followed by the type
byte and no padding. -/
def innerPlaintext (ct : UInt8) (content : Bytes) : Bytes := content ++ [ct]

/-! ## Handshake messages (identical framing in both versions) -/

/-- `src/dtls12/message/handshake.rs:30-37` / `src/dtls13/message/handshake.rs` `struct Header`. -/
structure HsHeader where
  msgType : UInt8
  length : Nat
  messageSeq : Nat
  fragOff : Nat
  fragLen : Nat
deriving DecidableEq, Repr

/-- A parsed handshake fragment: header, body bytes and the `handled` flag
(`src/dtls12/message/handshake.rs:39-44`, with `Body::Fragment`). -/
structure Hs where
  header : HsHeader
  body : Bytes
  handled : Bool
deriving DecidableEq, Repr

/-- `src/dtls12/message/handshake.rs:79-96`, `parse_header`
(`src/dtls13/message/handshake.rs:70-87` is identical). -/
def parseHsHeader (input : Bytes) : PRes HsHeader :=
  (beNat 1 input).bind fun input mt =>
  (beNat 3 input).bind fun input length =>
  (beNat 2 input).bind fun input messageSeq =>
  (beNat 3 input).bind fun input fragOff =>
  (beNat 3 input).bind fun input fragLen =>
  .ok input { msgType := UInt8.ofNat mt, length, messageSeq, fragOff, fragLen }

/-- `src/dtls12/message/handshake.rs:98-138`, `Handshake::parse` with `as_fragment = true`
(`src/dtls13/message/handshake.rs:89-129` is identical). -/
def parseHsFragment (input : Bytes) : PRes Hs :=
  (parseHsHeader input).bind fun input header =>
  (take header.fragLen input).bind fun rest body =>
  .ok rest { header, body, handled := false }

/-- `src/dtls12/message/handshake.rs:140-147`, `Handshake::serialize` for a fragment body. -/
def serializeHsHeader (h : HsHeader) : Bytes :=
  h.msgType :: (beBytes 3 h.length ++ beBytes 2 h.messageSeq ++ beBytes 3 h.fragOff
    ++ beBytes 3 h.fragLen)

def serializeHs (h : HsHeader) (body : Bytes) : Bytes := serializeHsHeader h ++ body

/-- `src/dtls12/incoming.rs:329-351` and `src/dtls13/incoming.rs:441-461`, `parse_handshakes`:
fragments from the front of a record until one does not parse, at most eight (the ninth is parsed
and dropped). `n` counts the free slots. -/
def parseHandshakes : Nat → Bytes → List Hs
  | 0, _ => []
  | n + 1, input =>
    if input.isEmpty then []
    else match parseHsFragment input with
      | .ok rest h => h :: parseHandshakes n rest
      | _ => []

end Verif.Wire
