import Verif.Model.Cipher
import Verif.Model.Engine13
/-!
# Masks of record numbers

`encrypt_sn` of the two back ends and where the engine of DTLS 1.3 calls it for a received record. `none` is a panic.
-/
namespace Verif.Mask
open Verif.Sign (Maker)

/-- The primitives. `ecb` is one block of AES, `block` a block of 64 bytes of the key stream of ChaCha20. `left` is how
many blocks the library behind RustCrypto says it can give from a position on; `apply_keystream` panics if it has too
few. That library is not in `/repo`. Version 0.9.1 of `chacha20`, the one in `Cargo.lock`, subtracts the position from the
greatest `u32`, see `chacha20Left`. -/
structure Prim where
  ecb : (key sample : Bytes) → Bytes
  block : (key : Bytes) → (counter : Nat) → (nonce : Bytes) → Bytes
  left : Nat → Nat

/-- `remaining_blocks` of `chacha20` 0.9.1, to the best of our knowledge: outside `/repo`, so nothing but
`chacha_refuses` and `demo_panics` is said with it. -/
def chacha20Left (counter : Nat) : Nat := 2 ^ 32 - 1 - counter

/-- `u32::from_le_bytes`. -/
def le32 (b : Bytes) : Nat :=
  (b.getD 0 0).toNat + 256 * (b.getD 1 0).toNat + 65536 * (b.getD 2 0).toNat + 16777216 * (b.getD 3 0).toNat

/-- `encrypt_sn` for AES: `src/crypto/rust_crypto/cipher_suite.rs:361-367, 399-405`,
`src/crypto/aws_lc_rs/cipher_suite.rs:335-337, 369-371, 430-444`. Making the key fails for another length. -/
def aesSn (p : Prim) (keyLen : Nat) (key sample : Bytes) : Option Bytes :=
  if key.length = keyLen then some (p.ecb key sample) else none

/-- `encrypt_sn` for ChaCha20 with RustCrypto, `src/crypto/rust_crypto/cipher_suite.rs:437-454`: to byte `counter * 64`,
then sixteen bytes. `Key::from_slice` panics for another length. -/
def chachaRust (p : Prim) (key sample : Bytes) : Option Bytes :=
  if key.length = 32 then
    let pos := le32 (sample.take 4) % 2 ^ 32 * 64 % 2 ^ 64
    if p.left (pos / 64) = 0 then none
    else some (((p.block key (pos / 64) (sample.drop 4)).drop (pos % 64)).take 16)
  else none

/-- `encrypt_sn` for ChaCha20 with aws-lc-rs, `src/crypto/aws_lc_rs/cipher_suite.rs:403-414`: the library gives five
bytes, the others stay zero. -/
def chachaAws (p : Prim) (key sample : Bytes) : Option Bytes :=
  if key.length = 32 then
    some ((p.block key (le32 (sample.take 4)) (sample.drop 4)).take 5 ++ List.replicate 11 0)
  else none

/-- `encrypt_sn` of the suites of a back end; `none` also if there is no such suite. -/
def encryptSn (p : Prim) (m : Maker) (suite : Nat) (key sample : Bytes) : Option Bytes :=
  if suite = 0x1301 then aesSn p 16 key sample
  else if suite = 0x1302 then aesSn p 32 key sample
  else if suite = 0x1303 then
    match m with
    | .rustCrypto => chachaRust p key sample
    | .awsLc => chachaAws p key sample
  else none

/-- The two bytes of the mask that are used, `src/dtls13/engine.rs:2525-2528`; for sending `:1050-1059` and the
exclusive or behind it. -/
def mask (p : Prim) (m : Maker) (suite : Nat) (key sample : Bytes) : Option (UInt8 × UInt8) :=
  match encryptSn p m suite key sample with
  | some (a :: b :: _) => some (a, b)
  | _ => none

/-- The record-number part of `Record::parse`, `src/dtls13/incoming.rs:188-216`, like `E13.unmask` but with a mask that
may panic. -/
def unmask (f : Nat → Bytes → Bytes → Option (UInt8 × UInt8)) (env : E13.Env) (s : E13.Eng) (slice : Bytes) :
    Option Bytes :=
  match slice with
  | [] => some []
  | b :: _ =>
    let hl := E13.cipherHeaderLen b
    if slice.length ≥ hl + 16 then
      match s.recvKeys (s.resolveEpoch (Wire.epochBits b)) with
      | none => some slice
      | some k =>
        match s.suite, s.tag env with
        | some suite, some _ =>
          match f suite k.sn ((slice.drop hl).take 16) with
          | some v => some (E13.unmaskWith v slice)
          | none => none
        | _, _ => none
    else some slice

/-- A DTLS 1.3 environment with the masks of a back end, where they do not panic. -/
def with13 (env : E13.PEnv) (p : Prim) (m : Maker) : E13.PEnv :=
  { env with snMask := fun suite key sample => (mask p m suite key sample).getD (0, 0) }

end Verif.Mask
