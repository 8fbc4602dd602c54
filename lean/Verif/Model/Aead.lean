import Verif.Model.Bytes
/-!
# AEAD nonces and additional data (`src/crypto/dtls_aead.rs`)
-/
namespace Verif.Aead
open Verif

/-- Byte-wise XOR of two strings of equal length. -/
def xorBytes (a b : Bytes) : Bytes := List.zipWith (· ^^^ ·) a b

/-- `src/crypto/dtls_aead.rs:128-136`, `Nonce::xor`: the last eight bytes of the 12-byte IV are XORed
with the big-endian sequence number. -/
def nonceXor (iv : Bytes) (seq : Nat) : Bytes :=
  iv.take 4 ++ xorBytes (iv.drop 4) (beBytes 8 seq)

/-- `src/crypto/dtls_aead.rs:106-121`, `Nonce::new`: fixed IV then explicit nonce; `none` is the
failing `assert_eq!` on the total length (a panic). -/
def nonceNew (iv explicit : Bytes) : Option Bytes :=
  if iv.length + explicit.length = 12 then some (iv ++ explicit) else none

/-- `seq64` of `create_record_inner`, `src/dtls12/engine.rs:818`: epoch in the top 16 bits, OR-ed with
the sequence number. -/
def seq64 (epoch seq : Nat) : Nat := ((epoch <<< 48) ||| seq) % 2 ^ 64

/-- `src/crypto/dtls_aead.rs:147-169`, `Aad::new_dtls12`. The eight sequence bytes are written first
and the two top ones overwritten by the epoch. -/
def aad12 (ctype : UInt8) (epoch seq length : Nat) : Bytes :=
  beBytes 2 epoch ++ (beBytes 8 seq).drop 2 ++ [ctype, 0xfe, 0xfd] ++ beBytes 2 length

/-- `src/crypto/dtls_aead.rs:174-179`, `Aad::new_dtls13`: the header bytes. `none`: the `unwrap` on
the 13-byte capacity fails. -/
def aad13 (header : Bytes) : Option Bytes := if header.length ≤ 13 then some header else none

end Verif.Aead
