import Verif.Model.Schedule
import Verif.Model.Sign
/-!
# Ciphers around the primitive

`Cipher` of the two back ends, `TmpBuf` of `buffer.rs`, and the tables of cipher suites. The primitive works on a text
and a tag apart from each other. Errors are not told apart.
-/
namespace Verif.Cipher
open Verif.Sign (Maker)

/-- The ciphers: `AesGcm`, `ChaCha20Poly1305Cipher`, `AesCcm8Cipher`. -/
inductive Kind
  | aesGcm
  | chacha
  | ccm8
deriving DecidableEq, Repr

/-- The primitive of a cipher for a key, a nonce and additional data. -/
structure Prim where
  lock : Kind → (key nonce aad plain : Bytes) → Option (Bytes × Bytes)
  unlock : Kind → (key nonce aad text tag : Bytes) → Option Bytes

/-- `TmpBuf`, `src/buffer.rs:149-162`: a slice and a length. -/
structure Tmp where
  data : Bytes
  len : Nat
deriving DecidableEq, Repr

/-- `TmpBuf::new`, `src/buffer.rs:159-161`. -/
def Tmp.new (d : Bytes) : Tmp := ⟨d, d.length⟩

/-- `TmpBuf::truncate`, `src/buffer.rs:171-173`, which also lengthens. -/
def Tmp.truncate (t : Tmp) (n : Nat) : Tmp := { t with len := n }

/-- `Buffer::truncate` for `TmpBuf`, `src/buffer.rs:202-206`. -/
def Tmp.shorten (t : Tmp) (n : Nat) : Tmp := if n ≤ t.len then { t with len := n } else t

/-- `as_ref` and `as_mut`, `src/buffer.rs:176-186`; `none`: the slice is too short, a panic. -/
def Tmp.view (t : Tmp) : Option Bytes := if t.len ≤ t.data.length then some (t.data.take t.len) else none

/-- Writing `d` to the start of the slice. -/
def Tmp.write (t : Tmp) (d : Bytes) : Tmp := { t with data := d ++ t.data.drop d.length }

/-- Outcome of an operation on a `TmpBuf`. After an error its contents are not looked at. -/
inductive Res
  | ok (t : Tmp)
  | err
  | panic
deriving DecidableEq, Repr

/-- `encrypt`, `src/crypto/rust_crypto/cipher_suite.rs:51-77, 151-163`, `src/crypto/aws_lc_rs/cipher_suite.rs:49-60,
123-134`, `src/crypto/ccm_cipher.rs:45-56`: the tag is put after the text, by the library or here. `Nonce` has 12 bytes. -/
def encrypt (p : Prim) (k : Kind) (key nonce aad data : Bytes) : Option Bytes :=
  match p.lock k key nonce aad data with
  | some (c, t) => some (c ++ t)
  | none => none

/-- `decrypt` of RustCrypto, `src/crypto/rust_crypto/cipher_suite.rs:79-120, 165-189`. `decrypt_in_place` of the library
splits off the tag, opens in place and calls `Buffer::truncate`. -/
def decryptRust (p : Prim) (k : Kind) (key nonce aad : Bytes) (t : Tmp) : Res :=
  if t.len < 16 then .err
  else match t.view with
    | none => .panic
    | some c =>
      match p.unlock k key nonce aad (c.take (t.len - 16)) (c.drop (t.len - 16)) with
      | none => .err
      | some d => .ok ((t.write d).shorten (t.len - 16))

/-- `decrypt` of aws-lc-rs, `src/crypto/aws_lc_rs/cipher_suite.rs:62-89, 136-163`. `open_in_place` of the library gives the
part of the slice that holds the plaintext. -/
def decryptAws (p : Prim) (k : Kind) (key nonce aad : Bytes) (t : Tmp) : Res :=
  if t.len < 16 then .err
  else match t.view with
    | none => .panic
    | some c =>
      match p.unlock k key nonce aad (c.take (c.length - 16)) (c.drop (c.length - 16)) with
      | none => .err
      | some d => .ok ((t.write d).truncate d.length)

/-- `decrypt` of AES-CCM-8, `src/crypto/ccm_cipher.rs:58-87`. -/
def decryptCcm (p : Prim) (key nonce aad : Bytes) (t : Tmp) : Res :=
  if t.len < 8 then .err
  else
    let n := t.len - 8
    match t.view with
    | none => .panic
    | some c =>
      let tag := c.drop n
      let t := t.truncate n
      match t.view with
      | none => .panic
      | some c =>
        match p.unlock .ccm8 key nonce aad c tag with
        | none => .err
        | some d => .ok (t.write d)

/-- `decrypt` of a cipher of a back end. Both have the same AES-CCM-8. -/
def decrypt (p : Prim) (m : Maker) (k : Kind) (key nonce aad : Bytes) (t : Tmp) : Res :=
  match k, m with
  | .ccm8, _ => decryptCcm p key nonce aad t
  | k, .rustCrypto => decryptRust p k key nonce aad t
  | k, .awsLc => decryptAws p k key nonce aad t

/-- Whether `create_cipher` takes a key: `src/crypto/rust_crypto/cipher_suite.rs:33-47, 136-147`,
`src/crypto/aws_lc_rs/cipher_suite.rs:28-45, 105-119`, `src/crypto/ccm_cipher.rs:30-42`. -/
def creates (k : Kind) (key : Bytes) : Bool :=
  match k with
  | .aesGcm => key.length == 16 || key.length == 32
  | .chacha => key.length == 32
  | .ccm8 => key.length == 16

/-- A cipher suite of DTLS 1.2: `create_cipher`, `key_lengths`, `explicit_nonce_len`, `tag_len`. -/
structure Suite12 where
  kind : Kind
  macLen : Nat
  keyLen : Nat
  ivLen : Nat
  explicit : Nat
  tag : Nat
deriving DecidableEq, Repr

/-- `ALL_CIPHER_SUITES`, `src/crypto/rust_crypto/cipher_suite.rs:192-326`, `src/crypto/aws_lc_rs/cipher_suite.rs:166-300`. -/
def suite12 (n : Nat) : Option Suite12 :=
  if n = 0xC02B then some ⟨.aesGcm, 0, 16, 4, 8, 16⟩
  else if n = 0xC02C then some ⟨.aesGcm, 0, 32, 4, 8, 16⟩
  else if n = 0xCCA9 then some ⟨.chacha, 0, 32, 12, 0, 16⟩
  else if n = 0xC0A8 then some ⟨.ccm8, 0, 16, 4, 8, 8⟩
  else none

/-- `explicit_nonce_len` and `min_protected_fragment_len`, `src/crypto/provider.rs:275-277`. -/
def params12 (n : Nat) : Option (Nat × Nat) := (suite12 n).map fun c => (c.explicit, c.explicit + c.tag)

/-- A cipher suite of DTLS 1.3: `create_cipher`, `key_len`, `iv_len`, `tag_len`. -/
structure Suite13 where
  kind : Kind
  keyLen : Nat
  ivLen : Nat
  tag : Nat
deriving DecidableEq, Repr

/-- `ALL_DTLS13_CIPHER_SUITES`, `src/crypto/rust_crypto/cipher_suite.rs:332-467`,
`src/crypto/aws_lc_rs/cipher_suite.rs:306-427`. -/
def suite13 (n : Nat) : Option Suite13 :=
  if n = 0x1301 then some ⟨.aesGcm, 16, 12, 16⟩
  else if n = 0x1302 then some ⟨.aesGcm, 32, 12, 16⟩
  else if n = 0x1303 then some ⟨.chacha, 32, 12, 16⟩
  else none

/-- Opening as the engines see it: the record is in a buffer of its own and nothing but a success counts. -/
def opened (p : Prim) (m : Maker) (k : Kind) (key nonce aad c : Bytes) : Option Bytes :=
  match decrypt p m k key nonce aad (.new c) with
  | .ok t => t.view
  | _ => none

/-- A DTLS 1.2 environment of a session with the cipher `k` of a back end and its suites. -/
def with12 (env : E12.PEnv) (p : Prim) (m : Maker) (k : Kind) : E12.PEnv :=
  { env with enc := encrypt p k, dec := opened p m k, suiteParams := params12 }

/-- The parameters of a suite for the key schedule; the hash is given. -/
def schedule12 (base : Schedule.Suite) (c : Suite12) : Schedule.Suite :=
  { base with macLen := c.macLen, keyLen := c.keyLen, ivLen := c.ivLen, creates := creates c.kind }

/-- The same with the key schedule of the code, for the given hashes. -/
def full12 (env : E12.PEnv) (p : Prim) (m : Maker) (k : Kind) (base : Nat → Schedule.Suite) : E12.PEnv :=
  { with12 env p m k with
    deriveKeys := fun n ms cr sr => (suite12 n).bind fun c => Schedule.deriveKeys (schedule12 (base n) c) ms cr sr }

/-- A DTLS 1.3 environment of a session with the cipher `k` of a back end and its suites. -/
def with13 (env : E13.PEnv) (p : Prim) (m : Maker) (k : Kind) : E13.PEnv :=
  { env with enc := encrypt p k, dec := opened p m k, suiteTag := fun n => (suite13 n).map (·.tag) }

end Verif.Cipher
