import Verif.Model.Verify
/-!
# Signing keys around the primitive

`SigningKey` of the two back ends. Loading a private key and the elliptic-curve primitive are parameters.
-/
namespace Verif.Sign
open Verif.Verify (Curve)

/-- The two back ends, `src/crypto/rust_crypto` and `src/crypto/aws_lc_rs`. -/
inductive Maker
  | rustCrypto
  | awsLc
deriving DecidableEq, Repr

/-- A loaded private key: `EcdsaSigningKey`, `src/crypto/rust_crypto/sign.rs:20-23`, `src/crypto/aws_lc_rs/sign.rs:21-24`.
`prim tick hash data` signs with it on its curve, with hash 4 for SHA-256 and 5 for SHA-384. `load_private_key` of aws-lc-rs
gives a key of each curve one signing algorithm, so the `panic!` for a third one has no counterpart here. -/
structure Key where
  maker : Maker
  curve : Curve
  prim : Nat → Nat → Bytes → Option Bytes

/-- `algorithm`, `src/crypto/rust_crypto/sign.rs:91-93`, `src/crypto/aws_lc_rs/sign.rs:57-59`; 3 is ECDSA. -/
def algorithm (_ : Key) : Nat := 3

/-- `hash_algorithm`, `src/crypto/rust_crypto/sign.rs:95-100`, `src/crypto/aws_lc_rs/sign.rs:61-69`. -/
def hashAlgorithm (k : Key) : Nat :=
  match k.curve with
  | .p256 => 4
  | .p384 => 5

/-- `supported_hash_algorithms`, `src/crypto/rust_crypto/sign.rs:102-105`, `src/crypto/aws_lc_rs/sign.rs:71-80`. -/
def hashes (k : Key) : List Nat :=
  match k.maker, k.curve with
  | .rustCrypto, _ => [4, 5]
  | .awsLc, .p256 => [4]
  | .awsLc, .p384 => [5]

/-- `sign`, `src/crypto/rust_crypto/sign.rs:35-89`, `src/crypto/aws_lc_rs/sign.rs:35-55`. -/
def sign (k : Key) (tick : Nat) (data : Bytes) (hash : Nat) : Option Bytes :=
  match k.maker with
  | .rustCrypto => if hash = 4 then k.prim tick 4 data else if hash = 5 then k.prim tick 5 data else none
  | .awsLc => if hash ≠ hashAlgorithm k then none else k.prim tick (hashAlgorithm k) data

/-- The scheme for an algorithm and a hash, `src/dtls13/client.rs:1373-1392`; signature 1 is RSA. -/
def scheme (sig hash : Nat) : Option Nat :=
  if sig = 3 ∧ hash = 4 then some 0x0403
  else if sig = 3 ∧ hash = 5 then some 0x0503
  else if sig = 1 ∧ hash = 4 then some 0x0804
  else none

/-- Scheme and signature of a DTLS 1.3 CertificateVerify, `src/dtls13/client.rs:1362-1392`. -/
def sign13 (k : Key) (tick : Nat) (data : Bytes) : Option (Nat × Bytes) := do
  let signature ← sign k tick data (hashAlgorithm k)
  let s ← scheme (algorithm k) (hashAlgorithm k)
  pure (s, signature)

/-- The environment of a DTLS 1.2 session with this key, `src/dtls12/context.rs:423-434, 525-551`. -/
def with12 (env : E12.PEnv) (k : Key) : E12.PEnv :=
  { env with auth := .cert (algorithm k) (hashAlgorithm k) (hashes k), sign := sign k }

/-- The environment of a DTLS 1.3 session with this key. -/
def with13 (env : E13.PEnv) (k : Key) : E13.PEnv := { env with sign := sign13 k }

end Verif.Sign
