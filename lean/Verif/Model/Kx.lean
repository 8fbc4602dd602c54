import Verif.Model.Sign
/-!
# Key exchange around the primitive

`kx_group.rs` of the two back ends. A key pair is that of the `n`-th draw; the curves are parameters.
-/
namespace Verif.Kx
open Verif.Sign (Maker)

/-- The groups of `ALL_KX_GROUPS`, `src/crypto/rust_crypto/kx_group.rs:190-191`, `src/crypto/aws_lc_rs/kx_group.rs:140-141`. -/
inductive Group
  | x25519
  | p256
  | p384
deriving DecidableEq, Repr

/-- Their numbers in `NamedGroup`; `EcdhKeyExchange::new` refuses others, `src/crypto/rust_crypto/kx_group.rs:84`,
`src/crypto/aws_lc_rs/kx_group.rs:33`. -/
def ofNum (n : Nat) : Option Group :=
  if n = 29 then some .x25519 else if n = 23 then some .p256 else if n = 24 then some .p384 else none

/-- The primitives. `secret` is the private key of a draw, `pub` its public key as sent. `x25519` is the function of RFC
7748. `decode` is `from_sec1_bytes` of RustCrypto, with a point written uncompressed; `dh` is the x coordinate of the product.
`agree` is `agree_ephemeral` of aws-lc-rs as a whole. -/
structure Prim where
  secret : Nat → Group → Bytes
  pub : Group → Bytes → Bytes
  x25519 : (secret peer : Bytes) → Bytes
  decode : Group → Bytes → Option Bytes
  dh : Group → (secret point : Bytes) → Bytes
  agree : Group → (secret peer : Bytes) → Option Bytes

/-- `start_exchange` and `pub_key`, `src/crypto/rust_crypto/kx_group.rs:46-87, 90-96`,
`src/crypto/aws_lc_rs/kx_group.rs:27-52, 65-67`. That making a key fails in aws-lc-rs is left out. -/
def start (p : Prim) (n g : Nat) : Option Bytes := (ofNum g).map fun k => p.pub k (p.secret n k)

/-- `complete` of RustCrypto, `src/crypto/rust_crypto/kx_group.rs:98-131`. -/
def completeRust (p : Prim) (k : Group) (secret peer : Bytes) : Option Bytes :=
  match k with
  | .x25519 =>
    if peer.length = 32 then
      let shared := p.x25519 secret peer
      if shared.all (· == 0) then none else some shared
    else none
  | k => (p.decode k peer).map (p.dh k secret)

/-- `complete`, the same for aws-lc-rs, `src/crypto/aws_lc_rs/kx_group.rs:69-86`. -/
def complete (p : Prim) (m : Maker) (n g : Nat) (peer : Bytes) : Option Bytes :=
  (ofNum g).bind fun k =>
    match m with
    | .rustCrypto => completeRust p k (p.secret n k) peer
    | .awsLc => p.agree k (p.secret n k) peer

/-- Environments with the key exchange of a back end: `start_exchange` and `complete` of
`src/crypto/rust_crypto/kx_group.rs:89-182` and `src/crypto/aws_lc_rs/kx_group.rs:64-132`. -/
def with12 (env : E12.PEnv) (p : Prim) (m : Maker) : E12.PEnv :=
  { env with kxStart := start p, kxComplete := complete p m }

/-- The same for DTLS 1.3, `src/crypto/rust_crypto/kx_group.rs:89-182`, `src/crypto/aws_lc_rs/kx_group.rs:64-132`. -/
def with13 (env : E13.PEnv) (p : Prim) (m : Maker) : E13.PEnv :=
  { env with kxStart := start p, kxComplete := complete p m }

end Verif.Kx
