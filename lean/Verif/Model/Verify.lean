import Verif.Model.Session12
import Verif.Model.Session13
/-!
# Signature verification around the primitive

`crypto/provider.rs`, `verify_signature` of the two back ends, and the DTLS 1.3 checks on scheme and curve. The reading of
an X.509 certificate and the elliptic-curve primitive are parameters. Errors are told apart only as far as the sessions
tell them apart.
-/
namespace Verif.Verify

/-- The curves both back ends know, `OID_P256` and `OID_P384`, `src/crypto/provider.rs:157-162`. -/
inductive Curve
  | p256
  | p384
deriving DecidableEq, Repr

/-- Curve parameter of a public key. -/
inductive Param
  | missing
  | invalid
  | other
  | known (c : Curve)
deriving DecidableEq, Repr

/-- What is looked at in the SubjectPublicKeyInfo of a certificate: whether the algorithm is id-ecPublicKey, the bits of
the key if they are whole bytes, and the curve. -/
structure Spki where
  ec : Bool
  key : Option Bytes
  param : Param
deriving DecidableEq, Repr

/-- Certificate reader and primitive: `prim curve hash key data signature`, with hash 4 for SHA-256 and 5 for SHA-384. The
primitive also reads the key and the DER form of the signature. -/
structure Back where
  x509 : Bytes → Option Spki
  prim : Curve → Nat → Bytes → Bytes → Bytes → Bool

/-- `SUPPORTED_VERIFY_SCHEMES`, `src/crypto/provider.rs:304-339`: signature, hash and curve; 3 is ECDSA. -/
def allowList : List (Nat × Nat × Curve) := [(3, 4, .p256), (3, 4, .p384), (3, 5, .p256), (3, 5, .p384)]

/-- `check_verify_scheme`, `src/crypto/provider.rs:342-359`. -/
def checkScheme (sig hash : Nat) (c : Curve) : Bool := allowList.any fun x => x.1 == sig && x.2.1 == hash && x.2.2 == c

/-- `verify_signature`, `src/crypto/rust_crypto/sign.rs:190-273`, `src/crypto/aws_lc_rs/sign.rs:180-241`: the two differ in
the primitive only. The `unreachable!()` after the check is a panic, `none`. -/
def verify (b : Back) (cert data signature : Bytes) (hash sig : Nat) : Option Bool :=
  if sig ≠ 3 then some false
  else match b.x509 cert with
    | none => some false
    | some spki =>
      if spki.ec = false then some false
      else match spki.key with
        | none => some false
        | some key =>
          match spki.param with
          | .known c =>
            if checkScheme sig hash c = false then some false
            else if hash = 4 ∨ hash = 5 then some (b.prim c hash key data signature)
            else none
          | _ => some false

/-- `cert_named_group`, `src/crypto/provider.rs:366-387`. It does not look at the algorithm of the key. -/
def certGroup (b : Back) (cert : Bytes) : Option Curve :=
  match b.x509 cert with
  | some { param := .known c, .. } => some c
  | _ => none

/-- `SignatureScheme::named_group`, `src/types.rs:626-632`. -/
def schemeGroup (scheme : Nat) : Option Curve :=
  if scheme = 0x0403 then some .p256 else if scheme = 0x0503 then some .p384 else none

/-- `signature_scheme_to_components`, `src/dtls13/client.rs:1402-1445`: hash and signature; hash 6 is SHA-512, signature 1
is RSA. -/
def components (scheme : Nat) : Option (Nat × Nat) :=
  if scheme = 0x0403 then some (4, 3)
  else if scheme = 0x0503 then some (5, 3)
  else if scheme = 0x0603 then some (6, 3)
  else if scheme = 0x0804 ∨ scheme = 0x0809 then some (4, 1)
  else if scheme = 0x0805 ∨ scheme = 0x080A then some (5, 1)
  else if scheme = 0x0806 ∨ scheme = 0x080B then some (6, 1)
  else none

/-- `verify_scheme_curve`, `src/dtls13/client.rs:1450-1466`, then `signature_scheme_to_components`. -/
def schemeError (b : Back) (cert : Bytes) (scheme : Nat) : Option Error :=
  match schemeGroup scheme with
  | some expected =>
    match certGroup b cert with
    | none => some .certificate
    | some actual => if expected = actual then (if (components scheme).isSome then none else some .security) else some .security
  | none => if (components scheme).isSome then none else some .security

/-- `Engine::verify_signature` of DTLS 1.3, `src/dtls13/engine.rs:2174-2187`, for a scheme. -/
def verify13 (b : Back) (cert data : Bytes) (scheme : Nat) (signature : Bytes) : Bool :=
  match components scheme with
  | some (hash, sig) => (verify b cert data signature hash sig).getD false
  | none => false

/-- `CryptoContext::verify_signature` of DTLS 1.2, `src/dtls12/context.rs:596-610`: the algorithm is a hash and a
signature. -/
def verify12 (b : Back) (cert data : Bytes) (alg : Nat) (signature : Bytes) : Bool :=
  (verify b cert data signature (alg / 256) (alg % 256)).getD false

/-- The environment of a DTLS 1.2 session with this verification. -/
def with12 (env : E12.PEnv) (b : Back) : E12.PEnv := { env with verifySig := verify12 b }

/-- The environment of a DTLS 1.3 session with this verification. -/
def with13 (env : E13.PEnv) (b : Back) : E13.PEnv := { env with schemeError := schemeError b, verifySig := verify13 b }

end Verif.Verify
