import Verif.Model.Bytes
/-!
# Certificate fingerprints (`src/certificate.rs`)

SHA-256 is a parameter. A string is a list of characters.
-/
namespace Verif.Fingerprint

/-- A digit of `{:02X}`, `src/certificate.rs:101`. -/
def digit (n : Nat) : Char := if n < 10 then Char.ofNat (48 + n) else Char.ofNat (55 + n)

/-- `format!("{:02X}", byte)`, `src/certificate.rs:101`. -/
def formatByte (b : UInt8) : List Char := [digit (b.toNat / 16), digit (b.toNat % 16)]

/-- `[String]::join(":")`, `src/certificate.rs:103`. -/
def join : List (List Char) → List Char
  | [] => []
  | [x] => x
  | x :: y :: rest => x ++ ':' :: join (y :: rest)

/-- `format_fingerprint`, `src/certificate.rs:98-104`. -/
def format (fingerprint : Bytes) : List Char := join (fingerprint.map formatByte)

/-- `DtlsCertificate::fingerprint`, `src/certificate.rs:113-115`, and `calculate_fingerprint`,
`src/certificate.rs:89-92`. -/
def fingerprint (sha256 : Bytes → Bytes) (cert : Bytes) : Bytes := sha256 cert

/-- `DtlsCertificate::fingerprint_str`, `src/certificate.rs:123-125`. -/
def fingerprintStr (sha256 : Bytes → Bytes) (cert : Bytes) : List Char := format (fingerprint sha256 cert)

end Verif.Fingerprint
