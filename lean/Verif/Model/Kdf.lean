import Verif.Model.Bytes
/-!
# TLS 1.2 PRF and HKDF (`src/crypto/prf_hkdf.rs`)

`hmac key msg` is a parameter (the `HmacProvider`); provider errors are not modelled.
-/
namespace Verif.Kdf
open Verif

/-- An HMAC provider: `src/crypto/provider.rs` `HmacProvider::hmac`. -/
abbrev Hmac := Bytes → Bytes → Bytes

/-- The loop of `prf_tls12`, `src/crypto/prf_hkdf.rs:51-66`. `a` is `payload[..hash_len]`, `ls` the
rest of the payload (label ++ seed). `fuel` bounds the number of rounds; `outputLen` rounds are always
enough because each round adds at least one byte. -/
def prfLoop (hmac : Hmac) (secret ls : Bytes) (outputLen : Nat) : Nat → Bytes → Bytes → Bytes
  | 0, _, out => out
  | fuel + 1, a, out =>
    if out.length < outputLen then
      let block := hmac secret (a ++ ls)
      let remaining := outputLen - out.length
      let out := out ++ block.take (min remaining block.length)
      if out.length < outputLen then prfLoop hmac secret ls outputLen fuel (hmac secret a) out
      else prfLoop hmac secret ls outputLen fuel a out
    else out

/-- `src/crypto/prf_hkdf.rs:24-69`, `prf_tls12`. -/
def prfTls12 (hmac : Hmac) (secret label seed : Bytes) (outputLen : Nat) : Bytes :=
  let labelSeed := label ++ seed
  let a1 := hmac secret labelSeed
  prfLoop hmac secret labelSeed outputLen outputLen a1 []

/-- `src/crypto/prf_hkdf.rs:76-96`, `hkdf_extract`. -/
def hkdfExtract (hmac : Hmac) (hashLen : Nat) (salt ikm : Bytes) : Bytes :=
  hmac (if salt.isEmpty then List.replicate hashLen 0 else salt) ikm

/-- The loop of `hkdf_expand`, `src/crypto/prf_hkdf.rs:116-127`: `i` is the current counter, `n` the
rounds left. -/
def expandLoop (hmac : Hmac) (prk info : Bytes) (outputLen : Nat) : Nat → Nat → Bytes → Bytes → Bytes
  | 0, _, _, out => out
  | n + 1, i, tPrev, out =>
    let t := hmac prk (tPrev ++ info ++ [UInt8.ofNat i])
    let remaining := outputLen - out.length
    expandLoop hmac prk info outputLen n (i + 1) t (out ++ t.take (min remaining t.length))

/-- `src/crypto/prf_hkdf.rs:99-129`, `hkdf_expand`; `none` is `HkdfOutputTooLong`. -/
def hkdfExpand (hmac : Hmac) (hashLen : Nat) (prk info : Bytes) (outputLen : Nat) : Option Bytes :=
  let n := (outputLen + hashLen - 1) / hashLen
  if n > 255 then none
  else some (expandLoop hmac prk info outputLen n 1 [] [])

/-- `src/crypto/prf_hkdf.rs:172-207`, `build_hkdf_label`; `none` is one of the three length errors. -/
def buildHkdfLabel (pfx label context : Bytes) (outputLen : Nat) : Option Bytes :=
  let fullLabelLen := pfx.length + label.length
  if fullLabelLen > 255 then none
  else if context.length > 255 then none
  else if outputLen > 65535 then none
  else some (beBytes 2 outputLen ++ [UInt8.ofNat fullLabelLen] ++ pfx ++ label ++
    [UInt8.ofNat context.length] ++ context)

/-- The prefix `b"dtls13"` of `hkdf_expand_label_dtls13`, `src/crypto/prf_hkdf.rs:157`. -/
def dtls13Prefix : Bytes := [0x64, 0x74, 0x6c, 0x73, 0x31, 0x33]

/-- `src/crypto/prf_hkdf.rs:148-159`, `hkdf_expand_label_dtls13`. -/
def hkdfExpandLabelDtls13 (hmac : Hmac) (hashLen : Nat) (secret label context : Bytes)
    (outputLen : Nat) : Option Bytes :=
  (buildHkdfLabel dtls13Prefix label context outputLen).bind fun info =>
    hkdfExpand hmac hashLen secret info outputLen

end Verif.Kdf
