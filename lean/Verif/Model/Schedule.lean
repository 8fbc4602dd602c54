import Verif.Model.Kdf
import Verif.Model.Session12
import Verif.Model.Session13
/-!
# Key schedules (`src/dtls13/engine.rs`, `src/dtls12/context.rs`)

The sessions take these functions from `PEnv`. Here they are written out over HMAC and hash; `fill12` and `fill13`
put them in. Errors of the provider's HMAC are not modelled (as in `Model/Kdf`).
-/
namespace Verif.Schedule
open Verif Verif.Kdf

/-- What the schedules take from a cipher suite and the provider: HMAC and hash of the suite's hash algorithm,
`HashAlgorithm::output_len` (`src/types.rs:309-320`), `key_len` and `iv_len` (DTLS 1.3) or `key_lengths` (DTLS 1.2),
`src/crypto/provider.rs`. `creates` is whether `create_cipher` takes the key. -/
structure Suite where
  hmac : Hmac
  hash : Bytes → Bytes
  hashLen : Nat
  macLen : Nat
  keyLen : Nat
  ivLen : Nat
  creates : Bytes → Bool

/-- A byte string literal. -/
def lit (s : String) : Bytes := s.toList.map fun c => UInt8.ofNat c.toNat

/-- `SrtpProfile::keying_material_len`, `src/crypto/keying.rs:51-60`, by the number of the profile in `SrtpProfileId`
(`src/dtls13/message/extensions/use_srtp.rs:13-18`); `none`: there is no such profile. -/
def keyingLen : Nat → Option Nat
  | 1 => some (16 * 2 + 14 * 2)
  | 7 => some (16 * 2 + 12 * 2)
  | 8 => some (32 * 2 + 12 * 2)
  | _ => none

/-! ## DTLS 1.3 -/

/-- `hkdf_expand_label_dtls13` with the suite's HMAC. -/
def expandLabel (c : Suite) (secret label context : Bytes) (len : Nat) : Option Bytes :=
  hkdfExpandLabelDtls13 c.hmac c.hashLen secret label context len

/-- `&[0u8; 48][..hash_len]`, `src/dtls13/engine.rs:1623-1624`. The slice would panic for a hash of more than 48 bytes; no
suite has one (`src/types.rs:724-733`). -/
def zeros (c : Suite) : Bytes := (List.replicate 48 0).take c.hashLen

/-- `derive_early_secret`, `src/dtls13/engine.rs:1620-1629`. -/
def earlySecret (c : Suite) : Bytes := hkdfExtract c.hmac c.hashLen (zeros c) (zeros c)

/-- `derive_handshake_secrets`, `src/dtls13/engine.rs:1634-1695`. -/
def deriveHs (c : Suite) (shared transcript : Bytes) : Option (Bytes × Bytes × Bytes) := do
  let derived ← expandLabel c (earlySecret c) (lit "derived") (c.hash []) c.hashLen
  let hs := hkdfExtract c.hmac c.hashLen derived shared
  let client ← expandLabel c hs (lit "c hs traffic") (c.hash transcript) c.hashLen
  let server ← expandLabel c hs (lit "s hs traffic") (c.hash transcript) c.hashLen
  some (client, server, hs)

/-- `derive_application_secrets`, `src/dtls13/engine.rs:1721-1797`, with the exporter secret it stores last. -/
def deriveApp (c : Suite) (hs transcript : Bytes) : Option (Bytes × Bytes × Bytes) := do
  let derived ← expandLabel c hs (lit "derived") (c.hash []) c.hashLen
  let master := hkdfExtract c.hmac c.hashLen derived (zeros c)
  let exporter ← expandLabel c master (lit "exp master") (c.hash transcript) c.hashLen
  let client ← expandLabel c master (lit "c ap traffic") (c.hash transcript) c.hashLen
  let server ← expandLabel c master (lit "s ap traffic") (c.hash transcript) c.hashLen
  some (client, server, exporter)

/-- `derive_next_traffic_secret`, `src/dtls13/engine.rs:1830-1849`. -/
def nextSecret (c : Suite) (secret : Bytes) : Option Bytes :=
  expandLabel c secret (lit "traffic upd") [] c.hashLen

/-- `derive_epoch_keys`, `src/dtls13/engine.rs:1960-2017`. `copy_from_slice` would panic for an IV of other than twelve
bytes; that is `none` here, and no suite of the two providers has one. -/
def epochKeys (c : Suite) (secret : Bytes) : Option E13.Keys := do
  let key ← expandLabel c secret (lit "key") [] c.keyLen
  let iv ← expandLabel c secret (lit "iv") [] c.ivLen
  let sn ← expandLabel c secret (lit "sn") [] c.keyLen
  if c.creates key && iv.length == 12 then some { key, iv, sn, secret } else none

/-- `compute_verify_data`, `src/dtls13/engine.rs:2029-2065`. -/
def verifyData (c : Suite) (secret transcript : Bytes) : Option Bytes := do
  let key ← expandLabel c secret (lit "finished") [] c.hashLen
  some (hkdfExtract c.hmac c.hashLen key (c.hash transcript))

/-- `extract_srtp_keying_material`, `src/dtls13/engine.rs:2193-2246`. -/
def srtpKeys (c : Suite) (profile : Nat) (exporter : Bytes) : Option Bytes := do
  let len ← keyingLen profile
  let derived ← expandLabel c exporter (lit "EXTRACTOR-dtls_srtp") (c.hash []) c.hashLen
  let km ← expandLabel c derived (lit "exporter") (c.hash []) len
  some (km.take len)

/-- A DTLS 1.3 environment with this key schedule. -/
def fill13 (suites : Nat → Suite) (env : E13.PEnv) : E13.PEnv :=
  { env with
    hash := fun n => (suites n).hash
    epochKeys := fun n => epochKeys (suites n)
    nextSecret := fun n => nextSecret (suites n)
    deriveHs := fun n => deriveHs (suites n)
    deriveApp := fun n => deriveApp (suites n)
    verifyData := fun n => verifyData (suites n)
    srtpKeys := fun n => srtpKeys (suites n) }

/-! ## DTLS 1.2 -/

/-- `derive_extended_master_secret`, `src/dtls12/context.rs:221-250`; the session hash is that of the transcript. -/
def ems (c : Suite) (pms transcript : Bytes) : Bytes :=
  prfTls12 c.hmac pms (lit "extended master secret") (c.hash transcript) 48

/-- The key block of `derive_keys`, `src/dtls12/context.rs:286-305`. -/
def keyBlock (c : Suite) (master clientRandom serverRandom : Bytes) : Bytes :=
  prfTls12 c.hmac master (lit "key expansion") (serverRandom ++ clientRandom) (2 * (c.macLen + c.keyLen + c.ivLen))

/-- `key_block[offset..offset + len]`. -/
def cut (block : Bytes) (offset len : Nat) : Bytes := (block.drop offset).take len

/-- `derive_keys`, `src/dtls12/context.rs:253-340`. `copy_from_slice` panics for a random of other than 32 bytes and
`Iv::new` for more than twelve bytes of IV; both are `none` here (`Random` has 32 bytes, `key_lengths` has 4 or 12). The
MAC keys are cut off and not used. -/
def deriveKeys (c : Suite) (master clientRandom serverRandom : Bytes) : Option E12.Keys :=
  if clientRandom.length = 32 ∧ serverRandom.length = 32 ∧ c.ivLen ≤ 12 then
    let block := keyBlock c master clientRandom serverRandom
    let offset := if c.macLen > 0 then 0 + c.macLen + c.macLen else 0
    let clientKey := cut block offset c.keyLen
    let offset := offset + c.keyLen
    let serverKey := cut block offset c.keyLen
    let offset := offset + c.keyLen
    let clientIv := cut block offset c.ivLen
    let offset := offset + c.ivLen
    let serverIv := cut block offset c.ivLen
    if c.creates clientKey && c.creates serverKey then some { clientKey, serverKey, clientIv, serverIv } else none
  else none

/-- `generate_verify_data`, `src/dtls12/context.rs:435-471`, `src/dtls12/engine.rs:1201-1238`. -/
def verifyData12 (c : Suite) (master : Bytes) (isClient : Bool) (transcript : Bytes) : Bytes :=
  prfTls12 c.hmac master (if isClient then lit "client finished" else lit "server finished") (c.hash transcript) 12

/-- `extract_srtp_keying_material`, `src/dtls12/context.rs:475-523`. `keying_material` holds 88 bytes. -/
def srtpKeys12 (c : Suite) (profile : Nat) (master clientRandom serverRandom : Bytes) : Option Bytes := do
  let len ← keyingLen profile
  let out := prfTls12 c.hmac master (lit "EXTRACTOR-dtls_srtp") (clientRandom ++ serverRandom) len
  if out.length ≤ 88 then some out else none

/-- A DTLS 1.2 environment with this key schedule. `E12.Env.verifyData` is not told the suite: `finished` is the
suite of the session. -/
def fill12 (suites : Nat → Suite) (finished : Nat) (env : E12.PEnv) : E12.PEnv :=
  { env with
    ems := fun n pms t => some (ems (suites n) pms t)
    deriveKeys := fun n => deriveKeys (suites n)
    verifyData := fun m b t => some (verifyData12 (suites finished) m b t)
    srtpKeys := fun n => srtpKeys12 (suites n) }

end Verif.Schedule
