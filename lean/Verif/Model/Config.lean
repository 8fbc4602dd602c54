/-!
# Configuration (`src/config.rs`)

Suites and groups are their 16-bit wire values. The crypto provider is the list of what it offers plus
the outcome of the self tests (`CryptoProvider::validate` beyond the two checks modelled here).
-/
namespace Verif.Config

/-- `Dtls12CipherSuite::is_psk`, `src/dtls12/message/mod.rs:136-138`. -/
def isPsk (s : Nat) : Bool := s == 0xC0A8

/-- The provider as the builder sees it: `supported_cipher_suites()`, `dtls13_cipher_suites`,
`supported_kx_groups()` (`src/crypto/validation/mod.rs:24-46`), and whether the remaining self tests
of `validate` (`:78-87`) pass. -/
structure Provider where
  suites12 : List Nat
  suites13 : List Nat
  groups : List Nat
  selfTestOk : Bool
deriving DecidableEq, Repr

/-- `src/config.rs:291-310`, the builder fields `build` reads. -/
structure Builder where
  mtu : Nat
  aeadLimit : Nat
  suites12 : Option (List Nat)
  suites13 : Option (List Nat)
  groups : Option (List Nat)
  psk : Bool
deriving DecidableEq, Repr

/-- `src/error.rs:540-560`, `ConfigError`. -/
inductive ConfigError where
  | mtuTooSmall
  | aeadLimitTooSmall
  | noCipherSuites
  | pskWithoutPskSuite
  | noGroups12
  | noGroups13
  | provider
deriving DecidableEq, Repr

/-- `src/config.rs:63-79`, the built configuration. -/
structure Config where
  provider : Provider
  mtu : Nat
  aeadLimit : Nat
  suites12 : Option (List Nat)
  suites13 : Option (List Nat)
  groups : Option (List Nat)
  psk : Bool
deriving DecidableEq, Repr

/-- An allow-list; `None` allows everything. -/
def allows (filter : Option (List Nat)) (s : Nat) : Bool :=
  match filter with
  | some l => l.contains s
  | none => true

/-- `Config::dtls12_cipher_suites`, `src/config.rs:241-254`. -/
def Config.dtls12Suites (c : Config) : List Nat :=
  (c.provider.suites12.filter (allows c.suites12)).filter fun s => c.psk || !isPsk s

/-- `Config::dtls13_cipher_suites`, `src/config.rs:260-272`. -/
def Config.dtls13Suites (c : Config) : List Nat := c.provider.suites13.filter (allows c.suites13)

/-- `Config::kx_groups`, `src/config.rs:279-287`. -/
def Config.kxGroups (c : Config) : List Nat := c.provider.groups.filter (allows c.groups)

/-- `CryptoProvider::validate`, `src/crypto/validation/mod.rs:75-112`: the first two checks, then the
self tests as one flag. ECC suites are the known non-PSK ones. -/
def Provider.valid (p : Provider) : Bool :=
  !p.suites12.isEmpty && !(p.suites12.any (!isPsk ·) && p.groups.isEmpty) && p.selfTestOk

/-- `let dtls12_suites`, `src/config.rs:524-535`. -/
def enabled12 (filter : Option (List Nat)) (psk : Bool) (all : List Nat) : List Nat :=
  match filter with
  | some l => (all.filter (l.contains ·)).filter fun s => psk || !isPsk s
  | none => all.filter fun s => psk || !isPsk s

/-- `let dtls13_count`, `src/config.rs:537-543`. -/
def count13 (filter : Option (List Nat)) (all : List Nat) : Nat :=
  match filter with
  | some l => (all.filter (l.contains ·)).length
  | none => all.length

/-- `let filtered_kx`, `src/config.rs:571-576`. -/
def filteredKx (filter : Option (List Nat)) (g : Nat) : Bool :=
  match filter with
  | some l => l.contains g
  | none => true

/-- `ConfigBuilder::build`, `src/config.rs:488-614`. -/
def build (b : Builder) (p : Provider) : Except ConfigError Config :=
  if !p.valid then .error .provider
  else if b.mtu < 64 then .error .mtuTooSmall
  else if b.aeadLimit = 0 then .error .aeadLimitTooSmall
  else
    let suites12 := enabled12 b.suites12 b.psk p.suites12
    let count13 := count13 b.suites13 p.suites13
    if suites12.length + count13 = 0 then .error .noCipherSuites
    else if b.psk && !(suites12.any isPsk) then .error .pskWithoutPskSuite
    else
      let filteredKx := filteredKx b.groups
      if suites12.any (!isPsk ·) && (p.groups.filter filteredKx).length = 0 then .error .noGroups12
      else if count13 > 0 && (p.groups.filter filteredKx).length = 0 then .error .noGroups13
      else .ok { provider := p, mtu := b.mtu, aeadLimit := b.aeadLimit, suites12 := b.suites12,
                 suites13 := b.suites13, groups := b.groups, psk := b.psk }

end Verif.Config
