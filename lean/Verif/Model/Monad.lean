/-!
# Results, errors and the state monad used by the engines

`&mut self` methods returning `Result` are functions `M σ α`: they return a result *and* the new
state, because in Rust the mutations made before an early `?` return stay in place.
-/
namespace Verif

/-- `src/error.rs`, the public `Error`, to the granularity the properties need. The payloads of the
nested error enums are dropped except the alert description. -/
inductive Error where
  | unexpectedMessage
  | invalidState
  | crypto
  | certificate
  | security
  | fatalAlert (description : UInt8)
  | psk
  | receiveQueueFull
  | transmitQueueFull
  | incompleteServerHello
  | timeoutConnect
  | timeoutHandshake
  | config
  | renegotiation
  | handshakePending
  | tooManyClientHelloFragments
  | connectionClosed
  | dtls12Fallback
deriving DecidableEq, Repr

/-- How a call can fail. `transient` is `InternalError::Transient` (`src/error.rs:666-676`), which the
API drops; `fatal` is `InternalError::Fatal`, which it returns; `panic` is a Rust panic (assertion,
index, `unwrap`, integer overflow with overflow checks); `diverge` is a loop that never ends. -/
inductive Fault where
  | transient
  | fatal (e : Error)
  | panic
  | diverge
deriving DecidableEq, Repr

inductive Res (α : Type) where
  | ok (a : α)
  | fail (f : Fault)
deriving DecidableEq, Repr

/-- A `&mut self` method. -/
def M (σ α : Type) : Type := σ → Res α × σ

namespace M
variable {σ τ α β : Type}

/-- Continue after a result. -/
def andThen (r : Res α × σ) (f : α → M σ β) : Res β × σ :=
  match r with
  | (.ok a, s) => f a s
  | (.fail e, s) => (.fail e, s)

def pure (a : α) : M σ α := fun s => (.ok a, s)
def bind (m : M σ α) (f : α → M σ β) : M σ β := fun s => andThen (m s) f

instance : Monad (M σ) where
  pure := M.pure
  bind := M.bind

def get : M σ σ := fun s => (.ok s, s)
def set (s : σ) : M σ Unit := fun _ => (.ok (), s)
def modify (f : σ → σ) : M σ Unit := fun s => (.ok (), f s)
def fail (f : Fault) : M σ α := fun s => (.fail f, s)
def fatal (e : Error) : M σ α := fail (.fatal e)
def transient : M σ α := fail .transient
def panic : M σ α := fail .panic

/-- Run a method of a field on the whole structure. -/
def zoom (proj : τ → σ) (put : τ → σ → τ) (m : M σ α) : M τ α := fun t =>
  ((m (proj t)).1, put t (m (proj t)).2)

end M
end Verif
