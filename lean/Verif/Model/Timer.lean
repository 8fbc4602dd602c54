/-!
# Flight and connect timers (`src/timer.rs`, `handle_timeout` / `poll_timeout` of both engines)

`Duration` and `Instant` are `Nat` nanoseconds. The `f32` jitter is an arbitrary signed number of
nanoseconds supplied by the caller (the code draws it from the RNG in [-0.25 s, 0.25 s)). Overflow of
`Duration` (after some 60 doublings of one second) is not modelled.
-/
namespace Verif.Timer

/-- `src/timer.rs:9-15`, `struct ExponentialBackoff`. -/
structure Backoff where
  startRto : Nat
  retries : Nat
  rto : Nat
  jitter : Int
  left : Nat
deriving DecidableEq, Repr

/-- `src/timer.rs:18-26`, `ExponentialBackoff::new`. -/
def Backoff.new (startRto retries : Nat) (j : Int) : Backoff :=
  { startRto, retries, rto := startRto, jitter := j, left := retries }

/-- `src/timer.rs:28-32`, `reset`. -/
def Backoff.reset (b : Backoff) (j : Int) : Backoff :=
  { b with rto := b.startRto, jitter := j, left := b.retries }

/-- `src/timer.rs:34-42`, `rto()`: saturating subtraction for negative jitter, at least 50 ms. -/
def Backoff.rtoNow (b : Backoff) : Nat :=
  max (if b.jitter < 0 then b.rto - b.jitter.natAbs else b.rto + b.jitter.toNat) 50000000

/-- `src/timer.rs:49-59`, `attempt`. -/
def Backoff.attempt (b : Backoff) (j : Int) : Backoff :=
  if b.left = 0 then b
  else { b with left := b.left - 1, jitter := j, rto := b.rto * 2 }

/-- `src/timer.rs:61-63`, `can_retry`. -/
def Backoff.canRetry (b : Backoff) : Bool := b.left > 0

/-- `enum Timeout`, `src/dtls12/engine.rs:113-118` and `src/dtls13/engine.rs:186-191`. -/
inductive Timeout where
  | disabled
  | unarmed
  | armed (at_ : Nat)
deriving DecidableEq, Repr

/-- `if let Timeout::Armed(t) = … { if now >= t`, `src/dtls12/engine.rs:389-393`,
`src/dtls13/engine.rs:508-512`. -/
def Timeout.expired : Timeout → Nat → Bool
  | .armed t, now => decide (now ≥ t)
  | _, _ => false

/-- The timer fields of an engine: `flight_backoff`, `flight_timeout`, `connect_timeout`. -/
structure Timers where
  backoff : Backoff
  flight : Timeout
  connect : Timeout
deriving DecidableEq, Repr

/-- Initial timers, `src/dtls12/engine.rs:134-170`, `src/dtls13/engine.rs:211-285`. -/
def Timers.new (startRto retries : Nat) (j : Int) : Timers :=
  { backoff := .new startRto retries j, flight := .unarmed, connect := .unarmed }

/-- Result of the timer part of `handle_timeout`. -/
inductive Fired where
  /-- flight timer not armed: nothing more to do -/
  | idle
  /-- flight timer armed and not expired -/
  | waiting
  /-- flight timer expired and re-armed: retransmit the flight -/
  | resend
  /-- `Error::Timeout(TimeoutError::Connect)` -/
  | connectTimeout
  /-- `Error::Timeout(TimeoutError::Handshake)` -/
  | handshakeTimeout
deriving DecidableEq, Repr

/-- First half of `handle_timeout`: arm what is unarmed. `src/dtls12/engine.rs:372-387`,
`src/dtls13/engine.rs:491-506`. -/
def Timers.arm (t : Timers) (handshakeTimeout now : Nat) : Timers :=
  let t := if t.connect = .unarmed then { t with connect := .armed (now + handshakeTimeout) } else t
  if t.flight = .unarmed then { t with flight := .armed (now + t.backoff.rtoNow) } else t

/-- `handle_timeout` of both engines up to the call of `flight_resend`:
`src/dtls12/engine.rs:371-417`, `src/dtls13/engine.rs:490-532`. `j` is the jitter drawn if the flight
is re-armed. -/
def Timers.handle (t : Timers) (handshakeTimeout now : Nat) (j : Int) : Timers × Fired :=
  let t := t.arm handshakeTimeout now
  if t.connect.expired now then (t, .connectTimeout)
  else match t.flight with
    | .armed f =>
      if now ≥ f then
        if t.backoff.canRetry then
          let b := t.backoff.attempt j
          ({ t with backoff := b, flight := .armed (now + b.rtoNow) }, .resend)
        else (t, .handshakeTimeout)
      else (t, .waiting)
    | _ => (t, .idle)

/-- `flight_begin`, `src/dtls12/engine.rs:532-537`, `src/dtls13/engine.rs:668-673` (timer part). -/
def Timers.begin (t : Timers) (j : Int) : Timers :=
  { t with backoff := t.backoff.reset j, flight := .unarmed }

/-- `flight_stop_resend_timers` / `abort` (timer part), `src/dtls12/engine.rs:539-543, 1030-1035`,
`src/dtls13/engine.rs:675-685, 1285-1294`. -/
def Timers.stop (t : Timers) : Timers := { t with flight := .disabled, connect := .disabled }

/-- `const DISTANT_FUTURE`, ten years in nanoseconds. -/
def distantFuture : Nat := 10 * 365 * 24 * 60 * 60 * 1000000000

/-- `poll_timeout` of DTLS 1.2, `src/dtls12/engine.rs:509-530`. -/
def Timers.poll (t : Timers) (now : Nat) : Nat :=
  if t.connect = .disabled ∧ t.flight = .disabled then now + distantFuture
  else match t.connect, t.flight with
    | .armed c, .armed f => if c < f then c else f
    | .armed c, _ => c
    | _, .armed f => f
    | _, _ => now

end Verif.Timer
