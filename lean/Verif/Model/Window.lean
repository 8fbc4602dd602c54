/-!
# Anti-replay window (`src/window.rs`)

`u64` sequence numbers are `Nat`: the code only compares and subtracts them (never adds), so no
wrap-around can occur. The 64-bit bitmap is a `BitVec 64`, on which the shifts are exact.
-/
namespace Verif.Window

/-- `src/window.rs:8-12`, `struct ReplayWindow`. -/
structure ReplayWindow where
  maxSeq : Nat
  window : BitVec 64
deriving DecidableEq, Repr

/-- `src/window.rs:15-17`, `ReplayWindow::new` (derived `Default`). -/
def ReplayWindow.new : ReplayWindow := { maxSeq := 0, window := 0#64 }

/-- `src/window.rs:21-32`, `ReplayWindow::check`. -/
def ReplayWindow.check (w : ReplayWindow) (seqno : Nat) : Bool :=
  if seqno > w.maxSeq then true
  else
    let offset := w.maxSeq - seqno
    if offset ≥ 64 then false
    else
      let mask := 1#64 <<< offset
      (w.window &&& mask) == 0#64

/-- `src/window.rs:36-53`, `ReplayWindow::update`. -/
def ReplayWindow.update (w : ReplayWindow) (seqno : Nat) : ReplayWindow :=
  if seqno > w.maxSeq then
    let delta := seqno - w.maxSeq
    if delta > 63 then { maxSeq := seqno, window := 1#64 }
    else { maxSeq := seqno, window := (w.window <<< delta) ||| 1#64 }
  else
    let offset := w.maxSeq - seqno
    if offset < 64 then { w with window := w.window ||| (1#64 <<< offset) }
    else w

/-- The receive discipline around the window, `src/dtls13/incoming.rs:240-290` and
`src/dtls12/incoming.rs:160-210`: check first, open the record, and only if it authenticated
update the window. `auth` is the outcome of opening the record. Returns whether the record was
accepted. -/
def ReplayWindow.offer (w : ReplayWindow) (seqno : Nat) (auth : Bool) : ReplayWindow × Bool :=
  if w.check seqno then
    if auth then (w.update seqno, true) else (w, false)
  else (w, false)

/-- A whole history of offered records, oldest first. Returns the final window and the accept
decision for each offered record. -/
def ReplayWindow.run (w : ReplayWindow) : List (Nat × Bool) → ReplayWindow × List Bool
  | [] => (w, [])
  | (n, a) :: rest =>
    let (w', d) := w.offer n a
    let (w'', ds) := w'.run rest
    (w'', d :: ds)

end Verif.Window
