import Verif.Model.Bytes
/-!
# The time in a DTLS 1.2 random

`time_tricks.rs` and `Random::new_with_time`. Instants are nanoseconds from some origin, system times nanoseconds from the
Unix epoch. `none` is a panic. Bounds of `SystemTime` are not modelled.
-/
namespace Verif.Clock

def second : Int := 1000000000

/-- The loop of `BEGINNING_OF_TIME`, `src/time_tricks.rs:17-30`, with `fuel` values of `secs` left to try. `low` is the
least `Instant` of the platform. -/
def search (low now : Int) : Nat → Option Int
  | 0 => none
  | secs + 1 => if low ≤ now - (secs + 1) * second then some (now - (secs + 1) * second) else search low now secs

/-- `BEGINNING_OF_TIME`, `src/time_tricks.rs:11-38`, where the clocks show `now`, `sys` and, later, `again`. -/
def beginning (low now sys again : Int) : Option (Int × Int) :=
  (search low now 3600).map fun t => (t, sys - (again - t))

/-- `to_unix_duration`, `src/time_tricks.rs:50-64`; `duration_since` of an earlier instant is zero. -/
def toUnix (b : Int × Int) (t : Int) : Option Int :=
  let d := if b.1 ≤ t then t - b.1 else 0
  if 0 ≤ b.2 + d then some (b.2 + d) else none

/-- `Random::new_with_time`, `src/types.rs:48-61`. -/
def randomAt (b : Int × Int) (t : Int) (rnd : Bytes) : Option Bytes :=
  (toUnix b t).map fun d => beBytes 4 ((d / second).toNat % 2 ^ 32) ++ rnd

end Verif.Clock
