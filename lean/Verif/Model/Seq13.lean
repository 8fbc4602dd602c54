/-!
# Sequence-number reconstruction and key-usage threshold (`src/dtls13/engine.rs`)
-/
namespace Verif.Seq13

/-- `src/dtls13/engine.rs:2288-2309`, `reconstruct_sequence`. Expected numbers are below 2^63 in the
code's reach (they are one more than a received 48-bit number), so the `as i64` casts are exact. -/
def reconstruct (partialSeq expected bits : Nat) : Nat :=
  let window : Int := 2 ^ bits
  let half : Int := window / 2
  let receivedPartial : Int := (partialSeq % 2 ^ bits : Nat)
  let expectedPartial : Int := (expected % 2 ^ bits : Nat)
  let diff := receivedPartial - expectedPartial
  let diff := if diff > half then diff - window
    else if diff < -half then diff + window
    else diff
  (max ((expected : Int) + diff) 0).toNat

/-- `src/dtls13/engine.rs:2264-2271`, `jittered_aead_threshold`; `r` is the random `u64`. -/
def jitteredThreshold (limit r : Nat) : Nat :=
  let quarter := limit / 4
  if quarter = 0 then limit
  else limit - quarter + r % (quarter + 1)

end Verif.Seq13
