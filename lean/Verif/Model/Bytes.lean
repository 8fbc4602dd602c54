/-!
# Byte strings and the nom primitives used by the parsers

A Rust slice is a `List UInt8`; an unsigned integer is a `Nat`, cut to its width where Rust cuts it.
-/
namespace Verif

abbrev Bytes := List UInt8

/-- `uN::to_be_bytes` restricted to the low `k` bytes (`src/dtls12/message/record.rs:120-135`,
`src/dtls13/message/record.rs:215-233` use `k = 2`, `3`, `6`). Higher bits are dropped, as by `as`. -/
def beBytes : Nat → Nat → Bytes
  | 0, _ => []
  | k + 1, v => UInt8.ofNat (v / 256 ^ k) :: beBytes k v

/-- Big-endian value of a byte string: `be_u8`, `be_u16`, `be_u24`, `be_u48`
(`src/util.rs:100-118` is the loop for 48 bits). -/
def ofBe (bs : Bytes) : Nat := bs.foldl (fun acc b => acc * 256 + b.toNat) 0

/-- Outcome of a nom parser on complete input. `error` is the recoverable `Err::Error` and
`failure` is `Err::Failure`; both carry no data here. `panic` is a Rust panic (slice index out of
range). -/
inductive PRes (α : Type) where
  | ok (rest : Bytes) (a : α)
  | error
  | failure
  | panic
deriving DecidableEq, Repr

/-- `nom::bytes::complete::take(n)`: the first `n` bytes, or `Err::Error(Eof)` if there are fewer. -/
def take (n : Nat) (input : Bytes) : PRes Bytes :=
  if input.length < n then .error else .ok (input.drop n) (input.take n)

/-- `nom::number::complete::be_u8/be_u16/be_u24` and `util::be_u48` (`src/util.rs:100-118`):
`n` bytes big-endian. -/
def beNat (n : Nat) (input : Bytes) : PRes Nat :=
  if input.length < n then .error else .ok (input.drop n) (ofBe (input.take n))

/-- The `?` operator between nom parsers. -/
def PRes.bind {α β : Type} (p : PRes α) (f : Bytes → α → PRes β) : PRes β :=
  match p with
  | .ok rest a => f rest a
  | .error => .error
  | .failure => .failure
  | .panic => .panic

end Verif
