import Verif.Model.Bytes
/-!
# Pooled buffers

`Buf` and `BufferPool` of `src/buffer.rs`. A `Vec<u8>` is its allocated memory, with whatever was written there before, and
a length; what of it is initialised is not told apart. Growing the allocation keeps what is stored.
-/
namespace Verif.Pool

/-- `Buf`, `src/buffer.rs:49-54`. -/
structure Buf where
  mem : Bytes
  len : Nat
deriving DecidableEq, Repr

/-- `Buf::new`, `src/buffer.rs:58-60`. -/
def Buf.new : Buf := { mem := [], len := 0 }

/-- `deref`, `as_ref` and `into_vec`, `src/buffer.rs:82-84, 94-113`: what can be read. -/
def Buf.read (b : Buf) : Bytes := b.mem.take b.len

/-- `Buf::clear`, `src/buffer.rs:63-65`: the memory stays as it is. -/
def Buf.clear (b : Buf) : Buf := { b with len := 0 }

/-- `Buf::extend_from_slice` and `extend`, `src/buffer.rs:68-70, 88-92`. -/
def Buf.extend (b : Buf) (l : Bytes) : Buf :=
  { mem := b.mem.take b.len ++ l ++ b.mem.drop (b.len + l.length), len := b.len + l.length }

/-- `Buf::push`, `src/buffer.rs:73-75`. -/
def Buf.push (b : Buf) (x : UInt8) : Buf := b.extend [x]

/-- `Buf::resize`, `src/buffer.rs:78-80`. -/
def Buf.resize (b : Buf) (n : Nat) (x : UInt8) : Buf :=
  if n ≤ b.len then { b with len := n } else b.extend (List.replicate (n - b.len) x)

/-- Writing a byte through `deref_mut` or `as_mut`, `src/buffer.rs:102-106, 114-118`; `none` is a panic. -/
def Buf.set (b : Buf) (i : Nat) (x : UInt8) : Option Buf :=
  if i < b.len then some { b with mem := b.mem.set i x } else none

/-- `BufferPool`, `src/buffer.rs:16-19`. -/
structure Pool where
  free : List Buf := []
deriving DecidableEq, Repr

/-- `BufferPool::pop`, `src/buffer.rs:25-31`; `none` is the panic of `unwrap`. -/
def Pool.pop (p : Pool) : Option (Buf × Pool) :=
  let free := if p.free.isEmpty then p.free ++ [Buf.new] else p.free
  match free with
  | [] => none
  | b :: rest => some (b, { free := rest })

/-- `BufferPool::push`, `src/buffer.rs:34-37`. -/
def Pool.push (p : Pool) (b : Buf) : Pool := { free := b.clear :: p.free }

end Verif.Pool
