import Verif.Model.Bundle
/-! A byte reader: the model of functions taking `&mut impl AsyncRead`. -/

namespace Dtn

/-- Outcome of reading from a byte stream: a value and the bytes not consumed, the end of the stream reached
(`io::ErrorKind::UnexpectedEof`), a protocol error, or a panic. -/
inductive Res (α : Type) where
  | ok (a : α) (rest : Bytes)
  | eof
  | err
  | panic
deriving DecidableEq, Repr

/-- A reading function. -/
def Rd (α : Type) := Bytes → Res α

namespace Rd

/-- Return a value without reading. -/
def pure {α : Type} (a : α) : Rd α := fun bs => .ok a bs

/-- Sequencing; an outcome other than `ok` ends the function (`?`). -/
def bind {α β : Type} (r : Rd α) (f : α → Rd β) : Rd β := fun bs =>
  match r bs with
  | .ok a rest => f a rest
  | .eof => .eof
  | .err => .err
  | .panic => .panic

instance : Monad Rd where
  pure := Rd.pure
  bind := Rd.bind

/-- `return Err(..)`. -/
def fail {α : Type} : Rd α := fun _ => .err

/-- A panic. -/
def abort {α : Type} : Rd α := fun _ => .panic

/-- `read_exact` into a buffer of `n` bytes (tokio `AsyncReadExt`). -/
def bytes (n : Nat) : Rd Bytes := fun bs =>
  if n ≤ bs.length then .ok (bs.take n) (bs.drop n) else .eof

/-- Big-endian value of a byte list. -/
def beVal (bs : Bytes) : Nat := bs.foldl (fun a b => a * 256 + b.toNat) 0

/-- `read_u8`, `read_u16`, `read_u32`, `read_u64` (tokio: big endian) for `k` = 1, 2, 4, 8. -/
def uint (k : Nat) : Rd Nat := bind (bytes k) fun bs => pure (beVal bs)

end Rd

/-- `write_u8`, `write_u16`, `write_u32`, `write_u64` (tokio: big endian) for `k` = 1, 2, 4, 8; a larger
`n` is truncated, as by an `as` cast. -/
def putUint : Nat → Nat → Bytes
  | 0, _ => []
  | k + 1, n => UInt8.ofNat (n / 256 ^ k) :: putUint k n

end Dtn
