import Verif.Model.Reader
/-!
The part of CBOR (RFC 8949) that beacons use, written and read as the crate `serde_cbor` (version 0.11, not part of
`/repo`) does: numbers with the shortest head, definite lengths when writing, tags ignored when reading.

Simplifications: strings of indefinite length and floating point numbers are refused when reading; nesting of tags is
limited to 128, the crate's recursion limit, other nesting is not limited.
-/

namespace Dtn.Cbor

/-- Initial byte and argument of a data item. -/
def head (major n : Nat) : Bytes :=
  if n < 24 then [UInt8.ofNat (major * 32 + n)]
  else if n < 256 then UInt8.ofNat (major * 32 + 24) :: putUint 1 n
  else if n < 65536 then UInt8.ofNat (major * 32 + 25) :: putUint 2 n
  else if n < 4294967296 then UInt8.ofNat (major * 32 + 26) :: putUint 4 n
  else UInt8.ofNat (major * 32 + 27) :: putUint 8 n

/-- An unsigned number (`u8`, `u16`, `u32`, `u64`). -/
def num (n : Nat) : Bytes := head 0 n

/-- The UTF-8 bytes of a string. -/
def utf8 (s : String) : Bytes := s.toUTF8.data.toList

/-- A text string (`String`). -/
def text (s : String) : Bytes := head 3 (utf8 s).length ++ utf8 s

/-- A sequence (`Vec`, tuples). -/
def seq (items : List Bytes) : Bytes := head 4 items.length ++ items.flatten

/-- A map (`HashMap`). -/
def map (items : List (Bytes × Bytes)) : Bytes :=
  head 5 items.length ++ (items.map fun kv => kv.1 ++ kv.2).flatten

/-- What `deserialize_any` finds first: a major type with its argument, or the start of an array or map of indefinite
length. -/
inductive Head where
  | val (major n : Nat)
  | indef (major : Nat)
deriving DecidableEq, Repr

open Rd (uint bytes fail abort)

/-- The argument of a head with the given lower five bits. -/
def argument (info : Nat) : Rd Nat :=
  if info < 24 then pure info
  else if info = 24 then uint 1
  else if info = 25 then uint 2
  else if info = 26 then uint 4
  else if info = 27 then uint 8
  else fail

/-- Read a head; tags (major type 6) are skipped. The types of a beacon take neither simple values nor floats (major
type 7); `null` is looked for in `option`. -/
def readHead : Nat → Rd Head
  | 0 => fail
  | k + 1 => do
    let b ← uint 1
    if b / 32 = 7 then fail
    else if b % 32 = 31 then
      if b / 32 = 4 ∨ b / 32 = 5 then pure (.indef (b / 32)) else fail
    else do
      let n ← argument (b % 32)
      if b / 32 = 6 then readHead k else pure (.val (b / 32) n)

/-- The recursion limit of the crate. -/
def limit : Nat := 128

/-- `u8`, `u16`, `u32`, `u64` for bound `2^8`, `2^16`, `2^32`, `2^64`. -/
def readNum (bound : Nat) : Rd Nat := do
  match ← readHead limit with
  | .val 0 n => if n < bound then pure n else fail
  | _ => fail

/-- Bytes as a string. -/
def ofUtf8 (bs : Bytes) : Option String := String.fromUTF8? ⟨bs.toArray⟩

/-- `String`; the visitor also takes byte strings. -/
def readText : Rd String := do
  match ← readHead limit with
  | .val m n =>
    if m = 3 ∨ m = 2 then do
      let bs ← bytes n
      match ofUtf8 bs with
      | some s => pure s
      | none => fail
    else fail
  | _ => fail

/-- `Option<T>`. -/
def option {α : Type} (r : Rd α) : Rd (Option α) := fun bs =>
  match bs with
  | 0xf6 :: rest => .ok none rest
  | _ => (do let a ← r; pure (some a) : Rd (Option α)) bs

/-- `n` values. -/
def times {α : Type} : Nat → Rd α → Rd (List α)
  | 0, _ => pure []
  | n + 1, r => do
    let a ← r
    let l ← times n r
    pure (a :: l)

/-- Values up to the break code; the fuel is the number of bytes left. -/
def untilBreak {α : Type} : Nat → Rd α → Rd (List α)
  | 0, _ => fail
  | k + 1, r => fun bs =>
    match bs with
    | 0xff :: rest => .ok [] rest
    | _ => (do
      let a ← r
      let l ← untilBreak k r
      pure (a :: l) : Rd (List α)) bs

/-- All values up to the break code. -/
def toBreak {α : Type} (r : Rd α) : Rd (List α) := fun bs => untilBreak (bs.length + 1) r bs

/-- `Vec<T>` with element reader `r`. -/
def readSeq {α : Type} (r : Rd α) : Rd (List α) := do
  match ← readHead limit with
  | .val 4 n => times n r
  | .indef 4 => toBreak r
  | _ => fail

/-- `HashMap<K, V>`: the pairs in the order they are read. -/
def readMap {α : Type} (r : Rd α) : Rd (List α) := do
  match ← readHead limit with
  | .val 5 n => times n r
  | .indef 5 => toBreak r
  | _ => fail

/-- The break code after a tuple of indefinite length. -/
def readBreak : Rd Unit := do
  let b ← uint 1
  if b = 0xff then pure () else fail

/-- `(A, B)`. -/
def readPair {α β : Type} (r : Rd α) (q : Rd β) : Rd (α × β) := do
  match ← readHead limit with
  | .val 4 n =>
    if n = 2 then do
      let a ← r
      let b ← q
      pure (a, b)
    else fail
  | .indef 4 => do
    let a ← r
    let b ← q
    readBreak
    pure (a, b)
  | _ => fail

end Dtn.Cbor
