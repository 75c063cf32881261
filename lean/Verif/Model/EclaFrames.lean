import Verif.Model.Reader
/-! Framing and text encoding of external convergence layer packets: `cla/ecla/tcp.rs` and the base64 module of
`cla/ecla/mod.rs`. A packet is represented by its JSON text. -/

namespace Dtn.EclaFrames

/-- The frame built by `send_packet`, `cla/ecla/tcp.rs:117-120`: `len as u32` in big-endian order and the packet. -/
def frame (p : Bytes) : Bytes := putUint 4 p.length ++ p

/-- `max_frame_length` of `LengthDelimitedCodec::new()` (`tokio_util`, used at `cla/ecla/tcp.rs:45`): 8 MiB. -/
def maxFrame : Nat := 8 * 1024 * 1024

/-- What one call of the decoder finds in the buffer. -/
inductive Dec where
  | more
  | frame (p rest : Bytes)
  | err
deriving DecidableEq, Repr

/-- `LengthDelimitedCodec::decode` (`tokio_util`): four bytes of length, then as many bytes. Simplification: the codec
removes the header from its buffer as soon as it is complete; here it stays until the frame is complete. -/
def decode (buf : Bytes) : Dec :=
  if buf.length < 4 then .more
  else
    let n := Rd.beVal (buf.take 4)
    if n > maxFrame then .err
    else if buf.length < 4 + n then .more
    else .frame ((buf.drop 4).take n) (buf.drop (4 + n))

/-- The reading side of a connection, `cla/ecla/tcp.rs:45-56`: the undecoded bytes, the packets read and whether reading
ended with an error. -/
structure Rx where
  buf : Bytes := []
  packets : List Bytes := []
  failed : Bool := false
deriving DecidableEq, Repr

/-- Take frames from the buffer until more input is needed. The fuel bounds the number of frames; `feed` passes the
length of the buffer, which is enough because every frame has at least four bytes. -/
def drain : Nat → Rx → Rx
  | 0, r => r
  | k + 1, r =>
    match decode r.buf with
    | .more => r
    | .frame p rest => drain k { r with buf := rest, packets := r.packets ++ [p] }
    | .err => { r with failed := true }

/-- A chunk of bytes arrives; nothing is read after an error (`try_for_each` ends, `cla/ecla/tcp.rs:53-56`). -/
def feed (r : Rx) (chunk : Bytes) : Rx :=
  if r.failed then r else drain (r.buf ++ chunk).length { r with buf := r.buf ++ chunk }

/-- All chunks of a connection. -/
def receive (chunks : List Bytes) : Rx := chunks.foldl feed {}

/-- What the writing task puts on the wire, `cla/ecla/tcp.rs:58-64`: for every frame in the channel one `try_write`, which
writes as many bytes as the socket takes at once, possibly none; the rest is not tried again. -/
def write : List (Bytes × Nat) → Bytes
  | [] => []
  | (f, k) :: fs => f.take k ++ write fs

/-! ### Base64 -/

/-- The characters of the standard alphabet (`BASE64_STANDARD` of the `base64` crate, used at `cla/ecla/mod.rs:36`). -/
def char (n : Nat) : Char :=
  if n < 26 then Char.ofNat (65 + n)
  else if n < 52 then Char.ofNat (97 + (n - 26))
  else if n < 62 then Char.ofNat (48 + (n - 52))
  else if n = 62 then '+'
  else '/'

/-- The value of a character. -/
def value (c : Char) : Option Nat :=
  let n := c.toNat
  if 65 ≤ n ∧ n ≤ 90 then some (n - 65)
  else if 97 ≤ n ∧ n ≤ 122 then some (n - 97 + 26)
  else if 48 ≤ n ∧ n ≤ 57 then some (n - 48 + 52)
  else if c = '+' then some 62
  else if c = '/' then some 63
  else none

/-- `BASE64_STANDARD.encode`, `cla/ecla/mod.rs:36`. -/
def encode64 : Bytes → List Char
  | [] => []
  | [x] => [char (x.toNat / 4), char (x.toNat % 4 * 16), '=', '=']
  | [x, y] =>
    [char (x.toNat / 4), char (x.toNat % 4 * 16 + y.toNat / 16), char (y.toNat % 16 * 4), '=']
  | x :: y :: z :: r =>
    char (x.toNat / 4) :: char (x.toNat % 4 * 16 + y.toNat / 16) :: char (y.toNat % 16 * 4 + z.toNat / 64) ::
      char (z.toNat % 64) :: encode64 r

/-- The bytes of the last four characters. Unused bits must be zero. -/
def decodeLast (a b c d : Char) : Option Bytes :=
  if c = '=' ∧ d = '=' then
    match value a, value b with
    | some u, some v => if v % 16 = 0 then some [UInt8.ofNat (u * 4 + v / 16)] else none
    | _, _ => none
  else if d = '=' then
    match value a, value b, value c with
    | some u, some v, some w =>
      if w % 4 = 0 then some [UInt8.ofNat (u * 4 + v / 16), UInt8.ofNat (v % 16 * 16 + w / 4)] else none
    | _, _, _ => none
  else
    match value a, value b, value c, value d with
    | some u, some v, some w, some x =>
      some [UInt8.ofNat (u * 4 + v / 16), UInt8.ofNat (v % 16 * 16 + w / 4), UInt8.ofNat (w % 4 * 64 + x)]
    | _, _, _, _ => none

/-- `BASE64_STANDARD.decode`, `cla/ecla/mod.rs:42-43`: padding is required, and only at the end. -/
def decode64 : List Char → Option Bytes
  | [] => some []
  | [a, b, c, d] => decodeLast a b c d
  | a :: b :: c :: d :: r =>
    match value a, value b, value c, value d with
    | some u, some v, some w, some x =>
      (decode64 r).map fun t =>
        UInt8.ofNat (u * 4 + v / 16) :: UInt8.ofNat (v % 16 * 16 + w / 4) :: UInt8.ofNat (w % 4 * 64 + x) :: t
    | _, _, _, _ => none
  | _ => none

end Dtn.EclaFrames
