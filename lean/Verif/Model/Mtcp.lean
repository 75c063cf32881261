import Verif.Model.Bundle
/-! Model of the MTCP framing in `cla/mtcp.rs`. -/

namespace Dtn.Mtcp

/-- `cla/mtcp.rs:32-39` `CborByteString`. -/
inductive ByteStringKind where
  | len (n : UInt8)
  | u8
  | u16
  | u32
  | u64
  | not
deriving DecidableEq, Repr

/-- `cla/mtcp.rs:41-65` `cbor_parse_byte_string_len_first`. -/
def parseFirst (input : UInt8) : ByteStringKind :=
  if input &&& 0b11100000 ≠ 0b01000000 then .not
  else
    let number := input &&& 0b00011111
    if number < 24 then .len number
    else if number = 24 then .u8
    else if number = 25 then .u16
    else if number = 26 then .u32
    else if number = 27 then .u64
    else .not

/-- `cla/mtcp.rs:67-76` `cbor_hdr_len`. -/
def hdrLen (input : UInt8) : Nat :=
  match parseFirst input with
  | .len _ => 1
  | .u8 => 2
  | .u16 => 3
  | .u32 => 5
  | .u64 => 9
  | .not => 0

/-- `input[i] as u64`; `none` is the index panic. -/
def at? (input : Bytes) (i : Nat) : Option Nat := (input[i]?).map UInt8.toNat

/-- `cla/mtcp.rs:78-101` `cbor_parse_byte_string_len`; `none` is an index panic. The sums of
shifted bytes cannot overflow a `u64`, so they are `Nat` sums. -/
def parseLen (input : Bytes) : Option Nat := do
  match parseFirst (← input[0]?) with
  | .len n => some n.toNat
  | .u8 => at? input 1
  | .u16 => return ((← at? input 1) <<< 8) + (← at? input 2)
  | .u32 =>
    return ((← at? input 1) <<< 24) + ((← at? input 2) <<< 16) + ((← at? input 3) <<< 8)
      + (← at? input 4)
  | .u64 =>
    return ((← at? input 1) <<< 56) + ((← at? input 2) <<< 48) + ((← at? input 3) <<< 40)
      + ((← at? input 4) <<< 32) + ((← at? input 5) <<< 24) + ((← at? input 6) <<< 16)
      + ((← at? input 7) <<< 8) + (← at? input 8)
  | .not => some 0

/-- Big-endian bytes of `n`, `k` of them (`serde_cbor`'s `to_be_bytes`). -/
def beBytes : Nat → Nat → Bytes
  | 0, _ => []
  | k + 1, n => UInt8.ofNat (n >>> (8 * k)) :: beBytes k n

/-- `serde_cbor` `Serializer::serialize_bytes` header: major type 2, shortest length form
(external crate, used by `cla/mtcp.rs:141` and `220`). -/
def header (n : Nat) : Bytes :=
  if n < 24 then [UInt8.ofNat (0b01000000 + n)]
  else if n < 2 ^ 8 then UInt8.ofNat (0b01000000 + 24) :: beBytes 1 n
  else if n < 2 ^ 16 then UInt8.ofNat (0b01000000 + 25) :: beBytes 2 n
  else if n < 2 ^ 32 then UInt8.ofNat (0b01000000 + 26) :: beBytes 4 n
  else UInt8.ofNat (0b01000000 + 27) :: beBytes 8 n

/-- `cla/mtcp.rs:140-145` `encode`, and each loop round of `mtcp_send_bundles`
(`cla/mtcp.rs:219-227`): the CBOR byte string of the data. -/
def encode (data : Bytes) : Bytes := header data.length ++ data

/-- `cla/mtcp.rs:218-227`: the buffer written to the connection. -/
def sendBuffer (bundles : List Bytes) : Bytes :=
  bundles.foldl (fun buf b => buf ++ encode b) []

/-- `serde_cbor::from_slice::<MPDU>` (external crate): one definite-length byte string filling the
whole slice; indefinite-length strings (`0x5f`) are not reachable, `hdrLen` rejects them before. -/
def fromSlice (slice : Bytes) : Option Bytes :=
  match slice with
  | [] => none
  | b :: _ =>
    match parseLen slice with
    | none => none
    | some n =>
      if hdrLen b ≠ 0 ∧ slice.length = hdrLen b + n then some (slice.drop (hdrLen b)) else none

/-- Result of one `decode` call. -/
inductive Dec where
  /-- `Ok(None)` -/
  | more
  /-- `Ok(Some(MPDU))` and the rest of the buffer after `advance` -/
  | frame (data : Bytes) (rest : Bytes)
  /-- `Err` -/
  | err
  /-- an index panic -/
  | panic
deriving DecidableEq, Repr

/-- `cla/mtcp.rs:152-198` `decode`. `usize` is 64 bits wide. -/
def decode (buf : Bytes) : Dec :=
  if buf.length < 10 then .more
  else
    match buf[0]? with
    | none => .panic
    | some b =>
      if hdrLen b = 0 then .err
      else
        match parseLen (buf.take 10) with
        | none => .panic
        | some n =>
          -- `checked_add`
          if 2 ^ 64 ≤ hdrLen b + n then .err
          -- `checked_sub(1)`
          else if hdrLen b + n = 0 then .err
          else
            let expectedPos := hdrLen b + n - 1
            if expectedPos < buf.length then
              match buf[expectedPos]? with
              | none => .panic
              | some t =>
                if t ≠ 0xff then .err
                else
                  match fromSlice (buf.take (expectedPos + 1)) with
                  | some data => .frame data (buf.drop (expectedPos + 1))
                  | none => .err
            else .more

/-- State of the receiving side of a connection: `Framed`'s read buffer, the frames produced so far
and whether the stream has ended with an error (`tokio_util`'s `FramedRead` yields nothing after
an error, and `handle_connection` leaves its loop, `cla/mtcp.rs:337-340`). -/
structure Rx where
  buf : Bytes := []
  frames : List Bytes := []
  failed : Bool := false
deriving DecidableEq, Repr

/-- `Framed::next` called until it needs more input (`cla/mtcp.rs:319`). The fuel argument bounds the
number of frames taken from one buffer; `feed` passes the buffer length, which is enough because every
frame is at least one byte long. -/
def drain : Nat → Rx → Rx
  | 0, r => r
  | fuel + 1, r =>
    if r.failed then r
    else match decode r.buf with
      | .more => r
      | .frame d rest => drain fuel { r with buf := rest, frames := r.frames ++ [d] }
      | .err => { r with failed := true }
      | .panic => { r with failed := true }

/-- A chunk of bytes arrives on the socket: appended to the buffer, then frames are taken
(`cla/mtcp.rs:319`, `tokio_util` `FramedRead`). -/
def feed (r : Rx) (chunk : Bytes) : Rx :=
  if r.failed then r
  else
    let b := r.buf ++ chunk
    drain b.length { r with buf := b }

/-- A whole connection, chunk by chunk. -/
def receive (chunks : List Bytes) : Rx := chunks.foldl feed {}

end Dtn.Mtcp
