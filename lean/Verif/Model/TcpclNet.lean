import Verif.Model.Reader
/-! Model of the TCPCL message format, `cla/tcp/proto.rs` and `cla/tcp/net.rs`. -/

namespace Dtn.Tcpcl

/-- `cla/tcp/proto.rs:63-70` `XferSegmentFlags`. -/
structure SegFlags where
  «end» : Bool := false
  start : Bool := false
deriving DecidableEq, Repr

/-- `flags.bits()` (`bitflags`). -/
def SegFlags.bits (f : SegFlags) : Nat :=
  (if f.end then 1 else 0) + (if f.start then 2 else 0)

/-- `XferSegmentFlags::from_bits_truncate` (`bitflags`): other bits are dropped. -/
def SegFlags.ofBits (n : Nat) : SegFlags :=
  { «end» := n % 2 = 1, start := n / 2 % 2 = 1 }

/-- `is_empty` (`bitflags`). -/
def SegFlags.isEmpty (f : SegFlags) : Bool := !f.end && !f.start

/-- The single-bit flag sets `ContactHeaderFlags` (`cla/tcp/proto.rs:5-11`, CAN_TLS), `TransferExtensionItemFlags`
(`90-96`, CRITICAL) and `SessTermFlags` (`112-119`, REPLY): `from_bits_truncate` keeps bit 0. -/
def bit0 (n : Nat) : Bool := n % 2 = 1

/-- `bits()` of a single-bit flag set. -/
def bitOf (b : Bool) : Nat := if b then 1 else 0

/-- `cla/tcp/proto.rs:41-51`. -/
inductive RejectReason where
  | typeUnknown
  | unsupported
  | unexpected
deriving DecidableEq, Repr

/-- Discriminants, `cla/tcp/proto.rs:44-51`. -/
def RejectReason.code : RejectReason → Nat
  | .typeUnknown => 1
  | .unsupported => 2
  | .unexpected => 3

/-- `MsgRejectReasonCode::from_u8` (`num_derive`). -/
def RejectReason.ofCode : Nat → Option RejectReason
  | 1 => some .typeUnknown
  | 2 => some .unsupported
  | 3 => some .unexpected
  | _ => none

/-- `cla/tcp/proto.rs:72-88`. -/
inductive RefuseReason where
  | unknown
  | completed
  | noResources
  | retransmit
  | notAcceptable
  | extensionFailure
deriving DecidableEq, Repr

/-- Discriminants, `cla/tcp/proto.rs:75-88`. -/
def RefuseReason.code : RefuseReason → Nat
  | .unknown => 0
  | .completed => 1
  | .noResources => 2
  | .retransmit => 3
  | .notAcceptable => 4
  | .extensionFailure => 5

/-- `XferRefuseReasonCode::from_u8` (`num_derive`). -/
def RefuseReason.ofCode : Nat → Option RefuseReason
  | 0 => some .unknown
  | 1 => some .completed
  | 2 => some .noResources
  | 3 => some .retransmit
  | 4 => some .notAcceptable
  | 5 => some .extensionFailure
  | _ => none

/-- `cla/tcp/proto.rs:121-137`. -/
inductive TermReason where
  | unknown
  | idleTimeout
  | versionMismatch
  | busy
  | contactFailure
  | resourceExhaustion
deriving DecidableEq, Repr

/-- Discriminants, `cla/tcp/proto.rs:124-137`. -/
def TermReason.code : TermReason → Nat
  | .unknown => 0
  | .idleTimeout => 1
  | .versionMismatch => 2
  | .busy => 3
  | .contactFailure => 4
  | .resourceExhaustion => 5

/-- `SessTermReasonCode::from_u8` (`num_derive`). -/
def TermReason.ofCode : Nat → Option TermReason
  | 0 => some .unknown
  | 1 => some .idleTimeout
  | 2 => some .versionMismatch
  | 3 => some .busy
  | 4 => some .contactFailure
  | 5 => some .resourceExhaustion
  | _ => none

/-- `cla/tcp/proto.rs:98-110` `TransferExtensionItem`; the only item type is `BundleID`, so it is not a field. -/
structure ExtItem where
  critical : Bool
  data : Bytes
deriving DecidableEq, Repr

/-- `cla/tcp/proto.rs:138-144`. The node id is represented by the bytes of the string. -/
structure SessInit where
  keepalive : Nat
  segmentMru : Nat
  transferMru : Nat
  nodeId : Bytes
deriving DecidableEq, Repr

/-- `cla/tcp/proto.rs:146-153`. -/
structure XferSeg where
  flags : SegFlags
  tid : Nat
  len : Nat
  buf : Bytes
  extensions : List ExtItem
deriving DecidableEq, Repr

/-- `cla/tcp/proto.rs:155-160`. -/
structure XferAck where
  flags : SegFlags
  tid : Nat
  len : Nat
deriving DecidableEq, Repr

/-- `cla/tcp/net.rs:12-21` `TcpClPacket`. -/
inductive Packet where
  | contactHeader (canTls : Bool)
  | sessInit (d : SessInit)
  | sessTerm (reply : Bool) (reason : TermReason)
  | xferSeg (d : XferSeg)
  | xferAck (d : XferAck)
  | xferRefuse (reason : RefuseReason) (tid : Nat)
  | keepAlive
  | msgReject (reason : RejectReason) (header : Nat)
deriving DecidableEq, Repr

/-- `cla/tcp/net.rs:9`. -/
def minExtItemSize : Nat := 5

/-- `b"dtn!"`. -/
def magic : Bytes := [0x64, 0x74, 0x6e, 0x21]

/-- One extension item, `cla/tcp/net.rs:51-54`; the item type `BundleID` is 1. -/
def writeExt (e : ExtItem) : Bytes :=
  putUint 1 (bitOf e.critical) ++ putUint 2 1 ++ putUint 2 e.data.length ++ e.data

/-- The loop `cla/tcp/net.rs:48-56`: bytes and announced length (`u32` arithmetic). -/
def writeExts : List ExtItem → Bytes × Nat
  | [] => ([], 0)
  | e :: es =>
    let r := writeExts es
    (writeExt e ++ r.1, minExtItemSize + e.data.length + r.2)

/-- `cla/tcp/net.rs:24-95` `write`: the bytes written. -/
def write : Packet → Bytes
  | .sessInit d =>
    putUint 1 7 ++ putUint 2 d.keepalive ++ putUint 8 d.segmentMru ++ putUint 8 d.transferMru ++
      putUint 2 d.nodeId.length ++ d.nodeId ++ putUint 4 0
  | .sessTerm reply reason => putUint 1 5 ++ putUint 1 (bitOf reply) ++ putUint 1 reason.code
  | .xferSeg d =>
    putUint 1 1 ++ putUint 1 d.flags.bits ++ putUint 8 d.tid ++
      (if d.flags.start then
        let e := writeExts d.extensions
        putUint 4 e.2 ++ (if 0 < e.2 then e.1 else [])
      else []) ++
      putUint 8 d.len ++ (if 0 < d.len then d.buf else [])
  | .xferAck d => putUint 1 2 ++ putUint 1 d.flags.bits ++ putUint 8 d.tid ++ putUint 8 d.len
  | .xferRefuse reason tid => putUint 1 3 ++ putUint 1 reason.code ++ putUint 8 tid
  | .keepAlive => putUint 1 4
  | .msgReject reason header => putUint 1 6 ++ putUint 1 reason.code ++ putUint 1 header
  | .contactHeader tls => magic ++ putUint 1 4 ++ putUint 1 (bitOf tls)

/-- The loop `cla/tcp/net.rs:110-128`; returns the items and the left-over length. The fuel bounds the number of
rounds; each round lowers `extLen` by at least five, so `extLen` is enough. A `u32` subtraction below zero
(`114-115`) is a panic (a debug build stops; a release build wraps around and loses the message boundary). -/
def readExts : Nat → Nat → Rd (List ExtItem × Nat)
  | 0, extLen => return ([], extLen)
  | fuel + 1, extLen =>
    if extLen < minExtItemSize then return ([], extLen)
    else do
      let flag ← Rd.uint 1
      let itemType ← Rd.uint 2
      let itemLength ← Rd.uint 2
      if extLen < minExtItemSize + itemLength then Rd.abort
      else do
        let data ← Rd.bytes itemLength
        let (items, left) ← readExts fuel (extLen - minExtItemSize - itemLength)
        if itemType = 1 then return ({ critical := bit0 flag, data := data } :: items, left)
        else return (items, left)

/-- `cla/tcp/net.rs:105-136`. -/
def readExtensions (flags : SegFlags) : Rd (List ExtItem) :=
  if flags.start then do
    let extLen ← Rd.uint 4
    let (items, left) ← readExts extLen extLen
    let _ ← Rd.bytes left
    return items
  else return []

/-- Largest allocation `vec![0; n]` accepts (`isize::MAX`), a larger one panics with "capacity overflow". -/
def maxAlloc : Nat := 2 ^ 63 - 1

/-- `cla/tcp/net.rs:101-153`. -/
def readXferSeg : Rd Packet := do
  let flags := SegFlags.ofBits (← Rd.uint 1)
  let tid ← Rd.uint 8
  let extensions ← readExtensions flags
  let len ← Rd.uint 8
  if maxAlloc < len then Rd.abort
  else do
    let buf ← Rd.bytes len
    return .xferSeg { flags, tid, len, buf, extensions }

/-- `cla/tcp/net.rs:182-202`; `from_utf8_lossy` is the identity on the node ids considered (valid UTF-8). -/
def readSessInit : Rd Packet := do
  let keepalive ← Rd.uint 2
  let segmentMru ← Rd.uint 8
  let transferMru ← Rd.uint 8
  let nodeIdLen ← Rd.uint 2
  let nodeId ← Rd.bytes nodeIdLen
  let extItems ← Rd.uint 4
  if extItems ≠ 0 then Rd.fail
  else return .sessInit { keepalive, segmentMru, transferMru, nodeId }

/-- `cla/tcp/net.rs:214-225`: after the byte `d`, six more bytes are read and compared with the whole magic. -/
def readContactInStream : Rd Packet := do
  let buf ← Rd.bytes 6
  if buf.take 4 ≠ magic then Rd.fail
  else if buf[4]? ≠ some 4 then Rd.fail
  else return .contactHeader (bit0 ((buf[5]?.map UInt8.toNat).getD 0))

/-- `cla/tcp/net.rs:97-230` `read`. -/
def readPacket : Rd Packet := do
  let mtype ← Rd.uint 1
  if mtype = 1 then readXferSeg
  else if mtype = 2 then do
    let flags := SegFlags.ofBits (← Rd.uint 1)
    let tid ← Rd.uint 8
    let len ← Rd.uint 8
    return .xferAck { flags, tid, len }
  else if mtype = 3 then do
    match RefuseReason.ofCode (← Rd.uint 1) with
    | some reason => do
      let tid ← Rd.uint 8
      return .xferRefuse reason tid
    | none => Rd.fail
  else if mtype = 4 then return .keepAlive
  else if mtype = 5 then do
    let reply := bit0 (← Rd.uint 1)
    match TermReason.ofCode (← Rd.uint 1) with
    | some reason => return .sessTerm reply reason
    | none => Rd.fail
  else if mtype = 6 then do
    let code ← Rd.uint 1
    let header ← Rd.uint 1
    match RejectReason.ofCode code with
    | some reason => return .msgReject reason header
    | none => Rd.fail
  else if mtype = 7 then readSessInit
  else if mtype = 0x64 then readContactInStream
  else Rd.fail

/-- `cla/tcp/mod.rs:530-540` `receive_contact_header`. -/
def readContactHeader : Rd Bool := do
  let buf ← Rd.bytes 6
  if buf.take 4 ≠ magic then Rd.fail
  else if buf[4]? ≠ some 4 then Rd.fail
  else return bit0 ((buf[5]?.map UInt8.toNat).getD 0)

end Dtn.Tcpcl
