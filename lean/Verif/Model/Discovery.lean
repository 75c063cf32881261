import Verif.Model.Cbor
import Verif.Model.Peer
import Verif.Model.White
/-! Neighbour discovery: beacons (`ipnd/beacon.rs`), services (`ipnd/services.rs`) and the receiving task
(`ipnd/neighbour_discovery.rs`). -/

namespace Dtn.Discovery
open Cbor
open Rd (fail abort)

/-! ### Services -/

/-- `ServiceBlock`, `ipnd/services.rs:17-20`. -/
structure ServiceBlock where
  clas : List (String × Option Nat) := []
  services : AList Nat Bytes := []
deriving DecidableEq, Repr

namespace ServiceBlock

/-- `add_cla`, `ipnd/services.rs:83-85`. -/
def addCla (b : ServiceBlock) (name : String) (port : Option Nat) : ServiceBlock :=
  { b with clas := b.clas ++ [(name, port)] }

/-- `add_custom_service`, `ipnd/services.rs:88-90`. -/
def addService (b : ServiceBlock) (tag : Nat) (payload : Bytes) : ServiceBlock :=
  { b with services := AList.insert b.services tag payload }

/-- `is_empty`, `ipnd/services.rs:166-168`. -/
def isEmpty (b : ServiceBlock) : Bool := b.clas.length + b.services.length == 0

end ServiceBlock

/-- `CUSTOM_STRING`, `GEO_LOCATION`, `BATTERY`, `ADDRESS`, `ipnd/services.rs:295-298`. -/
def CUSTOM_STRING : Nat := 63
def GEO_LOCATION : Nat := 127
def BATTERY : Nat := 191
def ADDRESS : Nat := 255

/-- The characters that separate words, `ipnd/services.rs:119,152,220`. -/
def isSpace (c : Char) : Bool := isWhite c

/-- `split_whitespace` (external); `cur` is the word begun, reversed. -/
def wordsAux : List Char → List Char → List (List Char)
  | cur, [] => if cur.isEmpty then [] else [cur.reverse]
  | cur, c :: cs =>
    if isSpace c then
      if cur.isEmpty then wordsAux [] cs else cur.reverse :: wordsAux [] cs
    else wordsAux (c :: cur) cs

/-- The words of a string. -/
def words (s : List Char) : List (List Char) := wordsAux [] s

/-- The value of a decimal digit. -/
def digit (c : Char) : Option Nat := if 48 ≤ c.toNat ∧ c.toNat ≤ 57 then some (c.toNat - 48) else none

/-- The value of a sequence of digits. -/
def digits : Nat → List Char → Option Nat
  | acc, [] => some acc
  | acc, c :: cs => match digit c with
    | some d => digits (acc * 10 + d) cs
    | none => none

/-- `parse::<i8>` (external): an optional sign and at least one digit, in range. -/
def parseI8 (s : List Char) : Option Int :=
  match s with
  | '-' :: cs => if cs.isEmpty then none else
    match digits 0 cs with
    | some n => if n ≤ 128 then some (-(n : Int)) else none
    | none => none
  | '+' :: cs => if cs.isEmpty then none else
    match digits 0 cs with
    | some n => if n ≤ 127 then some (n : Int) else none
    | none => none
  | cs => if cs.isEmpty then none else
    match digits 0 cs with
    | some n => if n ≤ 127 then some (n : Int) else none
    | none => none

/-- The outcome of a function returning `Result` that may also panic. -/
inductive Outcome (α : Type) where
  | ok (a : α)
  | err
  | panic
deriving DecidableEq, Repr

/-- A 32 bit floating point number, represented by its bits. -/
abbrev F32 := UInt32

/-- `f32::to_be_bytes`. -/
def f32Bytes (f : F32) : Bytes := putUint 4 f.toNat

/-- `build_custom_service`, `ipnd/services.rs:105-163`. `parseF32` stands for `parse::<f32>` (external). -/
def buildService (parseF32 : List Char → Option F32) (tag : Nat) (payload : String) : Outcome (Nat × Bytes) :=
  if tag = CUSTOM_STRING then
    if (utf8 payload).length > 64 then .err else .ok (tag, utf8 payload)
  else if tag = GEO_LOCATION then
    match words payload.toList with
    | a :: b :: _ =>
      match parseF32 a, parseF32 b with
      | some x, some y => .ok (tag, f32Bytes x ++ f32Bytes y)
      | _, _ => .panic
    | _ => .err
  else if tag = BATTERY then
    match parseI8 payload.toList with
    | some i => if 0 ≤ i ∧ i ≤ 100 then .ok (tag, [UInt8.ofNat i.toNat]) else .err
    | none => .err
  else if tag = ADDRESS then
    if (words payload.toList).length = 5 then .ok (tag, utf8 payload) else .err
  else .err

/-- A service in the form shown to users. Simplification: numbers are kept as numbers instead of being printed. -/
inductive Service where
  | str (s : String)
  | geo (latitude longitude : F32)
  | battery (level : Int)
  | address (s : String)
deriving DecidableEq, Repr

/-- `f32::from_be_bytes` of four bytes. -/
def f32Of (bs : Bytes) : F32 := UInt32.ofNat (Rd.beVal bs)

/-- `i8::from_be_bytes`. -/
def i8Of (b : UInt8) : Int := if b.toNat < 128 then b.toNat else (b.toNat : Int) - 256

/-- One entry of `convert_services`, `ipnd/services.rs:44-73`: nothing for an unknown tag; a panic if the payload is too
short or no text. -/
def convertOne (tag : Nat) (payload : Bytes) : Outcome (Option Service) :=
  if tag = CUSTOM_STRING then
    match ofUtf8 payload with
    | some s => .ok (some (.str s))
    | none => .panic
  else if tag = GEO_LOCATION then
    if payload.length < 8 then .panic
    else .ok (some (.geo (f32Of (payload.take 4)) (f32Of ((payload.drop 4).take 4))))
  else if tag = BATTERY then
    match payload with
    | [] => .panic
    | b :: _ => .ok (some (.battery (i8Of b)))
  else if tag = ADDRESS then
    match ofUtf8 payload with
    | some s => .ok (some (.address s))
    | none => .panic
  else .ok none

/-- `convert_services`, `ipnd/services.rs:42-75`. -/
def convert : AList Nat Bytes → Outcome (AList Nat Service)
  | [] => .ok []
  | (tag, payload) :: rest =>
    match convertOne tag payload with
    | .panic => .panic
    | .err => .err
    | .ok none => convert rest
    | .ok (some s) =>
      match convert rest with
      | .ok l => .ok ((tag, s) :: l)
      | r => r

/-! ### Beacons -/

/-- `Beacon`, `ipnd/beacon.rs:35-53`. The period is in milliseconds. -/
structure Beacon where
  version : Nat
  flags : Nat
  eid : EID
  bsn : Nat
  block : ServiceBlock
  period : Option Nat
deriving DecidableEq, Repr

namespace Beacon

/-- `Beacon::new`, `ipnd/beacon.rs:59-68`. -/
def new (eid : EID) : Beacon := { version := 7, flags := 1, eid, bsn := 0, block := {}, period := none }

/-- `Beacon::with_config`, `ipnd/beacon.rs:71-94`. -/
def withConfig (eid : EID) (block : ServiceBlock) (period : Option Nat) : Beacon :=
  let f := if !block.isEmpty then 1 ||| 2 else 1
  let f := if period.isSome then f ||| 4 else f
  { version := 7, flags := f, eid, bsn := 0, block, period }

/-- `set_beacon_sequence_number`, `ipnd/beacon.rs:138-140`. -/
def setBsn (b : Beacon) (n : Nat) : Beacon := { b with bsn := n }

/-- `add_cla`, `ipnd/beacon.rs:143-146`. -/
def addCla (b : Beacon) (name : String) (port : Option Nat) : Beacon :=
  { b with block := b.block.addCla name port, flags := b.flags ||| 2 }

/-- `add_custom_service`, `ipnd/beacon.rs:149-154`; `none` is the panic of `expect`. -/
def addService (parseF32 : List Char → Option F32) (b : Beacon) (tag : Nat) (service : String) : Option Beacon :=
  match buildService parseF32 tag service with
  | .ok r => some { b with block := b.block.addService tag r.2, flags := b.flags ||| 2 }
  | _ => none

end Beacon

/-! ### Writing -/

/-- `EndpointID` as CBOR (crate `bp7`, external), RFC 9171, section 4.2.5.1. -/
def writeEid : EID → Bytes
  | .none => seq [num 1, num 0]
  | .dtn n s => seq [num 1, text (String.ofList ('/' :: '/' :: n.toList ++ '/' :: s.toList))]
  | .ipn n s => seq [num 2, seq [num n, num s]]

/-- One convergence layer: a tuple of its name and `Option<u16>`. -/
def writeCla (c : String × Option Nat) : Bytes :=
  seq [text c.1, match c.2 with
    | some p => num p
    | none => [0xf6]]

/-- One entry of the service map: `u8` and `Vec<u8>`, which is a sequence of numbers. -/
def writeService (kv : Nat × Bytes) : Bytes × Bytes := (num kv.1, seq (kv.2.map fun x => num x.toNat))

/-- `Serialize for ServiceBlock`, `ipnd/services.rs:237-253`. The map is written in iteration order. -/
def writeBlock (b : ServiceBlock) : Bytes :=
  if b.isEmpty then seq []
  else seq [seq (b.clas.map writeCla), map (b.services.map writeService)]

/-- `Serialize for Beacon`, `ipnd/beacon.rs:175-214`. The number of elements announced in the head is the number
written. -/
def writeBeacon (b : Beacon) : Bytes :=
  seq ([num b.version, num b.flags, writeEid b.eid, num b.bsn] ++
    (if !b.block.isEmpty then [writeBlock b.block] else []) ++
    (match b.period with
      | some ms => [num (ms / 1000)]
      | none => []))

/-! ### Reading -/

/-- The scheme specific part of a `dtn` address: `//node/service`. Reading up to the first `/`. -/
def splitNode : List Char → List Char → Option (List Char × List Char)
  | _, [] => none
  | acc, c :: cs => if c = '/' then some (acc.reverse, cs) else splitNode (c :: acc) cs

/-- A `dtn` address (crate `bp7`, external). -/
def parseDtn (s : List Char) : Option EID :=
  match s with
  | '/' :: '/' :: cs => (splitNode [] cs).map fun r => .dtn (String.ofList r.1) (String.ofList r.2)
  | _ => none

/-- The second element of a `dtn` endpoint: 0 for `dtn:none`, or a name. -/
def readDtn : Rd EID := fun bs =>
  match readNum 1 bs with
  | .ok _ rest => .ok .none rest
  | _ => (do
    let s ← readText
    match parseDtn s.toList with
    | some e => pure e
    | none => fail : Rd EID) bs

/-- `EndpointID` from CBOR (crate `bp7`, external). -/
def readEid : Rd EID := do
  match ← readHead limit with
  | .val 4 n =>
    if n = 2 then do
      let scheme ← readNum 256
      if scheme = 1 then readDtn
      else if scheme = 2 then do
        let a ← readPair (readNum (2 ^ 64)) (readNum (2 ^ 64))
        pure (.ipn a.1 a.2)
      else fail
    else fail
  | _ => fail

/-- One entry of the service map. -/
def readService : Rd (Nat × Bytes) := do
  let tag ← readNum 256
  let payload ← readSeq (readNum 256)
  pure (tag, payload.map UInt8.ofNat)

/-- Collect a map; the last value of a key counts. -/
def collect (l : List (Nat × Bytes)) : AList Nat Bytes := l.foldl (fun m kv => AList.insert m kv.1 kv.2) []

/-- `Deserialize for ServiceBlock`, `ipnd/services.rs:255-290`. An array of indefinite length has no size hint:
`unwrap` panics (line 274). -/
def readBlock : Rd ServiceBlock := do
  match ← readHead limit with
  | .val 4 n =>
    if n = 0 then pure {}
    else if n = 2 then do
      let clas ← readSeq (readPair readText (option (readNum 65536)))
      let services ← readMap readService
      pure { clas, services := collect services }
    else fail
  | .indef 4 => abort
  | _ => fail

/-- The mandatory fields, `ipnd/beacon.rs:236-247`. -/
def readFields : Rd Beacon := do
  let version ← readNum 256
  let flags ← readNum 256
  let eid ← readEid
  let bsn ← readNum (2 ^ 32)
  pure { version, flags, eid, bsn, block := {}, period := none }

/-- `Deserialize for Beacon`, `ipnd/beacon.rs:217-296`. An array of indefinite length has no size hint: `unwrap` panics
(line 251). Too few or too many elements are an error. -/
def readBeacon : Rd Beacon := do
  match ← readHead limit with
  | .val 4 n =>
    if n < 4 then fail
    else do
      let b ← readFields
      if n = 4 then pure b
      else if n = 5 then
        if b.flags / 2 % 2 = 1 then do
          let block ← readBlock
          pure { b with block }
        else do
          let secs ← readNum (2 ^ 64)
          pure { b with period := some (secs * 1000) }
      else do
        let block ← readBlock
        let secs ← readNum (2 ^ 64)
        if n = 6 then pure { b with block, period := some (secs * 1000) } else fail
  | .indef 4 => do
    let _ ← readFields
    abort
  | _ => fail

/-- `serde_cbor::from_slice` (used at `ipnd/neighbour_discovery.rs:23`): nothing may follow the value. -/
def fromSlice (bs : Bytes) : Outcome Beacon :=
  match readBeacon bs with
  | .ok b [] => .ok b
  | .panic => .panic
  | _ => .err

/-! ### The receiving task -/

/-- The state the receiving task works on. `alive` is false after a panic: the task is gone and nobody reads the socket
any more. `notified` are the encounters reported to the router. -/
structure Rx where
  host : EID
  peers : Peers := []
  services : AList String (AList Nat Service) := []
  notified : List EID := []
  alive : Bool := true
deriving DecidableEq, Repr

/-- One round of the loop in `receiver`, `ipnd/neighbour_discovery.rs:19-70`: a datagram from `src` at time `now`.
Simplification: the accesses to the peer table and the router are one step. -/
def receive (s : Rx) (now : Nat) (src : PeerAddress) (data : Bytes) : Rx :=
  if !s.alive then s
  else match fromSlice data with
    | .err => s
    | .panic => { s with alive := false }
    | .ok b =>
      match convert b.block.services with
      | .panic => { s with alive := false }
      | .err => s
      | .ok svc =>
        if b.eid = s.host then s
        else
          let p := Peer.new now b.eid src .dynamic b.period b.block.clas
          match s.peers.add p with
          | none => { s with alive := false }
          | some (ps, isNew) =>
            let node := b.eid.node.getD ""
            { s with
              peers := if isNew then ps else (Peers.touch now ps node).1
              services := AList.insert s.services node svc
              notified := s.notified ++ [b.eid] }

/-- A datagram: time, source address and contents. -/
structure Datagram where
  now : Nat
  src : PeerAddress
  data : Bytes
deriving DecidableEq, Repr

/-- All datagrams of a history. -/
def receiveAll (s : Rx) (ds : List Datagram) : Rx := ds.foldl (fun s d => receive s d.now d.src d.data) s

/-- What happens to the peer table: datagrams and the other functions of `Model/Peer.lean`. -/
inductive Ev where
  | beacon (d : Datagram)
  | table (op : Peers.Op)
deriving DecidableEq, Repr

/-- One event. -/
def step (s : Rx) : Ev → Rx
  | .beacon d => receive s d.now d.src d.data
  | .table op => { s with peers := s.peers.step op }

/-- All events of a history. -/
def run (s : Rx) (evs : List Ev) : Rx := evs.foldl step s

end Dtn.Discovery
