import Verif.Model.Serde
import Verif.Model.EclaFrames
import Verif.Model.ModuleClient
import Verif.Model.Cbor
/-! The JSON text of the packets between a node and external convergence layer modules, `cla/ecla/mod.rs:27-114`. -/

namespace Dtn.EclaJson
open Serde ModuleClient

/-- An endpoint id (`Serialize` of the crate `bp7`, external): the number of the scheme and the address. -/
def eidValue : EID → Value
  | .none => .list [.num 1, .num 0]
  | .dtn n s => .list [.num 1, .str ("//" ++ n ++ "/" ++ s)]
  | .ipn n s => .list [.num 2, .list [.num n, .num s]]

/-- Bytes as Base64 text, `cla/ecla/mod.rs:35-38`. -/
def base64 (d : Bytes) : Value := .str (.ofList (EclaFrames.encode64 d))

/-- `Serialize` of `Packet` as derived from the definitions in `cla/ecla/mod.rs:50-114`: the variant as the field `type`, then the fields in
the order of their definition. -/
def toValue : EclaPacket → Value
  | .register name beacon port =>
    .obj [("type", .str "Register"), ("name", .str name), ("enable_beacon", .bool beacon),
      ("port", match port with
        | some p => .num p
        | none => .null)]
  | .beacon eid addr block =>
    .obj [("type", .str "Beacon"), ("eid", eidValue eid), ("addr", .str addr), ("service_block", base64 block)]
  | .data src dst bid bytes =>
    .obj [("type", .str "ForwardData"), ("src", .str src), ("dst", .str dst), ("bundle_id", .str bid), ("data", base64 bytes)]
  | .registered eid nodeid => .obj [("type", .str "Registered"), ("eid", eidValue eid), ("nodeid", .str nodeid)]
  | .error reason => .obj [("type", .str "Error"), ("reason", .str reason)]

/-- The text of a packet, `cla/ecla/ws.rs:123`, `cla/ecla/ws_client.rs:111`, `cla/ecla/tcp.rs:118`. -/
def write (p : EclaPacket) : List Char := chars (toValue p)

/-- The field of this name. Missing and repeated fields are errors of the derived readers. -/
def field (l : List (String × Value)) (k : String) : Option Value :=
  match (l.filter fun f => f.1 == k).map Prod.snd with
  | [v] => some v
  | _ => none

/-- A field of type `String`. -/
def textField (l : List (String × Value)) (k : String) : Option String :=
  match field l k with
  | some (.str s) => some s
  | _ => none

/-- A field of type `bool`. -/
def boolField (l : List (String × Value)) (k : String) : Option Bool :=
  match field l k with
  | some (.bool b) => some b
  | _ => none

/-- A field with Base64 text, `cla/ecla/mod.rs:40-45`. -/
def bytesField (l : List (String × Value)) (k : String) : Option Bytes := (textField l k).bind fun s => EclaFrames.decode64 s.toList

/-- A field of type `Option<u16>`, which may be missing. -/
def portField (l : List (String × Value)) (k : String) : Option (Option Nat) :=
  match (l.filter fun f => f.1 == k).map Prod.snd with
  | [] => some none
  | [.null] => some none
  | [.num n] => if n < 65536 then some (some n) else none
  | _ => none

/-- `Deserialize` of `Packet` as derived from the definitions in `cla/ecla/mod.rs:50-114`: fields in any order, other fields are ignored.
`eid` reads endpoint ids (crate `bp7`, external). Serde also reads a list of the variant and the fields in the order of their definition. -/
def fromValue (eid : Value → Option EID) : Value → Option EclaPacket
  | .obj l =>
    match textField l "type" with
    | none => none
    | some t =>
      if t = "Register" then do
        let name ← textField l "name"
        let beacon ← boolField l "enable_beacon"
        let port ← portField l "port"
        pure (.register name beacon port)
      else if t = "Beacon" then do
        let e ← (field l "eid").bind eid
        let addr ← textField l "addr"
        let block ← bytesField l "service_block"
        pure (.beacon e addr block)
      else if t = "ForwardData" then do
        let src ← textField l "src"
        let dst ← textField l "dst"
        let bid ← textField l "bundle_id"
        let data ← bytesField l "data"
        pure (.data src dst bid data)
      else if t = "Registered" then do
        let e ← (field l "eid").bind eid
        let nodeid ← textField l "nodeid"
        pure (.registered e nodeid)
      else if t = "Error" then do
        let reason ← textField l "reason"
        pure (.error reason)
      else none
  | .list [.str "Register", .str name, .bool beacon, .null] => some (.register name beacon none)
  | .list [.str "Register", .str name, .bool beacon, .num p] => if p < 65536 then some (.register name beacon (some p)) else none
  | .list [.str "Beacon", e, .str addr, .str block] => do
    let e ← eid e
    let block ← EclaFrames.decode64 block.toList
    pure (.beacon e addr block)
  | .list [.str "ForwardData", .str src, .str dst, .str bid, .str data] =>
    (EclaFrames.decode64 data.toList).map fun data => .data src dst bid data
  | .list [.str "Registered", e, .str nodeid] => (eid e).map fun e => .registered e nodeid
  | .list [.str "Error", .str reason] => some (.error reason)
  | _ => none

/-- The packet in a text, `cla/ecla/ws.rs:66`, `cla/ecla/ws_client.rs:134`. -/
def read (finite : List Char → Bool) (eid : Value → Option EID) (cs : List Char) : Option EclaPacket := (parse finite cs).bind (fromValue eid)

/-- The bytes of a packet in a frame, `cla/ecla/tcp.rs:118`. -/
def writeBytes (p : EclaPacket) : Bytes := Cbor.utf8 (.ofList (write p))

/-- The packet in a frame, `cla/ecla/tcp.rs:48-51`. -/
def readBytes (finite : List Char → Bool) (eid : Value → Option EID) (bs : Bytes) : Option EclaPacket :=
  (Cbor.ofUtf8 bs).bind fun s => read finite eid s.toList

end Dtn.EclaJson
