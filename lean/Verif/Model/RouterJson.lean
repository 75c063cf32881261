import Verif.Model.EclaJson
import Verif.Model.Routing.External
/-! The JSON text of the packets between a node and an external router, `routing/erouting/mod.rs:18-164`. -/

namespace Dtn.RouterJson
open Serde EclaJson
open Routing.External (Hop)

/-- `DtnPeer`, `core/peer.rs:58-68`, with all its fields. `period` is a `Duration` (seconds and nanoseconds), `services` a `HashMap` in the
order of its iteration. -/
structure PeerInfo where
  eid : EID
  addr : PeerAddress
  conType : PeerType
  period : Option (Nat × Nat)
  claList : List (String × Option Nat)
  services : List (Nat × String)
  lastContact : Nat
  fails : Nat
deriving DecidableEq, Repr

/-- `Packet`, `routing/erouting/mod.rs:20-51`, with the contents of lines 84-164. Of several peers with one name the last counts. -/
inductive Packet where
  | request (clas : List String) (bp : Pack)
  | response (bp : Pack) (clas : List Hop) (delete : Bool)
  | error (reason : String)
  | timeout (bp : Pack)
  | sendingFailed (bid sender : String)
  | sendingSucceeded (bid sender : String)
  | incoming (b : Bundle)
  | incomingWithout (bid node : String)
  | encountered (name : String) (eid : EID) (peer : PeerInfo)
  | dropped (name : String) (eid : EID)
  | peerState (peers : List (String × PeerInfo))
  | serviceState (services : List (Nat × String))
  | serviceAdd (tag : Nat) (service : String)
deriving DecidableEq

/-- What other crates and the standard library do: writing and reading of bundles and reading of endpoint ids (`bp7`), reading of IP
addresses (`std::net::IpAddr`), the order in which a `HashSet` is visited, and which numbers are in the range of `f64`. -/
structure Ext where
  bundle : Bundle → Value
  readBundle : Value → Option Bundle
  readEid : Value → Option EID
  readIp : String → Option PeerAddress
  order : CSet → List Constraint
  finite : List Char → Bool

/-! ### Writing -/

/-- The name of a constraint, `core/bundlepack.rs:14-34`, as derived. -/
def constraintName : Constraint → String
  | .dispatchPending => "DispatchPending"
  | .forwardPending => "ForwardPending"
  | .reassemblyPending => "ReassemblyPending"
  | .contraindicated => "Contraindicated"
  | .localEndpoint => "LocalEndpoint"
  | .deleted => "Deleted"

/-- `Serialize` of `BundlePack`, derived from `core/bundlepack.rs:45-57`. -/
def packValue (x : Ext) (bp : Pack) : Value :=
  .obj [("source", eidValue bp.source), ("destination", eidValue bp.destination), ("received_time", .num bp.receivedTime),
    ("creation_time", .num bp.creationTime), ("lifetime", .num bp.lifetime), ("id", .str bp.id), ("administrative", .bool bp.administrative),
    ("size", .num bp.size), ("constraints", .list ((x.order bp.constraints).map fun c => .str (constraintName c)))]

/-- `Serialize` of `PeerAddress`, derived from `core/peer.rs:28-35`. -/
def addrValue : PeerAddress → Value
  | .ipv4 a => .obj [("Ip", .str a)]
  | .ipv6 a => .obj [("Ip", .str a)]
  | .broadcastGeneric d a => .obj [("BroadcastGeneric", .list [.str d, .str a])]
  | .generic a => .obj [("Generic", .str a)]

/-- An optional port. -/
def portValue : Option Nat → Value
  | some p => .num p
  | none => .null

/-- `Serialize` of `Duration` (external). -/
def periodValue : Option (Nat × Nat) → Value
  | some (secs, nanos) => .obj [("secs", .num secs), ("nanos", .num nanos)]
  | none => .null

/-- `Serialize` of `PeerType`, derived from `core/peer.rs:11-14`. -/
def typeValue : PeerType → Value
  | .static => .str "Static"
  | .dynamic => .str "Dynamic"

/-- A `HashMap<u8, String>`: `serde_json` writes the numbers as names of fields. -/
def servicesValue (l : List (Nat × String)) : Value := .obj (l.map fun s => (toString s.1, .str s.2))

/-- `Serialize` of `DtnPeer`, derived from `core/peer.rs:59-68`. -/
def peerValue (p : PeerInfo) : Value :=
  .obj [("eid", eidValue p.eid), ("addr", addrValue p.addr), ("con_type", typeValue p.conType), ("period", periodValue p.period),
    ("cla_list", .list (p.claList.map fun c => .list [.str c.1, portValue c.2])), ("services", servicesValue p.services),
    ("last_contact", .num p.lastContact), ("fails", .num p.fails)]

/-- `Serialize` of `Sender`, derived from `routing/erouting/mod.rs:86-92`. -/
def hopValue (h : Hop) : Value :=
  .obj [("remote", addrValue h.remote), ("port", portValue h.port), ("agent", .str h.agent), ("next_hop", eidValue h.nextHop)]

/-- `Serialize` of `Packet`, derived from `routing/erouting/mod.rs:20-51` and 94-164: the variant as the field `type`, then the fields in the
order of their definition. -/
def toValue (x : Ext) : Packet → Value
  | .request clas bp => .obj [("type", .str "RequestSenderForBundle"), ("clas", .list (clas.map .str)), ("bp", packValue x bp)]
  | .response bp clas delete =>
    .obj [("type", .str "ResponseSenderForBundle"), ("bp", packValue x bp), ("clas", .list (clas.map hopValue)), ("delete_afterwards", .bool delete)]
  | .error reason => .obj [("type", .str "Error"), ("reason", .str reason)]
  | .timeout bp => .obj [("type", .str "Timeout"), ("bp", packValue x bp)]
  | .sendingFailed bid sender => .obj [("type", .str "SendingFailed"), ("bid", .str bid), ("cla_sender", .str sender)]
  | .sendingSucceeded bid sender => .obj [("type", .str "SendingSucceeded"), ("bid", .str bid), ("cla_sender", .str sender)]
  | .incoming b => .obj [("type", .str "IncomingBundle"), ("bndl", x.bundle b)]
  | .incomingWithout bid node => .obj [("type", .str "IncomingBundleWithoutPreviousNode"), ("bid", .str bid), ("node_name", .str node)]
  | .encountered name eid peer => .obj [("type", .str "EncounteredPeer"), ("name", .str name), ("eid", eidValue eid), ("peer", peerValue peer)]
  | .dropped name eid => .obj [("type", .str "DroppedPeer"), ("name", .str name), ("eid", eidValue eid)]
  | .peerState peers => .obj [("type", .str "PeerState"), ("peers", .obj (peers.map fun p => (p.1, peerValue p.2)))]
  | .serviceState services => .obj [("type", .str "ServiceState"), ("service_list", servicesValue services)]
  | .serviceAdd tag service => .obj [("type", .str "ServiceAdd"), ("tag", .num tag), ("service", .str service)]

/-- The text of a packet, `routing/erouting/processing.rs:146`, `routing/erouting/ws_client.rs:70`. -/
def write (x : Ext) (p : Packet) : List Char := chars (toValue x p)

/-! ### Reading

The derived readers work on a value that was read completely before, because the variant is given in a field of the object.
Simplifications: serde reads structures from lists as well, and a constraint or kind of peer as an object with a null. -/

/-- A text. -/
def readText : Value → Option String
  | .str s => some s
  | _ => none

/-- A Boolean. -/
def readBool : Value → Option Bool
  | .bool b => some b
  | _ => none

/-- A number of a type with this many values. -/
def readNum (bound : Nat) : Value → Option Nat
  | .num n => if n < bound then some n else none
  | _ => none

/-- A `Vec`. -/
def readList {α : Type} (r : Value → Option α) : Value → Option (List α)
  | .list l => l.mapM r
  | _ => none

/-- The field of this name, which must be there once. -/
def get {α : Type} (l : List (String × Value)) (k : String) (r : Value → Option α) : Option α := (field l k).bind r

/-- A field of type `Option`, which may be missing or null. -/
def getOpt {α : Type} (l : List (String × Value)) (k : String) (r : Value → Option α) : Option (Option α) :=
  match (l.filter fun f => f.1 == k).map Prod.snd with
  | [] => some none
  | [.null] => some none
  | [v] => (r v).map some
  | _ => none

/-- The constraint of this name. -/
def readConstraint : Value → Option Constraint
  | .str "DispatchPending" => some .dispatchPending
  | .str "ForwardPending" => some .forwardPending
  | .str "ReassemblyPending" => some .reassemblyPending
  | .str "Contraindicated" => some .contraindicated
  | .str "LocalEndpoint" => some .localEndpoint
  | .str "Deleted" => some .deleted
  | _ => none

/-- A `HashSet<Constraint>`. -/
def readConstraints (v : Value) : Option CSet := (readList readConstraint v).map fun cs => cs.foldl (fun s c => s.set true c) CSet.empty

/-- `Deserialize` of `BundlePack`, derived from `core/bundlepack.rs:45-57`. -/
def readPack (x : Ext) : Value → Option Pack
  | .obj l => do
    let source ← get l "source" x.readEid
    let destination ← get l "destination" x.readEid
    let receivedTime ← get l "received_time" (readNum (2 ^ 64))
    let creationTime ← get l "creation_time" (readNum (2 ^ 64))
    let lifetime ← get l "lifetime" (readNum (2 ^ 64))
    let id ← get l "id" readText
    let administrative ← get l "administrative" readBool
    let size ← get l "size" (readNum (2 ^ 64))
    let constraints ← get l "constraints" readConstraints
    pure { source, destination, receivedTime, creationTime, lifetime, id, administrative, size, constraints }
  | _ => none

/-- `Deserialize` of `PeerAddress`, derived from `core/peer.rs:28-35`. -/
def readAddr (x : Ext) : Value → Option PeerAddress
  | .obj [("Ip", .str a)] => x.readIp a
  | .obj [("BroadcastGeneric", .list [.str d, .str a])] => some (.broadcastGeneric d a)
  | .obj [("Generic", .str a)] => some (.generic a)
  | _ => none

/-- `Deserialize` of `PeerType`, derived from `core/peer.rs:11-14`. -/
def readType : Value → Option PeerType
  | .str "Static" => some .static
  | .str "Dynamic" => some .dynamic
  | _ => none

/-- `Deserialize` of `Duration` (external): no other fields; nanoseconds that make up a second are carried over. -/
def readPeriod : Value → Option (Nat × Nat)
  | .obj l =>
    if l.all fun f => f.1 == "secs" || f.1 == "nanos" then do
      let secs ← get l "secs" (readNum (2 ^ 64))
      let nanos ← get l "nanos" (readNum (2 ^ 32))
      if secs + nanos / 1000000000 < 2 ^ 64 then some (secs + nanos / 1000000000, nanos % 1000000000) else none
    else none
  | _ => none

/-- An optional port in a list. -/
def readPort : Value → Option (Option Nat)
  | .null => some none
  | v => (readNum 65536 v).map some

/-- A name of a convergence layer and a port. -/
def readLayer : Value → Option (String × Option Nat)
  | .list [.str n, p] => (readPort p).map fun p => (n, p)
  | _ => none

/-- A `HashMap<u8, String>`. The names of fields are texts when the value was read before; the reader of `u8` does not take them, so that
only an empty map can be read. -/
def readServices : Value → Option (List (Nat × String))
  | .obj [] => some []
  | _ => none

/-- `Deserialize` of `DtnPeer`, derived from `core/peer.rs:59-68`. -/
def readPeer (x : Ext) : Value → Option PeerInfo
  | .obj l => do
    let eid ← get l "eid" x.readEid
    let addr ← get l "addr" (readAddr x)
    let conType ← get l "con_type" readType
    let period ← getOpt l "period" readPeriod
    let claList ← get l "cla_list" (readList readLayer)
    let services ← get l "services" readServices
    let lastContact ← get l "last_contact" (readNum (2 ^ 64))
    let fails ← get l "fails" (readNum 65536)
    pure { eid, addr, conType, period, claList, services, lastContact, fails }
  | _ => none

/-- A `BTreeMap<String, DtnPeer>`. -/
def readPeers (x : Ext) : Value → Option (List (String × PeerInfo))
  | .obj l => l.mapM fun f => (readPeer x f.2).map fun p => (f.1, p)
  | _ => none

/-- `Deserialize` of `Sender`, derived from `routing/erouting/mod.rs:86-92`. -/
def readHop (x : Ext) : Value → Option Hop
  | .obj l => do
    let remote ← get l "remote" (readAddr x)
    let port ← getOpt l "port" (readNum 65536)
    let agent ← get l "agent" readText
    let nextHop ← get l "next_hop" x.readEid
    pure { remote, port, agent, nextHop }
  | _ => none

/-- The contents of a packet of this type. -/
def readContents (x : Ext) (l : List (String × Value)) (t : String) : Option Packet :=
  if t = "RequestSenderForBundle" then do
    let clas ← get l "clas" (readList readText)
    let bp ← get l "bp" (readPack x)
    pure (.request clas bp)
  else if t = "ResponseSenderForBundle" then do
    let bp ← get l "bp" (readPack x)
    let clas ← get l "clas" (readList (readHop x))
    let delete ← get l "delete_afterwards" readBool
    pure (.response bp clas delete)
  else if t = "Error" then do
    let reason ← get l "reason" readText
    pure (.error reason)
  else if t = "Timeout" then do
    let bp ← get l "bp" (readPack x)
    pure (.timeout bp)
  else if t = "SendingFailed" then do
    let bid ← get l "bid" readText
    let sender ← get l "cla_sender" readText
    pure (.sendingFailed bid sender)
  else if t = "SendingSucceeded" then do
    let bid ← get l "bid" readText
    let sender ← get l "cla_sender" readText
    pure (.sendingSucceeded bid sender)
  else if t = "IncomingBundle" then do
    let b ← get l "bndl" x.readBundle
    pure (.incoming b)
  else if t = "IncomingBundleWithoutPreviousNode" then do
    let bid ← get l "bid" readText
    let node ← get l "node_name" readText
    pure (.incomingWithout bid node)
  else if t = "EncounteredPeer" then do
    let name ← get l "name" readText
    let eid ← get l "eid" x.readEid
    let peer ← get l "peer" (readPeer x)
    pure (.encountered name eid peer)
  else if t = "DroppedPeer" then do
    let name ← get l "name" readText
    let eid ← get l "eid" x.readEid
    pure (.dropped name eid)
  else if t = "PeerState" then do
    let peers ← get l "peers" (readPeers x)
    pure (.peerState peers)
  else if t = "ServiceState" then do
    let services ← get l "service_list" readServices
    pure (.serviceState services)
  else if t = "ServiceAdd" then do
    let tag ← get l "tag" (readNum 256)
    let service ← get l "service" readText
    pure (.serviceAdd tag service)
  else none

/-- `Deserialize` of `Packet`, derived from `routing/erouting/mod.rs:20-51` and 94-164: fields in any order, other fields are ignored. -/
def fromValue (x : Ext) : Value → Option Packet
  | .obj l => (get l "type" readText).bind (readContents x l)
  | _ => none

/-- The packet in a text, `routing/erouting/processing.rs:83`, `routing/erouting/ws_client.rs:92`. -/
def read (x : Ext) (cs : List Char) : Option Packet := (parse x.finite cs).bind (fromValue x)

end Dtn.RouterJson
