import Verif.Model.Digest
import Verif.Model.JsonText
import Verif.Model.Peer
import Verif.Model.Processing
import Verif.Model.Tools
/-! Model of the status pages of the daemon (`dtnd/httpd.rs`) as read by `dtnquery`. -/

namespace Dtn.Status
open Tools

/-- `serde_json::to_string_pretty` of a list of strings (external; used in `dtnd/httpd.rs:256,266,274,293,300`). -/
def jsonList (l : List String) : String := JsonText.pretty (.list (l.map .str))

/-- A neighbour as shown, `core/peer.rs:58-68`: the model of the table and the services announced, which only this page shows. -/
structure ShownPeer where
  peer : Peer
  services : List (Nat × String)
deriving Repr

/-- What the status pages read: the configuration, the registered endpoints, what the store's `bundles()` lists, the table of
neighbours in the order in which the map is walked, the statistics, and their counter of broken receptions (which `Stats` leaves
out). -/
structure View where
  hostEid : EID
  eids : List EID
  packs : List Pack
  peers : List (String × ShownPeer) := []
  stats : Proc.Stats := {}
  broken : Nat := 0
deriving Repr

/-- External functions: the hash, the reading of bytes as UTF-8 with replacement characters for what is not, the order in which
the constraints of a bundle are walked (a `HashSet`), and how the library `bp7` shows an endpoint id in JSON. -/
structure Ext where
  sha1 : List Char → String
  lossy : Bytes → String
  walk : Pack → List Constraint
  eid : EID → JsonText.Value

/-- The parameter `addr`, `dtnd/httpd.rs:269-272,280-283`. -/
def addrParam (x : Ext) (query : Option String) : Option String :=
  match query with
  | none => none
  | some q => (formValue "addr" q).map x.lossy

/-- `src_dst_ts`, `core/store/mod.rs:52-62`. -/
def fullMeta (packs : List Pack) : List String :=
  packs.map fun p => p.source.print ++ " " ++ p.destination.print ++ " " ++ toString p.creationTime ++ " " ++ toString p.size

/-- `Display for Constraint`, `core/bundlepack.rs:36-40`. -/
def constraintName : Constraint → String
  | .dispatchPending => "DispatchPending"
  | .forwardPending => "ForwardPending"
  | .reassemblyPending => "ReassemblyPending"
  | .contraindicated => "Contraindicated"
  | .localEndpoint => "LocalEndpoint"
  | .deleted => "Deleted"

/-- `Display for BundlePack`, `core/bundlepack.rs:59-63`, with the standard library's way to show a set. -/
def showPack (x : Ext) (p : Pack) : String :=
  p.id ++ " {" ++ String.intercalate ", " ((x.walk p).map constraintName) ++ "}"

/-- `bundles_status`, `core/store/mod.rs:49-51`. -/
def bundlesStatus (x : Ext) (packs : List Pack) : List String := packs.map (showPack x)

/-- `Serialize for PeerAddress`, derived, `core/peer.rs:27-35`. -/
def addrValue : PeerAddress → JsonText.Value
  | .ipv4 a => .obj [("Ip", .str a)]
  | .ipv6 a => .obj [("Ip", .str a)]
  | .broadcastGeneric d a => .obj [("BroadcastGeneric", .list [.str d, .str a])]
  | .generic a => .obj [("Generic", .str a)]

/-- `Serialize for PeerType`, derived, `core/peer.rs:10-14`. -/
def typeValue : PeerType → JsonText.Value
  | .static => .str "Static"
  | .dynamic => .str "Dynamic"

/-- `Serialize for Option<Duration>` (external; field `period`, `core/peer.rs:63`). -/
def periodValue : Option Nat → JsonText.Value
  | none => .null
  | some ms => .obj [("secs", .num (ms / 1000)), ("nanos", .num (ms % 1000 * 1000000))]

/-- An element of `cla_list`, `core/peer.rs:64`. -/
def claValue : String × Option Nat → JsonText.Value
  | (name, none) => .list [.str name, .null]
  | (name, some port) => .list [.str name, .num port]

/-- `Serialize for DtnPeer`, derived, `core/peer.rs:58-68`. The numbers that are the keys of the services become strings. -/
def peerValue (x : Ext) (p : ShownPeer) : JsonText.Value :=
  .obj [("eid", x.eid p.peer.eid), ("addr", addrValue p.peer.addr), ("con_type", typeValue p.peer.conType),
    ("period", periodValue p.peer.period), ("cla_list", .list (p.peer.claList.map claValue)),
    ("services", .obj (p.services.map fun s => (toString s.1, .str s.2))),
    ("last_contact", .num p.peer.lastContact), ("fails", .num p.peer.fails)]

/-- `Serialize for DtnStatistics`, derived, `core/mod.rs:31-39`. -/
def statsValue (s : Proc.Stats) (broken : Nat) : JsonText.Value :=
  .obj [("incoming", .num s.incoming), ("dups", .num s.dups), ("outgoing", .num s.outgoing), ("delivered", .num s.delivered),
    ("failed", .num s.failed), ("broken", .num broken)]

/-- `status_node_id`, `status_eids`, `status_bundles`, `status_bundles_filtered`, `status_bundles_filtered_digest`,
`status_bundles_verbose`, `status_bundles_digest`, `status_store`, `status_peers` and `status_info`, `dtnd/httpd.rs:248-311`, and
`DtnCore::eids`, `core/mod.rs:92-94`: status and text. -/
def page (x : Ext) (v : View) (path : String) (query : Option String) : Option (Nat × String) :=
  if path = "/status/nodeid" then some (200, v.hostEid.print)
  else if path = "/status/eids" then some (200, jsonList (v.eids.map EID.print))
  else if path = "/status/bundles" then some (200, jsonList ((v.packs.filter fun p => !p.has .deleted).map Pack.id))
  else if path = "/status/bundles/filtered" then
    match addrParam x query with
    | some c => some (200, jsonList (Digest.filterAddr c v.packs))
    | none => some (400, "missing filter criteria")
  else if path = "/status/bundles/filtered/digest" then
    match addrParam x query with
    | some c => some (200, Digest.ofBids x.sha1 (Digest.filterAddr c v.packs))
    | none => some (400, "missing filter criteria")
  else if path = "/status/bundles/verbose" then some (200, jsonList (fullMeta v.packs))
  else if path = "/status/bundles/digest" then some (200, Digest.complete x.sha1 v.packs)
  else if path = "/status/store" then some (200, jsonList (bundlesStatus x v.packs))
  else if path = "/status/peers" then some (200, JsonText.pretty (.obj (v.peers.map fun p => (p.1, peerValue x p.2))))
  else if path = "/status/info" then some (200, JsonText.pretty (statsValue v.stats v.broken))
  else none

/-- `dtnquery` run beside a daemon, `bin/dtnquery.rs:47-109`. -/
def query (x : Ext) (v : View) (c : QueryCmd) : Tools.Outcome := dtnquery c ((page x v c.asks.1 c.asks.2).map (·.2))

end Dtn.Status
