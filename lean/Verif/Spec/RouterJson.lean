import Verif.Spec.EclaJson
import Verif.Model.RouterJson
/-! The packets of external routers as JSON objects: the types and fields of `/repo/doc/erouting.md` and, where it shows no contents, of the
definitions in `routing/erouting/mod.rs`, `core/bundlepack.rs` and `core/peer.rs`. -/

namespace Dtn.Spec.RouterJson
open Serde (Value)
open Spec.EclaJson (Has)
open Dtn.RouterJson (Packet PeerInfo)
open Routing.External (Hop)

/-- How endpoint ids, IP addresses and bundles are written. -/
structure Forms where
  eid : EID → Value → Prop
  ip : PeerAddress → String → Prop
  bundle : Bundle → Value → Prop

/-- The object has exactly one field of this name, with a value of this kind. -/
def Field (l : List (String × Value)) (k : String) (kind : Value → Prop) : Prop := ∃ v, Has l k v ∧ kind v

/-- The same for an optional field, which may also be null or missing. -/
def Optional {α : Type} (l : List (String × Value)) (k : String) (kind : α → Value → Prop) : Option α → Prop
  | some a => ∃ v, v ≠ .null ∧ Has l k v ∧ kind a v
  | none => Has l k .null ∨ ∀ f ∈ l, f.1 ≠ k

/-- The elements of the two lists belong together, one by one. -/
inductive Each {α β : Type} (R : α → β → Prop) : List α → List β → Prop where
  | nil : Each R [] []
  | cons {a b as bs} : R a b → Each R as bs → Each R (a :: as) (b :: bs)

/-- A list of values of this kind. -/
def Listed {α : Type} (kind : α → Value → Prop) (as : List α) (v : Value) : Prop := ∃ vs, v = .list vs ∧ Each kind as vs

/-- A number below this bound. -/
def Number (bound n : Nat) (v : Value) : Prop := n < bound ∧ v = .num n

/-- The names of the retention constraints. -/
def names : List (Constraint × String) :=
  [(.dispatchPending, "DispatchPending"), (.forwardPending, "ForwardPending"), (.reassemblyPending, "ReassemblyPending"),
   (.contraindicated, "Contraindicated"), (.localEndpoint, "LocalEndpoint"), (.deleted, "Deleted")]

/-- A list of exactly these constraints, in any order. -/
def Constraints (has : Constraint → Bool) (v : Value) : Prop :=
  ∃ cs : List Constraint, Listed (fun c v => ∃ s, (c, s) ∈ names ∧ v = .str s) cs v ∧ ∀ c, has c = true ↔ c ∈ cs

/-- The record of a bundle. -/
def PackObj (F : Forms) (bp : Pack) (v : Value) : Prop :=
  ∃ l, v = .obj l ∧ Field l "source" (F.eid bp.source) ∧ Field l "destination" (F.eid bp.destination) ∧
    Field l "received_time" (Number (2 ^ 64) bp.receivedTime) ∧ Field l "creation_time" (Number (2 ^ 64) bp.creationTime) ∧
    Field l "lifetime" (Number (2 ^ 64) bp.lifetime) ∧ Field l "id" (· = .str bp.id) ∧ Field l "administrative" (· = .bool bp.administrative) ∧
    Field l "size" (Number (2 ^ 64) bp.size) ∧ Field l "constraints" (Constraints fun c => bp.constraints.has c)

/-- An address. -/
def Address (F : Forms) (a : PeerAddress) (v : Value) : Prop :=
  (∃ s, v = .obj [("Ip", .str s)] ∧ F.ip a s) ∨ (∃ d s, v = .obj [("BroadcastGeneric", .list [.str d, .str s])] ∧ a = .broadcastGeneric d s) ∨
    ∃ s, v = .obj [("Generic", .str s)] ∧ a = .generic s

/-- A period: seconds and nanoseconds. -/
def Period (p : Nat × Nat) (v : Value) : Prop :=
  ∃ l s n, v = .obj l ∧ (∀ f ∈ l, f.1 = "secs" ∨ f.1 = "nanos") ∧ Field l "secs" (Number (2 ^ 64) s) ∧ Field l "nanos" (Number (2 ^ 32) n) ∧
    p.1 * 1000000000 + p.2 = s * 1000000000 + n ∧ p.2 < 1000000000 ∧ p.1 < 2 ^ 64

/-- A convergence layer and its port. -/
def Layer (c : String × Option Nat) (v : Value) : Prop :=
  ∃ p, v = .list [.str c.1, p] ∧ match c.2 with
    | some n => Number 65536 n p
    | none => p = .null

/-- An object with a field for each service, which has the number of the service as name. -/
def Services (s : List (Nat × String)) (v : Value) : Prop :=
  ∃ l, v = .obj l ∧ Each (fun s f => s.1 < 256 ∧ Rfc8259.Num s.1 f.1.toList ∧ f.2 = .str s.2) s l

/-- What is known about a peer. -/
def PeerObj (F : Forms) (p : PeerInfo) (v : Value) : Prop :=
  ∃ l, v = .obj l ∧ Field l "eid" (F.eid p.eid) ∧ Field l "addr" (Address F p.addr) ∧
    Field l "con_type" (· = .str (match p.conType with
      | .static => "Static"
      | .dynamic => "Dynamic")) ∧
    Optional l "period" Period p.period ∧ Field l "cla_list" (Listed Layer p.claList) ∧ Field l "services" (Services p.services) ∧
    Field l "last_contact" (Number (2 ^ 64) p.lastContact) ∧ Field l "fails" (Number 65536 p.fails)

/-- A selected sender. -/
def HopObj (F : Forms) (h : Hop) (v : Value) : Prop :=
  ∃ l, v = .obj l ∧ Field l "remote" (Address F h.remote) ∧ Optional l "port" (Number 65536) h.port ∧ Field l "agent" (· = .str h.agent) ∧
    Field l "next_hop" (F.eid h.nextHop)

/-- The object with these fields is this packet. There may be other fields. -/
def Means (F : Forms) (l : List (String × Value)) : Packet → Prop
  | .request clas bp => Has l "type" (.str "RequestSenderForBundle") ∧ Field l "clas" (Listed (fun s v => v = .str s) clas) ∧ Field l "bp" (PackObj F bp)
  | .response bp clas delete => Has l "type" (.str "ResponseSenderForBundle") ∧ Field l "bp" (PackObj F bp) ∧ Field l "clas" (Listed (HopObj F) clas) ∧
      Has l "delete_afterwards" (.bool delete)
  | .error reason => Has l "type" (.str "Error") ∧ Has l "reason" (.str reason)
  | .timeout bp => Has l "type" (.str "Timeout") ∧ Field l "bp" (PackObj F bp)
  | .sendingFailed bid sender => Has l "type" (.str "SendingFailed") ∧ Has l "bid" (.str bid) ∧ Has l "cla_sender" (.str sender)
  | .sendingSucceeded bid sender => Has l "type" (.str "SendingSucceeded") ∧ Has l "bid" (.str bid) ∧ Has l "cla_sender" (.str sender)
  | .incoming b => Has l "type" (.str "IncomingBundle") ∧ Field l "bndl" (F.bundle b)
  | .incomingWithout bid node => Has l "type" (.str "IncomingBundleWithoutPreviousNode") ∧ Has l "bid" (.str bid) ∧ Has l "node_name" (.str node)
  | .encountered name eid peer => Has l "type" (.str "EncounteredPeer") ∧ Has l "name" (.str name) ∧ Field l "eid" (F.eid eid) ∧ Field l "peer" (PeerObj F peer)
  | .dropped name eid => Has l "type" (.str "DroppedPeer") ∧ Has l "name" (.str name) ∧ Field l "eid" (F.eid eid)
  | .peerState peers => Has l "type" (.str "PeerState") ∧
      Field l "peers" fun v => ∃ l, v = .obj l ∧ Each (fun p f => f.1 = p.1 ∧ PeerObj F p.2 f.2) peers l
  | .serviceState services => Has l "type" (.str "ServiceState") ∧ Field l "service_list" (Services services)
  | .serviceAdd tag service => Has l "type" (.str "ServiceAdd") ∧ Field l "tag" (Number 256 tag) ∧ Has l "service" (.str service)

/-! The contents of packets. -/

/-- The peers that the packet describes. -/
def peers : Packet → List PeerInfo
  | .encountered _ _ p => [p]
  | .peerState ps => ps.map Prod.snd
  | _ => []

/-- The services in the packet. -/
def services : Packet → List (Nat × String)
  | .serviceState s => s
  | p => (peers p).flatMap PeerInfo.services

/-- The records of bundles in the packet. -/
def packs : Packet → List Pack
  | .request _ bp | .response bp _ _ | .timeout bp => [bp]
  | _ => []

/-- The selected senders in the packet. -/
def hops : Packet → List Hop
  | .response _ clas _ => clas
  | _ => []

/-- The endpoint ids in the packet. -/
def eids (p : Packet) : List EID :=
  (packs p).flatMap (fun bp => [bp.source, bp.destination]) ++ (hops p).map Hop.nextHop ++ (peers p).map PeerInfo.eid ++
    match p with
    | .encountered _ e _ | .dropped _ e => [e]
    | _ => []

/-- The addresses in the packet. -/
def addresses (p : Packet) : List PeerAddress := (hops p).map Hop.remote ++ (peers p).map PeerInfo.addr

/-- The numbers of the packet have the sizes of their types. -/
structure Sized (p : Packet) : Prop where
  eids : ∀ n s, EID.ipn n s ∈ eids p → n < 2 ^ 64 ∧ s < 2 ^ 64
  packs : ∀ bp ∈ packs p, bp.receivedTime < 2 ^ 64 ∧ bp.creationTime < 2 ^ 64 ∧ bp.lifetime < 2 ^ 64 ∧ bp.size < 2 ^ 64
  ports : ∀ h ∈ hops p, ∀ n, h.port = some n → n < 65536
  peers : ∀ q ∈ peers p, q.lastContact < 2 ^ 64 ∧ q.fails < 65536 ∧ (∀ s n, q.period = some (s, n) → s < 2 ^ 64 ∧ n < 1000000000) ∧
    ∀ c ∈ q.claList, ∀ n, c.2 = some n → n < 65536
  services : ∀ s ∈ services p, s.1 < 256
  tag : ∀ t s, p = .serviceAdd t s → t < 256

/-- The address is an IP address with this text. -/
def IsIp (a : PeerAddress) (s : String) : Prop := a = .ipv4 s ∨ a = .ipv6 s

/-- A set of constraints is visited completely. -/
def Complete (x : Dtn.RouterJson.Ext) : Prop := ∀ s c, c ∈ x.order s ↔ s.has c = true

/-- Endpoint ids as a list of scheme number and address, IP addresses as text, bundles as the crate `bp7` writes them. -/
def written (x : Dtn.RouterJson.Ext) : Forms := { eid := Spec.EclaJson.Eid, ip := IsIp, bundle := fun b v => v = x.bundle b }

/-- What the readers of other crates take. -/
def taken (x : Dtn.RouterJson.Ext) : Forms :=
  { eid := fun e v => x.readEid v = some e, ip := fun a s => x.readIp s = some a, bundle := fun b v => x.readBundle v = some b }

end Dtn.Spec.RouterJson
