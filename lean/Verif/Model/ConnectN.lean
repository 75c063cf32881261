import Verif.Model.Ecla
import Verif.Model.ModuleClient
/-! Model of the program `examples/dtnecla_connect_n.rs`, an external convergence layer that connects N nodes, together with the nodes
it connects. -/

namespace Dtn.ConnectN
open ModuleClient (EclaPacket)

/-- `usize::from_str`: decimal digits with an optional plus sign, on a machine with 64 bits. -/
def parseUsize (s : List Char) : Option Nat :=
  if Routing.StaticRouting.stripPlus s = [] then none
  else match Routing.StaticRouting.digits 0 (Routing.StaticRouting.stripPlus s) with
    | some n => if n < 2 ^ 64 then some n else none
    | none => none

/-- The number of the client a bundle is for, `examples/dtnecla_connect_n.rs:79-82`: what is before the first colon. -/
def target (dst : String) : Option Nat := parseUsize (dst.toList.takeWhile (· ≠ ':'))

/-- The client of the node with number `i`, `examples/dtnecla_connect_n.rs:51-53`. -/
def kind (i : Nat) : ModuleClient.Kind EclaPacket := ModuleClient.ecla "ConnectN" (toString i) true none

/-- The capacity of the program's channels, `examples/dtnecla_connect_n.rs:38,46`. -/
def capacity : Nat := 100

/-- A node and what belongs to it: `client` and `inbox` are the client and its channel in the program, lines 43-69. `link` is the connection
of the client in the node, `down` and `up` are how many packets the client has read from it and the node has handled. -/
structure Site where
  node : Ecla.State
  client : ModuleClient.State EclaPacket := {}
  inbox : List EclaPacket := []
  link : Option Nat := none
  down : Nat := 0
  up : Nat := 0
deriving DecidableEq, Repr

/-- The program and the nodes; `rx` is the channel that all clients write to, line 38. -/
structure Net where
  rx : List EclaPacket := []
  sites : List Site
deriving DecidableEq, Repr

/-- What the packets say that `Model/Ecla.lean` leaves out: ids of the nodes, and how bundles and service blocks are encoded. -/
structure Ext where
  host : Nat → EID
  nodeid : Nat → String
  bid : Bundle → String
  wire : Bundle → Bytes
  parse : Bytes → Option Bundle
  classify : Bytes → Ecla.Block

/-- A packet of node `i` as it is written, `cla/ecla/processing.rs:55-80,139-186,273-278`; `block` is the service block of a beacon. -/
def written (x : Ext) (i : Nat) (block : Bytes) : Ecla.Out → EclaPacket
  | .registered => .registered (x.host i) (x.nodeid i)
  | .beacon => .beacon (x.host i) "" block
  | .invalidName => .error "invalid name"
  | .alreadyRegistered => .error "already registered"
  | .data dest b => .data "" dest (x.bid b) (x.wire b)

/-- The bytes of a text. -/
def bytesOf (s : String) : Bytes := s.toUTF8.data.toList

/-- A packet as the node reads it, `cla/ecla/ws.rs:65-74` and `cla/ecla/processing.rs:190,209-210`. -/
def read (x : Ext) : EclaPacket → Ecla.Packet
  | .register name beacon port => .register (bytesOf name) beacon port
  | .beacon eid addr block => .beacon eid addr (x.classify block)
  | .data _ _ _ bytes => .data (x.parse bytes)
  | .registered .. | .error .. => .other

/-- What can happen. -/
inductive Ev where
  /-- something at node `i`, other than handling a packet of the program -/
  | node (i : Nat) (e : Ecla.Ev)
  /-- the client calls `serve`; does it connect? -/
  | connect (i : Nat) (ok : Bool)
  /-- the client registers, writes a packet or sees the end of its connection -/
  | client (i : Nat) (e : ModuleClient.Ev EclaPacket)
  /-- the client reads the next packet of its node -/
  | down (i : Nat) (block : Bytes)
  /-- the node handles the next packet of its client -/
  | up (i : Nat)
  /-- the next packet for a client is given to it -/
  | pump (i : Nat)
  /-- the next packet of any client is looked at -/
  | route
deriving DecidableEq, Repr

/-- Put a packet in the channel of each client but number `id`, unless it is full (`try_send`), `examples/dtnecla_connect_n.rs:93-101`. -/
def spread (id : Option Nat) (p : EclaPacket) (sites : List Site) : List Site :=
  sites.mapIdx fun i s => if id = some i then s else if s.inbox.length < capacity then { s with inbox := s.inbox ++ [p] } else s

/-- The loop of the program, `examples/dtnecla_connect_n.rs:74-106`. Sending a bundle waits until there is room. -/
def Net.route (n : Net) : Option Net :=
  match n.rx with
  | [] => none
  | .data src dst bid bytes :: rx =>
    match target dst with
    | none => some { n with rx }
    | some id =>
      match n.sites[id]? with
      | none => some { n with rx }
      | some s => if s.inbox.length < capacity then some { rx, sites := n.sites.set id { s with inbox := s.inbox ++ [.data src dst bid bytes] } } else none
  | .beacon eid addr block :: rx => some { rx, sites := spread (parseUsize addr.toList) (.beacon eid addr block) n.sites }
  | _ :: rx => some { n with rx }

/-- The packets that were put on the connection of a client. -/
def Site.put (s : Site) : List EclaPacket := (s.client.taken.filter fun t => t.2.2).map fun t => t.2.1

/-- The events of a client that the program and its node have no part in. -/
def alone : ModuleClient.Ev EclaPacket → Bool
  | .begin | .write _ | .lost | .finish => true
  | _ => false

/-- One step. `none`: it cannot happen in this state. -/
def Net.step (x : Ext) (n : Net) : Ev → Option Net
  | .node i e =>
    match n.sites[i]? with
    | none => none
    | some s =>
      match e with
      | .packet c p =>
        if s.link = some c then none
        else (Ecla.step s.node (.packet c p)).map fun node => { n with sites := n.sites.set i { s with node } }
      | e => (Ecla.step s.node e).map fun node => { n with sites := n.sites.set i { s with node } }
  -- `examples/dtnecla_connect_n.rs:65-68`: `serve` is called once
  | .connect i ok =>
    match n.sites[i]? with
    | none => none
    | some s =>
      if s.client.results = [] ∧ s.link = none then
        match ModuleClient.step (kind i) s.client (.serve ok), ok with
        | some client, false => some { n with sites := n.sites.set i { s with client } }
        | some client, true =>
          (Ecla.step s.node .acceptWs).map fun node => { n with sites := n.sites.set i { s with client, node, link := some s.node.conns.length } }
        | none, _ => none
      else none
  | .client i e =>
    match n.sites[i]? with
    | none => none
    | some s => if alone e then (ModuleClient.step (kind i) s.client e).map fun client => { n with sites := n.sites.set i { s with client } } else none
  -- `cla/ecla/ws_client.rs:127-168`: passing a packet on waits until there is room
  | .down i block =>
    match n.sites[i]? with
    | none => none
    | some s =>
      match s.link.bind fun c => (s.node.conns[c]?).bind fun k => k.written[s.down]? with
      | none => none
      | some o =>
        (ModuleClient.step (kind i) s.client (.message (.text (some (written x i block o))))).bind fun client =>
          match client.passed.drop s.client.passed.length with
          | [] => some { n with sites := n.sites.set i { s with client, down := s.down + 1 } }
          | ps => if n.rx.length < capacity then some { rx := n.rx ++ ps, sites := n.sites.set i { s with client, down := s.down + 1 } } else none
  | .up i =>
    match n.sites[i]? with
    | none => none
    | some s =>
      match s.link, s.put[s.up]? with
      | some c, some p => (Ecla.step s.node (.packet c (read x p))).map fun node => { n with sites := n.sites.set i { s with node, up := s.up + 1 } }
      | _, _ => none
  -- `examples/dtnecla_connect_n.rs:57-63`: once `serve` has failed to connect, nobody reads the commands. Simplification: the packet
  -- stays in the channel until there is room for it
  | .pump i =>
    match n.sites[i]? with
    | none => none
    | some s =>
      match s.inbox with
      | [] => none
      | p :: inbox =>
        if s.client.results ≠ [] ∧ s.client.holder = .client then some { n with sites := n.sites.set i { s with inbox } }
        else (ModuleClient.step (kind i) s.client (.command (.send p))).map fun client => { n with sites := n.sites.set i { s with client, inbox } }
  | .route => n.route

/-- A run. -/
def Net.run (x : Ext) (n : Net) : List Ev → Option Net
  | [] => some n
  | e :: es => (n.step x e).bind fun n => n.run x es

/-- The program starts when the nodes are in the given states. -/
def start (nodes : List Ecla.State) : Net := { sites := nodes.map fun node => { node } }

end Dtn.ConnectN
