import Verif.Model.AList
import Verif.Model.Bundle
/-! Model of `core/peer.rs`, the peer table functions of `lib.rs` and `process_peers` of `core/mod.rs`. -/

namespace Dtn

/-- `PeerType`, `core/peer.rs:10-14`. -/
inductive PeerType where
  | static
  | dynamic
deriving DecidableEq, Repr

/-- `PeerAddress`, `core/peer.rs:27-35`. IP addresses are kept in printed form, split by family
(`std::net::IpAddr`). -/
inductive PeerAddress where
  | ipv4 (a : String)
  | ipv6 (a : String)
  | broadcastGeneric (domain addr : String)
  | generic (addr : String)
deriving DecidableEq, Repr

/-- `Display for PeerAddress`, `core/peer.rs:48-56`. `IpAddr` prints an IPv6 address without brackets. -/
def PeerAddress.print : PeerAddress → String
  | .ipv4 a => a
  | .ipv6 a => a
  | .broadcastGeneric d a => d ++ "/" ++ a
  | .generic a => a

/-- `DtnPeer`, `core/peer.rs:58-68`. `period` is a `Duration`, kept in milliseconds; `lastContact` is in seconds. The
`services` map, which is only shown to users, is left out. -/
structure Peer where
  eid : EID
  addr : PeerAddress
  conType : PeerType
  period : Option Nat
  claList : List (String × Option Nat)
  lastContact : Nat
  fails : Nat
deriving DecidableEq, Repr

/-- A running convergence layer: name, port and `accepting()` of the trait `ConvergenceLayerAgent`, `cla/mod.rs:75-86`. -/
structure Cla where
  name : String
  port : Nat
  accepting : Bool := true
deriving DecidableEq, Repr

/-- `ClaSenderTask`, `cla/mod.rs:50-56`. The channel to the convergence layer is represented by the layer itself. -/
structure Sender where
  tx : Cla
  dest : String
  claName : String
  nextHop : EID
deriving DecidableEq, Repr

/-- The parts of the configuration read by `still_valid`, `core/peer.rs:135-136`: `peer_timeout` in seconds and
`custom_timeout`. -/
structure PeerCfg where
  timeout : Nat
  custom : Bool
deriving DecidableEq, Repr

namespace Peer

/-- `DtnPeer::new`, `core/peer.rs:71-92`; `now` is the unix time in seconds. -/
def new (now : Nat) (eid : EID) (addr : PeerAddress) (conType : PeerType) (period : Option Nat)
    (claList : List (String × Option Nat)) : Peer :=
  { eid, addr, conType, period, claList, lastContact := now, fails := 0 }

/-- `touch`, `core/peer.rs:106-111`. -/
def touch (now : Nat) (p : Peer) : Peer := { p with lastContact := now }

/-- `now - self.last_contact`, `core/peer.rs:142` and `core/peer.rs:149`, a difference of `u64` numbers: in a release build it wraps
around if the clock was set back. A debug build panics instead. -/
def sinceContact (now last : Nat) : Nat := if now < last then now + 2 ^ 64 - last else now - last

/-- `still_valid`, `core/peer.rs:128-151`. -/
def stillValid (cfg : PeerCfg) (now : Nat) (p : Peer) : Bool :=
  if p.conType = .static then true
  else match p.period with
    | none => decide (sinceContact now p.lastContact < cfg.timeout)
    | some period =>
      if cfg.custom && decide (cfg.timeout > 0) then decide (sinceContact now p.lastContact < cfg.timeout)
      else decide (sinceContact now p.lastContact < period / 1000 * 2)

/-- `node_name`, `core/peer.rs:154-156`. -/
def nodeName (p : Peer) : String := p.eid.node.getD ""

/-- The sender task built from a matching pair, `core/peer.rs:162-172`. -/
def sender (p : Peer) (port : Option Nat) (c : Cla) : Sender :=
  { tx := c, dest := p.addr.print ++ ":" ++ toString (port.getD c.port), claName := c.name, nextHop := p.eid }

/-- The outer loop of `first_cla`, `core/peer.rs:159-176`. -/
def firstClaIn (p : Peer) (clas : List Cla) : List (String × Option Nat) → Option Sender
  | [] => none
  | (name, port) :: rest =>
    match clas.find? (fun c => c.name = name && c.accepting) with
    | some c => some (p.sender port c)
    | none => firstClaIn p clas rest

/-- `first_cla`, `core/peer.rs:158-177`. -/
def firstCla (p : Peer) (clas : List Cla) : Option Sender := p.firstClaIn clas p.claList

/-- `report_fail`, `core/peer.rs:183-185`: a `u16` counter, which wraps around in a release build. A debug build panics instead. -/
def reportFail (p : Peer) : Peer := { p with fails := (p.fails + 1) % 2 ^ 16 }

/-- `failed_too_much`, `core/peer.rs:191-193`. -/
def failedTooMuch (p : Peer) : Bool := decide (p.fails > 3)

end Peer

/-- `PEERS`, `lib.rs:36`. -/
abbrev Peers := AList String Peer

namespace Peers

/-- `peers_add`, `lib.rs:118-122`; `none` is the panic of `unwrap` on a peer without node name. The `Bool` is the
answer: was the peer new. -/
def add (ps : Peers) (p : Peer) : Option (Peers × Bool) :=
  match p.eid.node with
  | none => none
  | some n => some (AList.insert ps n p, !AList.contains ps n)

/-- `peers_remove`, `lib.rs:124-126`. -/
def remove (ps : Peers) (n : String) : Peers := AList.erase ps n

/-- `peers_count`, `lib.rs:128-130`. -/
def count (ps : Peers) : Nat := ps.length

/-- `peers_known`, `lib.rs:134-136`. -/
def known (ps : Peers) (n : String) : Bool := AList.contains ps n

/-- `peers_touch`, `lib.rs:137-143`. The `Bool` is `Ok`/`Err`. -/
def touch (now : Nat) (ps : Peers) (n : String) : Peers × Bool :=
  match AList.get? ps n with
  | none => (ps, false)
  | some p => (AList.insert ps n (p.touch now), true)

/-- `peers_get_for_node`, `lib.rs:144-151`. -/
def getForNode (ps : Peers) (eid : EID) : Option Peer :=
  (AList.values ps).find? fun p => p.nodeName = eid.node.getD ""

/-- `peers_cla_for_node`, `lib.rs:155-160`. -/
def claForNode (clas : List Cla) (ps : Peers) (eid : EID) : Option Sender :=
  match getForNode ps eid with
  | some p => p.firstCla clas
  | none => none

/-- `peer_find_by_remote`, `lib.rs:161-168`. -/
def findByRemote (ps : Peers) (a : PeerAddress) : Option String :=
  ((AList.values ps).find? fun p => p.addr = a).map Peer.nodeName

/-- `process_peers`, `core/mod.rs:120-141`: the table that is left and the peers reported to the router. -/
def process (cfg : PeerCfg) (now : Nat) (ps : Peers) : Peers × List EID :=
  (ps.filter (fun e => e.2.conType = .static || e.2.stillValid cfg now),
   (ps.filter (fun e => !e.2.stillValid cfg now)).map fun e => e.2.eid)

/-- First half of what a failed transfer does to the peer table, `core/processing.rs:382-392`: count the failure; the
second component is `failed_peer`. -/
def failCount (ps : Peers) (node : String) : Peers × Option String :=
  match AList.get? ps node with
  | none => (ps, none)
  | some p =>
    let p := p.reportFail
    (AList.insert ps node p, if p.failedTooMuch && p.conType = .dynamic then some p.nodeName else none)

/-- Second half, `core/processing.rs:393-398`. -/
def failRemove (ps : Peers) : Option String → Peers
  | some peer => AList.erase ps peer
  | none => ps

/-- Both halves without interference. The lock is released in between. -/
def reportFail (ps : Peers) (node : String) : Peers :=
  let r := ps.failCount node
  failRemove r.1 r.2

/-- What can happen to the peer table. -/
inductive Op where
  /-- `peers_add` (`httpd.rs`, `neighbour_discovery.rs`, `daemon.rs`) -/
  | add (p : Peer)
  /-- `peers_remove` -/
  | remove (n : String)
  /-- `peers_touch` -/
  | touch (now : Nat) (n : String)
  /-- `process_peers` -/
  | check (cfg : PeerCfg) (now : Nat)
  /-- a failed transfer -/
  | fail (n : String)
deriving DecidableEq, Repr

/-- Effect of one call. -/
def step (ps : Peers) : Op → Peers
  | .add p => match ps.add p with
    | some r => r.1
    | none => ps
  | .remove n => ps.remove n
  | .touch now n => (ps.touch now n).1
  | .check cfg now => (ps.process cfg now).1
  | .fail n => ps.reportFail n

/-- Effect of a history of calls. -/
def run (ps : Peers) (ops : List Op) : Peers := ops.foldl step ps

end Peers
end Dtn
