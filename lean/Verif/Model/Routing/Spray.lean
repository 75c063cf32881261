import Verif.Model.Routing.Agent
/-! Model of `routing/sprayandwait.rs`. -/

namespace Dtn

/-- The printed form of `bp7::EndpointID::node_id()` (used in `routing/sprayandwait.rs:46,138`). -/
def NodeId.print : NodeId → String
  | .dtn n => "dtn://" ++ n ++ "/"
  | .ipn n => "ipn:" ++ toString n ++ ".0"

/-- `str::starts_with`. -/
def startsWith (s pre : String) : Bool := pre.toList.isPrefixOf s.toList

/-- `str::contains`. -/
def isInfix (pat : List Char) : List Char → Bool
  | [] => pat.isEmpty
  | c :: s => pat.isPrefixOf (c :: s) || isInfix pat s

end Dtn

namespace Dtn.Routing

/-- `SaWBundleData`, `routing/sprayandwait.rs:22-27`. -/
structure SawData where
  copies : Nat
  nodes : List String
deriving DecidableEq, Repr

/-- `SprayAndWaitRoutingAgentCore`, `routing/sprayandwait.rs:32-39`. -/
structure Spray where
  l : Nat
  history : AList String SawData := []
  localNode : String
deriving DecidableEq, Repr

namespace Spray

/-- `MAX_COPIES`, `routing/sprayandwait.rs:30`. -/
def maxCopies : Nat := 7

/-- `handle_new_bundle`, `routing/sprayandwait.rs:50-68`. -/
def newBundle (c : Spray) (bid : String) : Spray :=
  let copies := if startsWith bid c.localNode then c.l else 1
  { c with history := AList.insert c.history bid { copies, nodes := [] } }

/-- `SendingFailed`, `routing/sprayandwait.rs:102-118`. -/
def sendingFailed (c : Spray) (bid node : String) : Spray :=
  match AList.get? c.history bid with
  | some m =>
    let kept := m.nodes.filter fun nn => isInfix node.toList nn.toList
    { c with history := AList.insert c.history bid { copies := m.copies + 1, nodes := kept } }
  | none => c

/-- `handle_notification`, `routing/sprayandwait.rs:100-127`. -/
def notify (c : Spray) : Notification → Spray
  | .sendingFailed bid node => c.sendingFailed bid node
  | .incomingBundle b => c.newBundle b.id
  | .incomingBundleWithoutPreviousNode bid _ => c.newBundle bid
  | _ => c

/-- The loop `routing/sprayandwait.rs:137-176`: the bundle's data, the tasks collected so far and `delete_afterwards`.
`none` is a panic (`node_id().unwrap()` line 138, `node().unwrap()` line 145). -/
def loop (localNode : String) (bp : Pack) (running : List Cla) :
    List Peer → SawData → Answer → Option (SawData × Answer)
  | [], m, a => some (m, a)
  | p :: ps, m, a =>
    match p.eid.nodeId with
    | none => none
    | some nid =>
      if nid.print = localNode || decide (nid.print ∈ m.nodes) then loop localNode bp running ps m a
      else if m.copies < 2 then
        match bp.destination.node with
        | none => none
        | some d =>
          if d = p.nodeName then
            match p.firstCla running with
            | some cla => loop localNode bp running ps m { clas := [cla], delete := true }
            | none => loop localNode bp running ps m a
          else loop localNode bp running ps m a
      else
        match p.firstCla running with
        | some cla =>
          loop localNode bp running ps { copies := m.copies - 1, nodes := m.nodes ++ [nid.print] }
            { a with clas := a.clas ++ [cla] }
        | none => loop localNode bp running ps m a

/-- `handle_sender_for_bundle`, `routing/sprayandwait.rs:128-183`. -/
def request (c : Spray) (peers : List Peer) (running : List Cla) (bp : Pack) : Option (Spray × Answer) :=
  match AList.get? c.history bp.id with
  | some m =>
    match loop c.localNode bp running peers m { clas := [], delete := false } with
    | some (m, a) => some ({ c with history := AList.insert c.history bp.id m }, a)
    | none => none
  | none => some (c, { clas := [], delete := false })

end Spray

/-- The agent, `routing/sprayandwait.rs:199-215`. -/
def spray : Agent Spray where
  request := Spray.request
  notify := Spray.notify

/-- A freshly started agent with `l` copies (`num_copies` or `MAX_COPIES`, `routing/sprayandwait.rs:185-198`) on the
node `localNode`. -/
def sprayStart (l : Nat) (localNode : String) : Task Spray := { core := some { l, localNode } }

end Dtn.Routing
