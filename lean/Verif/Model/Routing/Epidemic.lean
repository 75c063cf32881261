import Verif.Model.Peer
import Verif.Model.Pack
/-! Model of `routing/epidemic.rs`. -/

namespace Dtn.Routing

/-- `RoutingNotifcation`, `routing/mod.rs:26-34`. -/
inductive Notification where
  | sendingFailed (bid : String) (node : String)
  | sendingSucceeded (bid : String) (node : String)
  | incomingBundle (b : Bundle)
  | incomingBundleWithoutPreviousNode (bid : String) (node : String)
  | encounteredPeer (eid : EID)
  | droppedPeer (eid : EID)
deriving DecidableEq, Repr

/-- `bp7::Bundle::previous_node()` (used in `routing/epidemic.rs:124`): the contents of the first previous node block. -/
def previousNode (b : Bundle) : Option EID :=
  (b.canonicals.find? fun c => c.btype = PREVIOUS_NODE_BLOCK).bind fun c =>
    match c.data with
    | .previousNode e => some e
    | _ => none

/-- Answer to a `SenderForBundle` request: the tasks and `delete_afterwards`. -/
structure Answer where
  clas : List Sender
  delete : Bool
deriving DecidableEq, Repr

/-- `EpidemicRoutingAgentCore`, `routing/epidemic.rs:24-26`; sets of node names are lists. -/
structure Epidemic where
  history : AList String (List String) := []
deriving DecidableEq, Repr

namespace Epidemic

/-- `add`, `routing/epidemic.rs:35-38`. -/
def add (c : Epidemic) (bid node : String) : Epidemic :=
  let entries := (AList.get? c.history bid).getD []
  { history := AList.insert c.history bid (if node ∈ entries then entries else node :: entries) }

/-- `contains`, `routing/epidemic.rs:53-59`. -/
def contains (c : Epidemic) (bid node : String) : Bool :=
  match AList.get? c.history bid with
  | some entries => decide (node ∈ entries)
  | none => false

/-- `sending_failed`, `routing/epidemic.rs:61-69`. -/
def sendingFailed (c : Epidemic) (bid node : String) : Epidemic :=
  match AList.get? c.history bid with
  | some entries => { history := AList.insert c.history bid (entries.filter (fun n => decide (n ≠ node))) }
  | none => c

/-- `incoming_bundle`, `routing/epidemic.rs:71-75`. -/
def incomingBundle (c : Epidemic) (bid node : String) : Epidemic :=
  if node ≠ "" && !c.contains bid node then c.add bid node else c

/-- The loop over the peers, `routing/epidemic.rs:86-106`; `clas` is the list collected so far. `none` is the panic of
`bp.destination.node().unwrap()` (line 90). -/
def loop (bp : Pack) (running : List Cla) : List Peer → Epidemic → List Sender → Option (Epidemic × Answer)
  | [], c, clas => some (c, { clas, delete := false })
  | p :: ps, c, clas =>
    if !c.contains bp.id p.nodeName then
      match p.firstCla running with
      | some cla =>
        let c := c.add bp.id p.nodeName
        match bp.destination.node with
        | none => none
        | some d =>
          if d = p.nodeName then some (c, { clas := [cla], delete := true })
          else loop bp running ps c (clas ++ [cla])
      | none => loop bp running ps c clas
    else loop bp running ps c clas

/-- `SenderForBundle`, `routing/epidemic.rs:83-111`. -/
def senderForBundle (c : Epidemic) (peers : List Peer) (running : List Cla) (bp : Pack) :
    Option (Epidemic × Answer) :=
  loop bp running peers c []

/-- `Notify`, `routing/epidemic.rs:119-134`. -/
def notify (c : Epidemic) : Notification → Epidemic
  | .sendingFailed bid node => c.sendingFailed bid node
  | .incomingBundle b =>
    match previousNode b with
    | some eid =>
      match eid.node with
      | some n => c.incomingBundle b.id n
      | none => c
    | none => c
  | .incomingBundleWithoutPreviousNode bid node => c.incomingBundle bid node
  | _ => c

end Epidemic

/-- A command to a routing agent, `routing/mod.rs:53-59`, with the peer table and the running convergence layers at the
moment it is handled. `GetData` only prints the state and is left out. -/
inductive Cmd where
  | senderForBundle (peers : List Peer) (running : List Cla) (bp : Pack)
  | notify (n : Notification)
  | command (s : String)
  | shutdown
deriving DecidableEq, Repr

/-- The agent's task: its state (`none` once the task has ended by `Shutdown` or a panic) and the log of requests and
answers. A request whose answer is `none` was not answered. -/
structure Epidemic.Task where
  core : Option Epidemic := some {}
  log : List (Pack × Option Answer) := []
deriving DecidableEq, Repr

/-- One round of `handle_routing_cmd`, `routing/epidemic.rs:78-137`. Commands sent to an ended task are lost. -/
def Epidemic.Task.step (t : Epidemic.Task) (cmd : Cmd) : Epidemic.Task :=
  match t.core, cmd with
  | none, .senderForBundle _ _ bp => { t with log := t.log ++ [(bp, none)] }
  | none, _ => t
  | some c, .senderForBundle peers running bp =>
    match c.senderForBundle peers running bp with
    | none => { core := none, log := t.log ++ [(bp, none)] }
    | some (c, a) => { core := some c, log := t.log ++ [(bp, some a)] }
  | some _, .shutdown => { t with core := none }
  | some _, .command _ => t
  | some c, .notify n => { t with core := some (c.notify n) }

/-- A history of commands. -/
def Epidemic.Task.run (t : Epidemic.Task) (cmds : List Cmd) : Epidemic.Task := cmds.foldl Epidemic.Task.step t

end Dtn.Routing
