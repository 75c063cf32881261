import Verif.Model.Routing.Spray
import Verif.Spec.Routing
/-! Specifications for spray and wait routing, in terms of the log of commands and answers. -/

namespace Dtn.Spec
open Routing

/-- The command tells the router about the arrival of bundle `bid`. -/
def isArrival (bid : String) : Cmd → Bool
  | .notify (.incomingBundle b) => decide (b.id = bid)
  | .notify (.incomingBundleWithoutPreviousNode b _) => decide (b = bid)
  | _ => false

/-- The command reports a failed transfer of bundle `bid`. -/
def isFailure (bid : String) : Cmd → Bool
  | .notify (.sendingFailed b _) => decide (b = bid)
  | _ => false

/-- The nodes one logged answer relays bundle `bid` to. An answer that asks for deletion is a direct delivery. -/
def relaysOf (bid : String) : Cmd × Option Answer → List (Option NodeId)
  | (.senderForBundle _ _ bp, some a) =>
    if bp.id = bid ∧ a.delete = false then a.clas.map fun s => s.nextHop.nodeId else []
  | _ => []

/-- The nodes bundle `bid` was relayed to. -/
def relays (bid : String) (log : List (Cmd × Option Answer)) : List (Option NodeId) := log.flatMap (relaysOf bid)

/-- The number of copies node `localNode` may have of bundle `bid` if the limit is `l`. -/
def copyBudget (l : Nat) (localNode bid : String) : Nat := if startsWith bid localNode then l else 1

/-- The answer asks for direct delivery of bundle `bid`. -/
def isDirect (bid : String) : Cmd × Option Answer → Bool
  | (.senderForBundle _ _ bp, some a) => decide (bp.id = bid) && a.delete
  | _ => false

open Classical in
/-- The peers that can still be given bundle `bid`: this node can send to them, they are other nodes, and the bundle was not relayed to them. -/
noncomputable def unserved (localNode bid : String) (log : List (Cmd × Option Answer)) (running : List Cla) (peers : List Peer) : List Peer :=
  peers.filter fun p => decide (Usable running p ∧ (∀ n, p.eid.nodeId = some n → n.print ≠ localNode) ∧ p.eid.nodeId ∉ relays bid log)

/-- The number of copies of bundle `bid` that can still be handed to relays: one is kept. -/
def copiesLeft (l : Nat) (localNode bid : String) (log : List (Cmd × Option Answer)) : Nat :=
  copyBudget l localNode bid - 1 - (relays bid log).length

/-- The number of failed transfers of bundle `bid` reported since it was first announced. -/
def failures (bid : String) (cmds : List Cmd) : Nat :=
  (cmds.dropWhile fun c => !isArrival bid c).countP (isFailure bid)

end Dtn.Spec
