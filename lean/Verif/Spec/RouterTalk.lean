import Verif.Spec.Routing
import Verif.Spec.Processing
/-! Specification of a node and its router taken together. -/

namespace Dtn.Spec
open Proc Routing

/-- Peers come and go without regard to bundles; the router is told elsewhere. -/
def aboutPeers : Notification → Bool
  | .encounteredPeer _ => true
  | .droppedPeer _ => true
  | _ => false

/-- What a node asks its router and tells it about bundles. -/
def nodeTalk : Event → Option Event
  | .asked bp a => some (.asked bp a)
  | .note x => if aboutPeers x then none else some (.note x)
  | _ => none

/-- The same, as the router sees it: the commands it handles, with its answers. -/
def routerTalk : Cmd × Option Answer → Option Event
  | (.senderForBundle _ _ bp, a) => some (.asked bp a)
  | (.notify x, _) => if aboutPeers x then none else some (.note x)
  | _ => none

/-- The node with the log `events` talks to the router that has handled the commands of `history` with the answers given there:
the router sees what the node says, in this order, and the node is told what the router answers. -/
def TalksTo (history : List (Cmd × Option Answer)) (events : List Event) : Prop :=
  history.filterMap routerTalk = events.filterMap nodeTalk

/-- A copy of the bundle was handed to a convergence layer for the neighbour. -/
def isSendingFor (bid node : String) : Event → Bool
  | .sending t => decide (t.stored.id = bid) && decide (t.to.nextHop.node = some node)
  | _ => false

/-- The node tells its router that the bundle came from the neighbour. -/
def SaysFrom (bid node : String) : Event → Prop
  | .note (.incomingBundle b) => b.id = bid ∧ (previousNode b).bind EID.node = some node
  | .note (.incomingBundleWithoutPreviousNode i x) => i = bid ∧ x = node
  | _ => False

/-- The node tells its router that the bundle has come in. -/
def isAnnounced (bid : String) : Event → Bool
  | .note (.incomingBundle b) => decide (b.id = bid)
  | .note (.incomingBundleWithoutPreviousNode i _) => decide (i = bid)
  | _ => false

/-- The node tells its router that a transfer of the bundle has failed: to node `d`, or to another node. -/
def isFailedTo (bid d : String) : Event → Bool
  | .note (.sendingFailed i n) => decide (i = bid) && decide (n = d)
  | _ => false

def isFailedElsewhere (bid d : String) : Event → Bool
  | .note (.sendingFailed i n) => decide (i = bid) && decide (n ≠ d)
  | _ => false

/-- A copy of the bundle was handed to a convergence layer for a node other than `d`. -/
def isSendingElsewhere (bid d : String) : Event → Bool
  | .sending t => decide (t.stored.id = bid) && decide (t.to.nextHop.node.getD "" ≠ d)
  | _ => false

/-- A copy of the bundle was transferred to a node other than `d`. -/
def isOutcomeElsewhere (bid d : String) : Event → Bool
  | .outcome t ok => ok && decide (t.stored.id = bid) && decide (t.to.nextHop.node.getD "" ≠ d)
  | _ => false

end Dtn.Spec
