import Verif.Spec.Carried
import Verif.Spec.Routing
/-! Specification of how bundles spread from a node with epidemic routing. -/

namespace Dtn.Spec
open Proc Routing

/-- The router of a node whose log is `events` is an epidemic routing agent that has got the commands `cmds`: it was asked about what
the node has asked, its answers are what the node was told, and the notifications about bundles are those of the node. -/
structure RunsEpidemic (cmds : List Cmd) (events : List Event) : Prop where
  running : (Epidemic.Task.run {} cmds).core ≠ none
  questions : ∀ ps r bp a, (.senderForBundle ps r bp, a) ∈ answered {} cmds → .asked bp a ∈ events
  answers : ∀ bp a, .asked bp a ∈ events → ∃ ps r, (.senderForBundle ps r bp, a) ∈ answered {} cmds
  notes : ∀ note, .notify note ∈ cmds → .note note ∈ events ∨ ∃ eid, note = .encounteredPeer eid ∨ note = .droppedPeer eid

/-- The node has noted that the bundle came from this neighbour. -/
def CameFrom (bid node : String) (events : List Event) : Prop :=
  (∃ b, .note (.incomingBundle b) ∈ events ∧ b.id = bid ∧ (previousNode b).bind EID.node = some node) ∨
  .note (.incomingBundleWithoutPreviousNode bid node) ∈ events

/-- A copy was handed over for the neighbour with this name. -/
def GotCopy (host : EID) (n m : Node) (b : Bundle) (node : String) : Prop :=
  ∃ s, s.nextHop.node.getD "" = node ∧ HandedOver host n m b s

/-- A copy was handed over for the destination, as a router was told it. -/
def SentToDestination (host : EID) (n m : Node) (b : Bundle) : Prop :=
  ∃ bp a d, .asked bp a ∈ newEvents n m ∧ bp.id = b.id ∧ bp.destination.node = some d ∧ GotCopy host n m b d

end Dtn.Spec
