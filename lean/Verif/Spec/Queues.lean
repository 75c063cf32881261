import Verif.Model.Processing
import Verif.Spec.Processing
/-! Specification of the waiting bundles of an endpoint, in terms of what happened at the node. -/

namespace Dtn.Spec
open Proc

/-- What is waiting for the client of an endpoint. -/
def waitingAt (e : EID) (n : Node) : List Bundle :=
  match n.agents.find? fun a => a.eid = e with
  | some a => a.queue
  | none => []

/-- The bundles that were put aside for the client of an endpoint, in order: given to its agent, and not passed on to a
subscriber at once. -/
def queued (e : EID) : List Event → List Bundle
  | [] => []
  | .delivered e' b none :: es => if e' = e then b :: queued e es else queued e es
  | _ :: es => queued e es

/-- The bundles that clients fetched from an endpoint, in order. -/
def fetched (e : EID) : List Event → List Bundle
  | [] => []
  | .popped e' b :: es => if e' = e then b :: fetched e es else fetched e es
  | _ :: es => fetched e es

/-- Everything may happen, except that the endpoint is unregistered. -/
def keeping (e : EID) : World :=
  { call := fun _ => True, change := fun n m => Outside n m ∧ e ∈ m.agents.map AppAgent.eid }

/-- The client that has subscribed to an endpoint, if any. -/
def subscribedBy (e : EID) (n : Node) : Option Nat :=
  match n.agents.find? fun a => a.eid = e with
  | some a => a.delivery
  | none => none

/-- The bundle was given to an application agent. -/
def isDelivered (b : Bundle) : Event → Bool
  | .delivered _ b' _ => decide (b' = b)
  | _ => false

end Dtn.Spec
