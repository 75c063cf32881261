import Verif.Model.Routing.Epidemic
import Verif.Spec.Bundle
/-! Specifications for routing. -/

namespace Dtn.Spec
open Routing

/-- The node names of the peers an answer selects. -/
def selected (a : Answer) : List String := a.clas.map fun s => s.nextHop.node.getD ""

/-- The commands of a run of the epidemic agent together with the answers given. -/
def answered (t : Epidemic.Task) : List Cmd → List (Cmd × Option Answer)
  | [] => []
  | .senderForBundle ps r bp :: cmds =>
    let t' := t.step (.senderForBundle ps r bp)
    (.senderForBundle ps r bp, t'.log.getLast?.bind Prod.snd) :: answered t' cmds
  | cmd :: cmds => (cmd, none) :: answered (t.step cmd) cmds

/-- Has node `n` been served with bundle `bid`, judging by the history of commands and answers alone? It has if it was
selected for the bundle or the bundle came from it, and no failure was reported for it since. -/
def served (bid n : String) (history : List (Cmd × Option Answer)) : Bool :=
  history.foldl (fun s x =>
    match x with
    | (.senderForBundle _ _ bp, some a) => if bp.id = bid ∧ n ∈ selected a then true else s
    | (.notify (.sendingFailed b m), _) => if b = bid ∧ m = n then false else s
    | (.notify (.incomingBundle b), _) =>
      if b.id = bid ∧ (previousNode b).bind EID.node = some n ∧ n ≠ "" then true else s
    | (.notify (.incomingBundleWithoutPreviousNode b m), _) => if b = bid ∧ m = n ∧ n ≠ "" then true else s
    | _ => s) false

/-- This node can send to the peer: one of the peer's convergence layers runs here and accepts bundles. -/
def Usable (running : List Cla) (p : Peer) : Prop :=
  ∃ x ∈ p.claList, ∃ c ∈ running, c.name = x.1 ∧ c.accepting = true

/-- The sender task `s` goes to peer `p` over a convergence layer the peer offers and this node runs and which accepts
bundles, addressed to the announced port or the layer's own. -/
def SendsTo (running : List Cla) (p : Peer) (s : Sender) : Prop :=
  s.nextHop = p.eid ∧ ∃ x ∈ p.claList, s.tx ∈ running ∧ s.tx.name = x.1 ∧ s.tx.accepting = true ∧
    s.claName = x.1 ∧ s.dest = p.addr.print ++ ":" ++ toString (x.2.getD s.tx.port)

/-- The packs the router is asked for. -/
def askedFor : List Cmd → List Pack
  | [] => []
  | .senderForBundle _ _ bp :: cmds => bp :: askedFor cmds
  | _ :: cmds => askedFor cmds

end Dtn.Spec
