import Verif.Spec.RouterTalk
import Verif.Spec.StaticRouting
import Verif.Spec.SledNode
/-! Specification of a node together with a router of any kind, over restarts. -/

namespace Dtn.Spec
open Proc Routing

/-- What a node with the store in memory or with the persistent store can come to; the second with any number of restarts. -/
def EitherStore (cfg : Config) (clock : Nat) (s : Sys) : Prop :=
  Reaches .any ⟨Node.start cfg clock, []⟩ s ∨ OnSled.Reaches ⟨Node.start cfg clock, []⟩ s

/-- The node talks to a router of which `history` tells how it answers a list of commands. Every start of the node starts the
router anew; `sessions` are the commands from start to start. -/
def RoutedBy (history : List Cmd → List (Cmd × Option Answer)) (sessions : List (List Cmd)) (events : List Event) : Prop :=
  TalksTo (sessions.map history).flatten events

/-- A neighbour `p` that the router could use for the bundle when it was asked for it, and the task that sends to this neighbour. -/
def AmongNeighbours (sessions : List (List Cmd)) (bid : String) (s : Sender) : Prop :=
  ∃ cmds ∈ sessions, ∃ peers running bp, .senderForBundle peers running bp ∈ cmds ∧ bp.id = bid ∧
    ∃ p ∈ peers, SendsTo running p s

/-- The questions of the node and the answers it is given. -/
def questions (events : List Event) : List (Pack × Option Answer) :=
  events.filterMap fun e => match e with | .asked bp a => some (bp, a) | _ => none

/-- The node talks to the static router, which has the routes of `file` at each start. -/
def RoutedByFile (glob : String → String → Bool) (file : Option (List (List Char))) (sessions : List (List StaticRouting.Op))
    (events : List Event) : Prop :=
  (sessions.map fun ops => (StaticRouting.run glob (StaticRouting.start file) ops).log).flatten = questions events

/-- The task that sends to the neighbour of the first route that applied when the router was asked. -/
def AlongRoute (glob : String → String → Bool) (file : Option (List (List Char))) (sessions : List (List StaticRouting.Op))
    (bp : Pack) (s : Sender) : Prop :=
  ∃ ops later peers running, ops ++ .request peers running bp :: later ∈ sessions ∧
    ∃ rs r, RoutesInForce file ops rs ∧ FirstRoute glob peers running bp rs r ∧
      ∃ p ∈ peers, p.eid.print = r.via ∧ SendsTo running p s

end Dtn.Spec
