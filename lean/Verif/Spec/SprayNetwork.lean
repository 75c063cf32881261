import Verif.Spec.RouterNode
import Verif.Spec.Spray
/-! Specification of a network whose nodes all use spray and wait routing. -/

namespace Dtn.Spec
open Proc Routing

/-- The node tells its router that a transfer of the bundle has failed. -/
def isFailureOf (bid : String) : Event → Bool
  | .note (.sendingFailed i _) => decide (i = bid)
  | _ => false

/-- A node of the network: the name the others know it by, what its router is started with, and what has become of it. -/
structure SprayPlace where
  name : String
  cfg : Config
  clock : Nat
  copies : Nat
  localNode : String
  sessions : List (List Cmd)
  sys : Sys

namespace SprayPlace

/-- What has happened at the node. -/
def events (p : SprayPlace) : List Event := p.sys.node.events

/-- The node has run by itself, with either store, and its router was started anew with every start of the node. -/
def Runs (p : SprayPlace) : Prop :=
  EitherStore p.cfg p.clock p.sys ∧
  RoutedBy (fun cmds => ((sprayStart p.copies p.localNode).run spray cmds).log) p.sessions p.events

/-- The node has taken in a bundle with this id that has come from elsewhere. -/
def TookIn (p : SprayPlace) (bid : String) : Prop := ∃ b, .accepted b ∈ p.events ∧ b.id = bid

/-- How often the node has told its router that a transfer of the bundle has failed. -/
def failures (p : SprayPlace) (bid : String) : Nat := p.events.countP (isFailureOf bid)

/-- How often a bundle with this id was submitted at the node or taken in there. -/
def entered (p : SprayPlace) (bid : String) : Nat :=
  p.events.countP (isAcceptedId bid) + p.events.countP (isSentId bid)

end SprayPlace

/-- What comes in at a node of the network was handed over for it at another: copies may be lost, duplicated and delayed, but none
come in that were handed over for somebody else or for nobody. -/
def ArrivesWhereSent (net : List SprayPlace) : Prop :=
  ∀ p ∈ net, ∀ b, .called (.receive b) ∈ p.events →
    ∃ q ∈ net, ∃ t, .sending t ∈ q.events ∧ t.out = b ∧ t.to.nextHop.node.getD "" = p.name

end Dtn.Spec
