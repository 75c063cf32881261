import Verif.Model.Processing
/-! Model of a network of nodes: what one node hands to a convergence layer may arrive at any node, any number of times
and at any later time, or never. The convergence layers themselves are modelled elsewhere (`Mtcp`, `TcpclNet`, `Clas`,
`HttpPull`, `EclaFrames`); here they neither make up nor change bundles. -/

namespace Dtn.Net
open Proc

variable {ι : Type} [DecidableEq ι]

/-- The nodes, each with its running tasks. -/
abbrev Network (ι : Type) := ι → Sys

/-- One node of the network moves on. -/
def Network.set (net : Network ι) (i : ι) (s : Sys) : Network ι := fun j => if j = i then s else net j

/-- What may happen to a node of the network. `processing::receive` is called with what some node handed to a convergence
layer (`mtcp.rs:326`, `udp.rs:31`, `tcp/mod.rs:229`, `httppull.rs:99`, `ecla/processing.rs:196`), or with one of the
bundles `pushed` by clients (`httpd.rs:534`). Everything else is as for a single node. -/
def arrivals (pushed : Bundle → Prop) (net : Network ι) : World where
  call
    | .receive b => pushed b ∨ ∃ j t, Event.sending t ∈ (net j).node.events ∧ t.out = b
    | _ => True
  change := Outside

/-- A daemon is stopped, in whatever it is doing, and started again under the same node id: with an empty store
(`core/store/mem.rs`) or with the one it had (`core/store/sled.rs`, `sneakers.rs`). Endpoints are registered anew
(`daemon.rs:132-143`), and nothing is waiting for them. `groups` and `events` are ghost. -/
inductive Restart : Node → Sys → Prop where
  | memory (n : Node) (cfg : Config) (agents : Registry) (clock : Nat) (h : cfg.hostEid = n.cfg.hostEid)
      (e : ∀ a ∈ agents, a.queue = []) :
      Restart n ⟨{ cfg, store := .new, agents, clock, groups := n.groups, events := n.events }, []⟩
  | disk (n : Node) (cfg : Config) (agents : Registry) (clock : Nat) (h : cfg.hostEid = n.cfg.hostEid)
      (e : ∀ a ∈ agents, a.queue = []) :
      Restart n ⟨{ cfg, store := n.store, agents, clock, groups := n.groups, events := n.events }, []⟩

/-- One step of the network. -/
inductive NetStep (pushed : Bundle → Prop) : Network ι → Network ι → Prop where
  | node (net : Network ι) (i : ι) (s : Sys) (h : Step (arrivals pushed net) (net i) s) : NetStep pushed net (net.set i s)
  | restart (net : Network ι) (i : ι) (s : Sys) (h : Restart (net i).node s) : NetStep pushed net (net.set i s)

/-- The executions of the network. -/
inductive Run (pushed : Bundle → Prop) : Network ι → Network ι → Prop where
  | refl (net : Network ι) : Run pushed net net
  | step {a b c : Network ι} : Run pushed a b → NetStep pushed b c → Run pushed a c

/-- All nodes have just been started. -/
def Fresh (net : Network ι) : Prop := ∀ i, ∃ cfg clock, net i = ⟨Node.start cfg clock, []⟩

end Dtn.Net
