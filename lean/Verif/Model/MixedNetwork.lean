import Verif.Model.Network
import Verif.Model.SledNode
/-! Model of a network in which some nodes keep their bundles in memory (`core/store/mem.rs`) and the others in the database
(`core/store/sled.rs`). What is sent travels as in `Model/Network.lean`. -/

namespace Dtn.Net
open Proc

variable {ι : Type} [DecidableEq ι]

/-- One step of the network; `disk` tells the nodes with a database. -/
inductive MixedStep (disk : ι → Bool) (pushed : Bundle → Prop) : Network ι → Network ι → Prop where
  /-- a node without a database does something -/
  | memory (net : Network ι) (i : ι) (s : Sys) (k : disk i = false) (h : Step (arrivals pushed net) (net i) s) :
      MixedStep disk pushed net (net.set i s)
  /-- it is stopped and started again, and has lost its bundles -/
  | forget (net : Network ι) (i : ι) (s : Sys) (k : disk i = false) (h : Restart (net i).node s) (e : s.node.store = .new) :
      MixedStep disk pushed net (net.set i s)
  /-- a node with a database does something; calls from outside are those of `arrivals` -/
  | disk (net : Network ι) (i : ι) (s : Sys) (k : disk i = true) (h : OnSled.Step (net i) s)
      (a : ∀ c, s.node.events = (net i).node.events ++ [.called c] → (arrivals pushed net).call c) :
      MixedStep disk pushed net (net.set i s)
  /-- it is stopped and started again with what is in the database -/
  | restart (net : Network ι) (i : ι) (clock : Nat) (k : disk i = true) :
      MixedStep disk pushed net (net.set i ⟨OnSled.restarted (net i).node clock, []⟩)
  /-- it is stopped between the writes of an operation of the store -/
  | cut (net : Network ι) (i : ι) (clock : Nat) (op : SledStore.Op) (w : Nat) (k : disk i = true)
      (h : ∀ ws, (OnSled.db (net i).node).writes op = .ok ws → w < ws.length) :
      MixedStep disk pushed net
        (net.set i ⟨OnSled.restarted (OnSled.setDb (net i).node ((OnSled.db (net i).node).crashStep op w)) clock, []⟩)

/-- The executions of the network. -/
inductive MixedRun (disk : ι → Bool) (pushed : Bundle → Prop) : Network ι → Network ι → Prop where
  | refl (net : Network ι) : MixedRun disk pushed net net
  | step {a b c : Network ι} : MixedRun disk pushed a b → MixedStep disk pushed b c → MixedRun disk pushed a c

end Dtn.Net
