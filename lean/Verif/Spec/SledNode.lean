import Verif.Model.SledNode
import Verif.Spec.Carried
/-! Specification of a node with the persistent store, whose process may be stopped and started again. -/

namespace Dtn.Spec
open Proc

/-- A received bundle with this id was taken as new. -/
def takenAsNew (bid : String) : Event → Bool
  | .accepted b => decide (b.id = bid)
  | _ => false

/-- A bundle with this id was taken in, handed to a convergence layer, given to an application or fetched by one. -/
def handled (bid : String) : Event → Bool
  | .accepted b => decide (b.id = bid)
  | .sending t => decide (t.stored.id = bid)
  | .delivered _ b _ => decide (b.id = bid)
  | .popped _ b => decide (b.id = bid)
  | _ => false

/-- A bundle with this id was submitted by an application, or made by the node as a status report. -/
def originated (bid : String) : Event → Bool
  | .called (.send b) => decide (b.id = bid)
  | .report r => decide (r.report.id = bid)
  | _ => false

/-- An execution without a stop of the process, in which a condition holds in every state. -/
inductive SledThroughout (I : Node → Prop) : Sys → Sys → Prop where
  | refl {s : Sys} : I s.node → SledThroughout I s s
  | step {s t u : Sys} : SledThroughout I s t → OnSled.Step t u → I u.node → SledThroughout I s u

/-- An execution in which the process may be stopped and started again, and a condition holds in every state. -/
inductive SledHistory (I : Node → Prop) : Sys → Sys → Prop where
  | refl {s : Sys} : I s.node → SledHistory I s s
  | step {s t u : Sys} : SledHistory I s t → OnSled.Step t u → I u.node → SledHistory I s u
  | restart {s : Sys} {n : Node} {pool : List Prog} (clock : Nat) : SledHistory I s ⟨n, pool⟩ → I (OnSled.restarted n clock) →
      SledHistory I s ⟨OnSled.restarted n clock, []⟩
  | cut {s : Sys} {n : Node} {pool : List Prog} (clock : Nat) (op : SledStore.Op) (k : Nat)
      (h : ∀ ws, (OnSled.db n).writes op = .ok ws → k < ws.length) : SledHistory I s ⟨n, pool⟩ →
      I (OnSled.restarted (OnSled.setDb n ((OnSled.db n).crashStep op k)) clock) →
      SledHistory I s ⟨OnSled.restarted (OnSled.setDb n ((OnSled.db n).crashStep op k)) clock, []⟩

end Dtn.Spec
