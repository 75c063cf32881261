import Verif.Spec.SledNode
import Verif.Spec.Waiting
/-! Executions in which the process is stopped, but not while it removes a certain bundle. -/

namespace Dtn.Spec
open Proc

/-- An execution in which the process may be stopped and started again at any time, except between the two writes by which the bundle
with this id is removed, and a condition holds in every state. -/
inductive SledKept (bid : String) (I : Node → Prop) : Sys → Sys → Prop where
  | refl {s : Sys} : I s.node → SledKept bid I s s
  | step {s t u : Sys} : SledKept bid I s t → OnSled.Step t u → I u.node → SledKept bid I s u
  | restart {s : Sys} {n : Node} {pool : List Prog} (clock : Nat) : SledKept bid I s ⟨n, pool⟩ → I (OnSled.restarted n clock) →
      SledKept bid I s ⟨OnSled.restarted n clock, []⟩
  | cut {s : Sys} {n : Node} {pool : List Prog} (clock : Nat) (op : SledStore.Op) (k : Nat) (other : op ≠ .remove bid)
      (h : ∀ ws, (OnSled.db n).writes op = .ok ws → k < ws.length) : SledKept bid I s ⟨n, pool⟩ →
      I (OnSled.restarted (OnSled.setDb n ((OnSled.db n).crashStep op k)) clock) →
      SledKept bid I s ⟨OnSled.restarted (OnSled.setDb n ((OnSled.db n).crashStep op k)) clock, []⟩

end Dtn.Spec
