import Verif.Spec.Carried
import Verif.Spec.Network
/-! Bundles that a node keeps for others. -/

namespace Dtn.Spec
open Proc

/-- A bundle stored under this id, if any, is for another node, and no unknown block of it asks to be removed. -/
def KeptForOthers (cfg : Config) (bid : String) (n : Node) : Prop :=
  ∀ b, n.store.getBundle bid = some b → b.primary.destination.nodeId ≠ cfg.hostEid.nodeId ∧ Plain b

/-- The node has noted that a bundle waits to be forwarded and is not deleted. -/
def WaitsToGo (bid : String) (n : Node) : Prop :=
  ∃ p, n.store.getMetadata bid = some p ∧ p.has .forwardPending = true ∧ p.has .deleted = false

/-- Since `n`, no bundle with this id was received or submitted, and no status report of the node got it. -/
def NotBroughtAgain (n : Node) (bid : String) (m : Node) : Prop := ∀ e ∈ newEvents n m, ¬ Brings bid e

end Dtn.Spec
