import Verif.Model.Processing
import Verif.Spec.Processing
/-! Specification of where the bundles of a node come from. -/

namespace Dtn.Spec
open Proc

/-- `b` is what a node may keep of a received bundle `b0`: the same primary block and no blocks of its own. If the block
removal can be predicted (`InFront`), the blocks are those of `b0`, with or without the unknown ones that ask to be
removed. -/
def KeptOf (b b0 : Bundle) : Prop :=
  b.primary = b0.primary ∧ b.canonicals.Sublist b0.canonicals ∧
  (InFront b0.canonicals → b.canonicals = b0.canonicals ∨ b.canonicals = keptBlocks b0.canonicals)

/-- The node was given this bundle: a client submitted it, it is what may be kept of a received bundle, or it is a status
report the node made. -/
def Known (n : Node) (b : Bundle) : Prop :=
  Event.called (.send b) ∈ n.events ∨
  (∃ b0, Event.called (.receive b0) ∈ n.events ∧ KeptOf b b0) ∨
  ∃ r, Event.report r ∈ n.events ∧ r.report = b

/-- The node was given this bundle, and one with the same id (this one, unless ids are used twice) is addressed to `e`. -/
def MeantFor (n : Node) (e : EID) (b : Bundle) : Prop :=
  Known n b ∧ ∃ b', Known n b' ∧ b'.id = b.id ∧ b'.primary.destination = e

/-- No two bundles the node was given have the same id and different destinations. -/
def DistinctIds (n : Node) : Prop :=
  ∀ b b', Known n b → Known n b' → b.id = b'.id → b.primary.destination = b'.primary.destination

end Dtn.Spec
