import Verif.Spec.Carried
import Verif.Spec.Queues
/-! Specification of the delivery of bundles to applications, whatever else the node does at the same time. -/

namespace Dtn.Spec
open Proc

/-- Between `n` and `m`, the bundle was given to the agent of its endpoint. -/
def GivenTo (n m : Node) (b : Bundle) : Prop := ∃ ch, .delivered b.primary.destination b ch ∈ newEvents n m

/-- The endpoint of the bundle is registered. If the bundle has not been given to it since `n`, it has not been removed from the
store nor been replaced by another one with its id. -/
def Expected (n : Node) (b : Bundle) (m : Node) : Prop :=
  b.primary.destination ∈ m.agents.eids ∧
  (¬ GivenTo n m b → (∀ c, .removed b.id c ∉ newEvents n m) ∧ ∀ b', m.store.getBundle b.id = some b' → b' = b)

/-- Between `n` and `m`, the bundle was given to the agent of its endpoint. It was passed on to a subscribed client at once, or was
fetched by a client, or is waiting. -/
def Served (n m : Node) (b : Bundle) : Prop :=
  GivenTo n m b ∧
  ((∃ ch, .delivered b.primary.destination b (some ch) ∈ newEvents n m) ∨ .popped b.primary.destination b ∈ newEvents n m ∨
    b ∈ waitingAt b.primary.destination m)

end Dtn.Spec
