import Verif.Spec.Relay
/-! Specification of what a node does with the bundles it is responsible for, whatever else it does at the same time. -/

namespace Dtn.Spec
open Proc

/-- An execution in which a condition holds in every state. -/
inductive Throughout (w : World) (I : Node → Prop) : Sys → Sys → Prop where
  | refl {s : Sys} : I s.node → Throughout w I s s
  | step {s t u : Sys} : Throughout w I s t → Step w t u → I u.node → Throughout w I s u

/-- The bundle is alive by the clock of the node and by its age, counted from the reception time that the node has noted. -/
def StillAlive (b : Bundle) (m : Node) : Prop :=
  (b.primary.creationTime ≠ 0 → m.dtnNow < b.primary.creationTime + b.primary.lifetime) ∧
  ∀ p, m.store.getMetadata b.id = some p →
    p.receivedTime ≤ m.clock ∧ ∀ age, bundleAge b = some age → age + (m.clock - p.receivedTime) < b.primary.lifetime

/-- Since `n`, the bundle has not been removed from the store nor been replaced by another one with its id, and it is alive. -/
def Undisturbed (n : Node) (b : Bundle) (m : Node) : Prop :=
  (∀ c, .removed b.id c ∉ newEvents n m) ∧ (∀ b', m.store.getBundle b.id = some b' → b' = b) ∧ StillAlive b m

/-- A bundle that can be sent on: its hop limit allows one more hop, and its blocks are as the standard demands. -/
structure CanLeave (b : Bundle) : Prop where
  lifetime : b.primary.creationTime + b.primary.lifetime < 2 ^ 64
  hops : RoomFor 1 b
  previous : ReadablePrevious b
  age : AtMostOne BUNDLE_AGE_BLOCK b

/-- Between `n` and `m`, a copy of the bundle was handed to the convergence layer for `s`: the stored bundle with the hop count
raised, the previous node replaced and the age raised by time spent here. -/
def HandedOver (host : EID) (n m : Node) (b : Bundle) (s : Sender) : Prop :=
  ∃ t, .sending t ∈ newEvents n m ∧ t.to = s ∧ t.stored = b ∧ PassedOn host t.out b ∧ previousNode t.out = some host ∧
    ∀ limit count, hopCount b = some (limit, count) → hopCount t.out = some (limit, count + 1)

/-- Between `n` and `m`, the router was asked about the bundle, and copies were handed over for all neighbours it named. -/
def Routed (host : EID) (n m : Node) (b : Bundle) : Prop :=
  ∃ bp a, bp.id = b.id ∧ .asked bp a ∈ newEvents n m ∧ ∀ x, a = some x → ∀ s ∈ x.clas, HandedOver host n m b s

end Dtn.Spec
