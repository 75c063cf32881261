import Verif.Spec.Network
import Verif.Spec.Queues
/-! Specification of the way of a bundle along a chain of nodes. -/

namespace Dtn.Spec
open Proc

/-- The bundle is still alive at `m` if it came to the node at `n`: by the clock of the node, and by the age it had then. -/
def InTime (n m : Node) (b : Bundle) : Prop :=
  (b.primary.creationTime ≠ 0 → m.dtnNow < b.primary.creationTime + b.primary.lifetime) ∧
  b.primary.creationTime + b.primary.lifetime < 2 ^ 64 ∧
  ∀ age, bundleAge b = some age → age + (m.clock - n.clock) < b.primary.lifetime

/-- If there is a previous node block, it contains an endpoint. -/
def ReadablePrevious (b : Bundle) : Prop := (∃ c ∈ b.canonicals, c.btype = PREVIOUS_NODE_BLOCK) → previousNode b ≠ none

/-- The hop limit, if there is one, allows `k` more hops. -/
def RoomFor (k : Nat) (b : Bundle) : Prop :=
  AtMostOne HOP_COUNT_BLOCK b ∧ ∀ limit count, hopCount b = some (limit, count) → count + k ≤ limit ∧ limit ≤ 255

/-- A node on the way and the neighbour that its router names. -/
structure Stop where
  cfg : Config
  next : Sender

/-- Whatever the nodes have done before and whatever the order in which their tasks run: if the node takes on the bundle, is
not the place where its destination is registered, is left alone until it has done its work, does so before the bundle expires,
and the router names the next neighbour, then a copy is handed to the convergence layer for that neighbour, and this is so for
the copy at the next node and so on; the copy behind the last node has the property `P`. -/
def Travels (P : Bundle → Prop) : List Stop → Bundle → Prop
  | [], b => P b
  | s :: stops, b => ∀ clock n tasks m c, Reaches .any ⟨Node.start s.cfg clock, []⟩ ⟨n, tasks⟩ → TakesOn n b c →
      b.primary.destination.nodeId ≠ s.cfg.hostEid.nodeId → b.primary.destination ∉ n.agents.eids →
      Reaches .quiet ⟨n, [c.prog]⟩ ⟨m, []⟩ → InTime n m b →
      (∀ bp a, .asked bp a ∈ newEvents n m → bp.id = b.id → ∃ x, a = some x ∧ s.next ∈ x.clas) →
      ∃ t, .sending t ∈ newEvents n m ∧ t.to = s.next ∧ Travels P stops t.out

/-- The bundle is what `b0` becomes after `k` hops, and a node at which its destination is registered gives it to the
application exactly once. -/
def Arrives (b0 : Bundle) (k : Nat) (b : Bundle) : Prop :=
  b.primary = b0.primary ∧ (fixedBlocks b).Perm (fixedBlocks b0) ∧
  (∀ limit count, hopCount b0 = some (limit, count) → hopCount b = some (limit, count + k)) ∧
  ∀ cfg clock n tasks m c, Reaches .any ⟨Node.start cfg clock, []⟩ ⟨n, tasks⟩ → TakesOn n b c →
    b.primary.destination ∈ n.agents.eids → (b.isAdmin = true → HasRecord cfg b) → Reaches .quiet ⟨n, [c.prog]⟩ ⟨m, []⟩ →
    (newEvents n m).countP (isDelivered b) = 1

end Dtn.Spec
