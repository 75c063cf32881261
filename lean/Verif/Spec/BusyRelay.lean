import Verif.Spec.Carried
import Verif.Spec.Given
/-! Specification of the way of a bundle along a chain of nodes that do other work at the same time. -/

namespace Dtn.Spec
open Proc

/-- No unknown block of the bundle asks to be removed or to have the bundle deleted. -/
def Unconditional (b : Bundle) : Prop := ∀ c ∈ b.canonicals, UnknownBlock c → c.flags.remove = false ∧ c.flags.deleteBundle = false

/-- A node that has been running for any time and is in the middle of any work gets the bundle at `n`, from a neighbour as a new
one or from an application, or has it in its store and tries it again; at `m` it has done its work. In between it may do anything
else, but the bundle stays in the store and alive, and its destination is not registered here. -/
def HandlesBusy (cfg : Config) (b : Bundle) (n m : Node) : Prop :=
  ∃ (clock : Nat) (tasks : List Prog), Reaches .any ⟨Node.start cfg clock, []⟩ ⟨n, tasks⟩ ∧
    ((Throughout .any (fun w => Undisturbed n b w ∧ b.primary.destination ∉ w.agents.eids)
        ⟨n.log (.called (.receive b)), tasks ++ [(Call.receive b).prog]⟩ ⟨m, []⟩ ∧ .duplicate b ∉ newEvents n m) ∨
      Throughout .any (fun w => Undisturbed n b w ∧ b.primary.destination ∉ w.agents.eids ∧
          (b.primary.source = .none ∨ b.primary.source ∈ w.agents.eids))
        ⟨n.log (.called (.send b)), tasks ++ [(Call.send b).prog]⟩ ⟨m, []⟩ ∨
      (n.store.getBundle b.id = some b ∧ Throughout .any (fun w => Undisturbed n b w ∧ w.claActive = true ∧
          (∃ p, w.store.getMetadata b.id = some p ∧ p.has .forwardPending = true ∧ p.has .deleted = false) ∧
          (cfg.parallel = true ∨ ∀ bid b', w.store.getBundle bid = some b' → ReadablePrevious b'))
        ⟨n.log (.called .janitor), tasks ++ [Call.janitor.prog]⟩ ⟨m, []⟩))

/-- Whatever the nodes have done before, whatever they do at the same time and in whatever order: if a node handles the bundle, is
not its destination, and the router names the next neighbour for it, then a copy is handed to the convergence layer for that
neighbour, and this is so for the copy at the next node and so on; the copy behind the last node has the property `P`. -/
def TravelsBusy (P : Bundle → Prop) : List Stop → Bundle → Prop
  | [], b => P b
  | s :: stops, b => ∀ n m, HandlesBusy s.cfg b n m → b.primary.destination.nodeId ≠ s.cfg.hostEid.nodeId →
      (∀ bp a, .asked bp a ∈ newEvents n m → bp.id = b.id → ∃ x, a = some x ∧ s.next ∈ x.clas) →
      ∃ t, .sending t ∈ newEvents n m ∧ t.to = s.next ∧ t.stored = b ∧ TravelsBusy P stops t.out

/-- The bundle is what `b0` becomes after `k` hops. A node at which its destination is and stays registered, and which receives it
as a new one, gives it to the endpoint, whatever else it does: it is passed on to a client, fetched by a client, or is waiting. If
the node has not accepted or sent a bundle with this id another time, it gives it to an endpoint exactly once. -/
def ArrivesBusy (b0 : Bundle) (k : Nat) (b : Bundle) : Prop :=
  b.primary = b0.primary ∧ (fixedBlocks b).Perm (fixedBlocks b0) ∧
  (∀ limit count, hopCount b0 = some (limit, count) → hopCount b = some (limit, count + k)) ∧
  ∀ (cfg : Config) (clock : Nat) (n m : Node) (tasks : List Prog), Reaches .any ⟨Node.start cfg clock, []⟩ ⟨n, tasks⟩ →
    (b.isAdmin = true → HasRecord cfg b) →
    Throughout .any (Expected n b) ⟨n.log (.called (.receive b)), tasks ++ [(Call.receive b).prog]⟩ ⟨m, []⟩ →
    .duplicate b ∉ newEvents n m →
    Served n m b ∧ (m.events.countP (isAcceptedId b.id) + m.events.countP (isSentId b.id) ≤ 1 → m.events.countP (isDeliveryId b.id) = 1)

end Dtn.Spec
