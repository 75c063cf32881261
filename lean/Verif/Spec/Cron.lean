import Verif.Model.Cron
import Verif.Spec.Relay
import Verif.Spec.Store
/-! Specification of what is expected of the janitor: executions that go on for ever. -/

namespace Dtn.Spec
open Proc

/-- An execution of a node with its janitor that goes on for ever, and in which the janitor with the tasks it has started is not
neglected for ever. About all other tasks, nothing is assumed. -/
structure JanitorRun (su : Cron.Setup) (f : Nat → Cron.Sys) : Prop where
  steps : ∀ i, Cron.Step su (f i) (f (i + 1))
  fair : ∀ i, (∃ t, Cron.Own su (f i) t) → ∃ j, i ≤ j ∧ Cron.Own su (f j) (f (j + 1))

/-- An execution with the janitor in which a condition holds in every state. -/
inductive JanitorThroughout (su : Cron.Setup) (I : Node → Prop) : Cron.Sys → Cron.Sys → Prop where
  | refl {s : Cron.Sys} : I s.node → JanitorThroughout su I s s
  | step {s t u : Cron.Sys} : JanitorThroughout su I s t → Cron.Step su t u → I u.node → JanitorThroughout su I s u

/-- The previous node blocks of all stored bundles can be read. -/
def AllReadable (n : Node) : Prop := ∀ bid b, n.store.getBundle bid = some b → ReadablePrevious b

/-- The metadata kept for an id say that the bundle is not deleted and that its lifetime has ended before `deadline`, which is
past. -/
def Overdue (bid : String) (deadline : Nat) (n : Node) : Prop :=
  (∃ p, n.store.getMetadata bid = some p ∧ p.has .deleted = false ∧ p.creationTime + p.lifetime < 2 ^ 64 ∧ Expired deadline p) ∧
  deadline ≤ n.dtnNow

/-- A bundle waits to be forwarded, and there is a convergence layer for it. -/
def WaitsToLeave (bid : String) (n : Node) : Prop :=
  n.claActive = true ∧ ∃ p, n.store.getMetadata bid = some p ∧ p.has .forwardPending = true ∧ p.has .deleted = false

end Dtn.Spec
