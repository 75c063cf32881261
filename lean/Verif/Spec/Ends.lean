import Verif.Model.Processing
/-! Specification of executions in which the tasks that one call leads to are told apart from all others. -/

namespace Dtn.Spec
open Proc

/-- A node with its running tasks: those singled out (`own`), and the others. -/
structure Followed where
  node : Node
  before : List Prog := []
  own : List Prog
  after : List Prog := []

/-- One of the tasks singled out makes a step. It may be replaced by tasks it starts. -/
inductive OwnStep : Followed → Followed → Prop where
  | mk (a b l r : List Prog) (p : Prog) (n n' : Node) (ps : List Prog) (h : TaskStep n p n' ps) :
      OwnStep ⟨n, a, l ++ p :: r, b⟩ ⟨n', a, l ++ ps ++ r, b⟩

/-- Anything else happens. -/
inductive OtherStep : Followed → Followed → Prop where
  | before (own b l r : List Prog) (p : Prog) (n n' : Node) (ps : List Prog) (h : TaskStep n p n' ps) :
      OtherStep ⟨n, l ++ p :: r, own, b⟩ ⟨n', l ++ ps ++ r, own, b⟩
  | after (a own l r : List Prog) (p : Prog) (n n' : Node) (ps : List Prog) (h : TaskStep n p n' ps) :
      OtherStep ⟨n, a, own, l ++ p :: r⟩ ⟨n', a, own, l ++ ps ++ r⟩
  | call (n : Node) (a own b : List Prog) (c : Call) : OtherStep ⟨n, a, own, b⟩ ⟨n.log (.called c), a, own, b ++ [c.prog]⟩
  | change (n n' : Node) (a own b : List Prog) (h : Outside n n') : OtherStep ⟨n, a, own, b⟩ ⟨n', a, own, b⟩

/-- The executions, seen in this way. -/
inductive Follows : Followed → Followed → Prop where
  | refl (s : Followed) : Follows s s
  | own {s t u : Followed} : Follows s t → OwnStep t u → Follows s u
  | other {s t u : Followed} : Follows s t → OtherStep t u → Follows s u

/-- An execution that goes on for ever, and in which the tasks singled out are not neglected for ever. -/
structure FairRun (f : Nat → Followed) : Prop where
  steps : ∀ i, OwnStep (f i) (f (i + 1)) ∨ OtherStep (f i) (f (i + 1))
  fair : ∀ i, (∃ t, OwnStep (f i) t) → ∃ j, i ≤ j ∧ OwnStep (f j) (f (j + 1))

/-- Nothing happens but steps of tasks. -/
def tasksOnly : World := { call := fun _ => False, change := fun _ _ => False }

end Dtn.Spec
