import Verif.Model.SledNode
import Verif.Spec.Ends
/-! Specification of executions of a node with the persistent store in which the tasks that one call leads to are told apart from all
others (as in Spec/Ends.lean). -/

namespace Dtn.Spec
open Proc

/-- Anything else happens than a step of the tasks singled out. -/
inductive SledOtherStep : Followed → Followed → Prop where
  | before (own b l r : List Prog) (p : Prog) (n n' : Node) (ps : List Prog) (h : TaskStep n p n' ps) :
      SledOtherStep ⟨n, l ++ p :: r, own, b⟩ ⟨n', l ++ ps ++ r, own, b⟩
  | after (a own l r : List Prog) (p : Prog) (n n' : Node) (ps : List Prog) (h : TaskStep n p n' ps) :
      SledOtherStep ⟨n, a, own, l ++ p :: r⟩ ⟨n', a, own, l ++ ps ++ r⟩
  | call (n : Node) (a own b : List Prog) (c : Call) : SledOtherStep ⟨n, a, own, b⟩ ⟨n.log (.called c), a, own, b ++ [OnSled.task c]⟩
  | change (n n' : Node) (a own b : List Prog) (h : Outside n n') : SledOtherStep ⟨n, a, own, b⟩ ⟨n', a, own, b⟩

/-- The executions, seen in this way, as long as the process is not stopped. -/
inductive SledFollows : Followed → Followed → Prop where
  | refl (s : Followed) : SledFollows s s
  | own {s t u : Followed} : SledFollows s t → OwnStep t u → SledFollows s u
  | other {s t u : Followed} : SledFollows s t → SledOtherStep t u → SledFollows s u

/-- An execution that goes on for ever, and in which the tasks singled out are not neglected for ever. -/
structure SledFairRun (f : Nat → Followed) : Prop where
  steps : ∀ i, OwnStep (f i) (f (i + 1)) ∨ SledOtherStep (f i) (f (i + 1))
  fair : ∀ i, (∃ t, OwnStep (f i) t) → ∃ j, i ≤ j ∧ OwnStep (f j) (f (j + 1))

end Dtn.Spec
