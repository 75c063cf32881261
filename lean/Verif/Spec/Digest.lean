import Verif.Model.MemStore
import Verif.Model.SledStore
/-! Specification vocabulary for digests of known bundles. -/

namespace Dtn.Spec

/-- The ids a node with the in-memory store has ever accepted. -/
def pushedMem (ops : List MemStore.Op) (bid : String) : Prop := ∃ now b, MemStore.Op.push now b ∈ ops ∧ b.id = bid

/-- A text is a scheme of three characters, a colon, and no further colon. -/
def OneColon (s : List Char) : Prop :=
  ∃ a b c rest, s = a :: b :: c :: ':' :: rest ∧ a ≠ ':' ∧ b ≠ ':' ∧ c ≠ ':' ∧ ':' ∉ rest

end Dtn.Spec
