import Verif.Model.MemStore
/-!
Specification of a bundle store: a function from ids to bundles, given by the history
of calls alone. Written without reference to the store's data structures.
-/

namespace Dtn.Spec

/-- The bundle a history of calls leaves available under `bid`: the last one pushed with
that id, unless the id was removed afterwards. The history lists the latest call first. -/
def available (bid : String) : List MemStore.Op → Option Bundle
  | [] => none
  | .push _ b :: older => if b.id = bid then some b else available bid older
  | .remove j :: older => if j = bid then none else available bid older
  | .update _ :: older => available bid older

/-- A set of bundles given as a predicate has exactly `n` members listed by `l`. -/
def Enumerates (l : List String) (P : String → Prop) : Prop := l.Nodup ∧ ∀ x, x ∈ l ↔ P x

end Dtn.Spec

namespace Dtn.Spec

/-- A bundle's lifetime is over: it has a lifetime (zero means unlimited) and creation time
plus lifetime lies before `now`, in unbounded arithmetic. -/
def Expired (now : Nat) (p : Pack) : Prop := p.lifetime ≠ 0 ∧ p.creationTime + p.lifetime < now

/-- Abstract view of a store with tombstones: which bundle is available under an id,
and which ids have ever been accepted. -/
structure TombView where
  avail : String → Option Bundle
  known : String → Bool

/-- Nothing available, nothing known. -/
def TombView.empty : TombView := ⟨fun _ => none, fun _ => false⟩

/-- Abstract push: a new id is accepted, an available one is replaced, a removed one rejected. -/
def TombView.push (v : TombView) (b : Bundle) : TombView × Bool :=
  if (v.avail b.id).isSome || !v.known b.id then
    (⟨fun j => if j = b.id then some b else v.avail j, fun j => v.known j || decide (j = b.id)⟩, true)
  else (v, false)

/-- Abstract removal. -/
def TombView.remove (v : TombView) (bid : String) : TombView :=
  ⟨fun j => if j = bid then none else v.avail j, v.known⟩

end Dtn.Spec
