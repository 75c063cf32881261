import Verif.Model.SneakersStore
import Verif.Spec.Store
/-! Specification of the store on directory and database, and what is assumed of the crate `d7sneakers`. -/

namespace Dtn.Spec.SneakersSpec
open Dtn.Sneakers

/-- A row of the database describes a bundle. `names` are node and service of an endpoint as the crate writes them. -/
structure Describes (names : EID → Option String × Option String) (e : Entry) (b : Bundle) : Prop where
  source : (e.srcName, e.srcService) = names b.primary.source
  destination : (e.dstName, e.dstService) = names b.primary.destination
  creationTime : e.creationTime = b.primary.creationTime
  lifetime : e.lifetime = b.primary.lifetime

/-- What is assumed of directory and database: both hold the same bundles, one row with the description and the constraints for each;
`push` adds or replaces a bundle, `remove` takes it out of both, setting constraints changes only them; lists are exact. Which constraints
`push` leaves is not assumed. -/
structure Lawful (w : World) (names : EID → Option String × Option String) : Prop where
  has : ∀ s id, w.has s id = (w.bundle s id).isSome
  key : ∀ s id b, w.bundle s id = some b → b.id = id
  file : ∀ s id, w.file s id = w.bundle s id
  row : ∀ s id b, w.bundle s id = some b → ∃ e c, w.entry s id = some e ∧ w.marks s id = some c ∧ Describes names e b
  noRow : ∀ s id, w.bundle s id = none → w.entry s id = none ∧ w.marks s id = none
  push : ∀ now s b t, w.push now s b = some t →
    (∀ id, w.bundle t id = if id = b.id then some b else w.bundle s id) ∧ ∀ id, id ≠ b.id → w.marks t id = w.marks s id
  mark : ∀ s id c t, w.mark s id c = some t → w.has s id = true →
    (∀ j, w.bundle t j = w.bundle s j) ∧ ∀ j, w.marks t j = if j = id then some c else w.marks s j
  remove : ∀ s id t, w.remove s id = some t →
    (∀ j, w.bundle t j = if j = id then none else w.bundle s j) ∧ ∀ j, j ≠ id → w.marks t j = w.marks s j
  ids : ∀ s, Enumerates (w.ids s) (fun id => w.has s id = true)
  len : ∀ s, w.len s = (w.ids s).length
  filter : ∀ s f, Enumerates (w.filter s f) (fun id => ∃ c, w.marks s id = some c ∧ c &&& f = f)

/-- The bundle a history of calls leaves under `bid`: the last one pushed with success, unless it was removed afterwards; `first` is what was
there before. The history lists the latest call first, with its success. -/
def held (first : String → Option Bundle) (bid : String) : List (MemStore.Op × Bool) → Option Bundle
  | [] => first bid
  | (.push _ b, true) :: older => if b.id = bid then some b else held first bid older
  | (.remove j, true) :: older => if j = bid then none else held first bid older
  | _ :: older => held first bid older

/-- The constraints last written with success for `bid`, if nothing was done to it since. -/
def written (bid : String) : List (MemStore.Op × Bool) → Option CSet
  | [] => none
  | (.push _ b, true) :: older => if b.id = bid then none else written bid older
  | (.update p, true) :: older => if p.id = bid then some p.constraints else written bid older
  | (.remove j, _) :: older => if j = bid then none else written bid older
  | _ :: older => written bid older

end Dtn.Spec.SneakersSpec
