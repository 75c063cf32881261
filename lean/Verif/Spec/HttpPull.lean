import Verif.Model.HttpPull
/-! Specification vocabulary for pulling bundles. -/

namespace Dtn.Spec
open Dtn.HttpPull

/-- The bundle ids asked for in a round. -/
def pullAsked (t : Trace) : List String := t.requests.filterMap fun
  | .download bid => some bid
  | _ => none

/-- The listed ids that are not stored here, in the order of the list. -/
def missing (has : String → Bool) : List String → List String
  | [] => []
  | bid :: rest => if has bid then missing has rest else bid :: missing has rest

end Dtn.Spec
