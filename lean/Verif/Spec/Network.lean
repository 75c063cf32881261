import Verif.Model.Network
import Verif.Spec.Origin
/-! Specification of what a network of nodes does with bundles. -/

namespace Dtn.Spec
open Proc Net

variable {ι : Type}

/-- No unknown block asks to be removed. -/
def Plain (b : Bundle) : Prop := ∀ c ∈ b.canonicals, UnknownBlock c → c.flags.remove = false

/-- The blocks that no node changes: all but previous node, hop count and age. -/
def fixedBlocks (b : Bundle) : List Block :=
  b.canonicals.filter fun c => c.btype ∉ [PREVIOUS_NODE_BLOCK, HOP_COUNT_BLOCK, BUNDLE_AGE_BLOCK]

/-- The bundle is new to the network: a client pushed it or submitted it somewhere, or a node made it as a status
report. -/
def Source (pushed : Bundle → Prop) (net : Network ι) (b : Bundle) : Prop :=
  pushed b ∨ ∃ i, Event.called (.send b) ∈ (net i).node.events ∨ ∃ r, Event.report r ∈ (net i).node.events ∧ r.report = b

/-- A hop count is raised by one and stays within its limit; only a count of 255 may start again. -/
def HopUp (out stored : Bundle) : Prop :=
  ∀ limit count, AtMostOne HOP_COUNT_BLOCK stored → hopCount stored = some (limit, count) →
    ∃ count', hopCount out = some (limit, count') ∧ count' ≤ limit ∧ (count < 255 → count' = count + 1)

/-- `b` is what `b0` may have become after it was passed on `k` times by nodes from `hosts`. -/
inductive Path (hosts : EID → Prop) (b0 : Bundle) : Nat → Bundle → Prop where
  | here : Path hosts b0 0 b0
  | kept {k : Nat} {b b' : Bundle} (p : Path hosts b0 k b) (h : KeptOf b' b) : Path hosts b0 k b'
  | passed {k : Nat} {b b' : Bundle} (p : Path hosts b0 k b) (host : EID) (hh : hosts host) (h : PassedOn host b' b)
      (up : HopUp b' b) : Path hosts b0 (k + 1) b'

/-- The names of the nodes. -/
def hostsOf (net : Network ι) (e : EID) : Prop := ∃ i, (net i).node.cfg.hostEid = e

/-- An application got the bundle: at node `i`, under endpoint `e`, by subscription, queue or fetching. -/
def Got (net : Network ι) (i : ι) (e : EID) (b : Bundle) : Prop :=
  (∃ ch, Event.delivered e b ch ∈ (net i).node.events) ∨ Event.popped e b ∈ (net i).node.events

end Dtn.Spec
