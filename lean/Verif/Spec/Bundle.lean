import Verif.Model.Pack
/-! Specification of the contents of bundles. -/

namespace Dtn.Spec

/-- The number in the first hop count block: limit and count. -/
def hopCount (b : Bundle) : Option (Nat × Nat) :=
  (b.canonicals.find? fun c => c.btype = HOP_COUNT_BLOCK).bind fun c =>
    match c.data with
    | .hopCount l k => some (l, k)
    | _ => none

/-- The number in the first bundle age block. -/
def bundleAge (b : Bundle) : Option Nat :=
  (b.canonicals.find? fun c => c.btype = BUNDLE_AGE_BLOCK).bind fun c =>
    match c.data with
    | .bundleAge a => some a
    | _ => none

/-- The endpoint in the first previous node block. -/
def previousNode (b : Bundle) : Option EID :=
  (b.canonicals.find? fun c => c.btype = PREVIOUS_NODE_BLOCK).bind fun c =>
    match c.data with
    | .previousNode e => some e
    | _ => none

/-- The contents of the first payload block. -/
def payload (b : Bundle) : Option Bytes :=
  (b.canonicals.find? fun c => c.btype = PAYLOAD_BLOCK).bind fun c =>
    match c.data with
    | .data d => some d
    | _ => none

/-- What a store knows about a bundle that has just been put into it: what the bundle says about itself, and no constraints. -/
def newRecord (now : Nat) (b : Bundle) : Pack :=
  { source := b.primary.source
    destination := b.primary.destination
    receivedTime := now
    creationTime := b.primary.creationTime
    lifetime := b.primary.lifetime
    id := b.primary.bid
    administrative := b.primary.flags.admin
    size := 0
    constraints := { dispatchPending := false, forwardPending := false, reassemblyPending := false, contraindicated := false, localEndpoint := false, deleted := false } }

end Dtn.Spec
