import Verif.Model.MemStore
/-! Model of `process_bundles`, `core/mod.rs:144-203` (selection part; `forward` itself is in
`Verif.Model.Processing`). -/

namespace Dtn.Janitor

/-- The packs handed to `forward`, in order: `core/mod.rs:156-165`. The steps take the store
lock separately; this is the run without interference. `sort_unstable_by` is modelled by a merge sort
(the order among packs with equal creation time is unspecified in the code). -/
def selection (s : MemStore) : List Pack :=
  let bids := s.forwarding
  let packs := (bids.filterMap s.getMetadata).filter (fun bp => !bp.has .deleted)
  packs.mergeSort (fun a b => decide (a.creationTime ≤ b.creationTime))

/-- `process_bundles`, `core/mod.rs:144-165`: expiry sweep, then nothing if no CLA accepts
bundles, else the selection. `now` is the DTN time. -/
def processBundles (now : Nat) (activeCla : Bool) (s : MemStore) : MemStore × List Pack :=
  let s := s.deleteExpired now
  if !activeCla then (s, []) else (s, selection s)

end Dtn.Janitor
