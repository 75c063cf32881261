/-!
Bundles as dtn7-rs sees them through the `bp7` crate (version 0.10.6, not part of `/repo`).
Only the fields and operations that the code in `/repo` reads are present.
-/

namespace Dtn

abbrev Bytes := List UInt8

/-- `bp7::EndpointID` as used throughout (`core/processing.rs:82`, `lib.rs:152-154`).
External type: the three schemes `dtn:none`, `dtn://node/service`, `ipn:node.service`. -/
inductive EID where
  | none
  | dtn (node service : String)
  | ipn (node service : Nat)
deriving DecidableEq, Repr

/-- The result of `bp7::EndpointID::node_id()`, e.g. `dtn://node1/` or `ipn:5.0`
(used in `lib.rs:152-154`). Simplification: kept structured instead of printed. -/
inductive NodeId where
  | dtn (node : String)
  | ipn (node : Nat)
deriving DecidableEq, Repr

/-- `bp7::EndpointID::node()`: the bare node name, used as key of the peer table
(`lib.rs:120`). For `ipn` it is the printed node number. -/
def EID.node : EID → Option String
  | .none => Option.none
  | .dtn n _ => some n
  | .ipn n _ => some (toString n)

/-- `bp7::EndpointID::node_id()` (used in `lib.rs:153`). -/
def EID.nodeId : EID → Option NodeId
  | .none => Option.none
  | .dtn n _ => some (.dtn n)
  | .ipn n _ => some (.ipn n)

/-- `bp7::EndpointID::is_non_singleton()` (used in `lib.rs:195`): a `dtn` service name
starting with `~`. -/
def EID.isNonSingleton : EID → Bool
  | .dtn _ s => s.toList.head? == some '~'
  | _ => false

/-- Bundle processing control flags read by `core/processing.rs:117-121,441-446,483-487,522-526`. -/
structure BundleFlags where
  admin : Bool := false
  reqReception : Bool := false
  reqForward : Bool := false
  reqDelivery : Bool := false
  reqDeletion : Bool := false
deriving DecidableEq, Repr

/-- Block processing control flags read by `core/processing.rs:138-168`. -/
structure BlockFlags where
  /-- `BLOCK_STATUS_REPORT` -/
  report : Bool := false
  /-- `BLOCK_DELETE_BUNDLE` -/
  deleteBundle : Bool := false
  /-- `BLOCK_REMOVE` -/
  remove : Bool := false
deriving DecidableEq, Repr

/-- `bp7::CanonicalData` (matched in `core/processing.rs:250,554-578`). -/
inductive BlockData where
  | hopCount (limit count : Nat)
  | bundleAge (ms : Nat)
  | previousNode (eid : EID)
  | data (bytes : Bytes)
  | unknown (bytes : Bytes)
deriving DecidableEq, Repr

/-- `bp7::CanonicalBlock`. -/
structure Block where
  btype : Nat
  num : Nat
  flags : BlockFlags := {}
  data : BlockData
deriving DecidableEq, Repr

/-- `bp7::PAYLOAD_BLOCK` (`core/processing.rs:546`). -/
def PAYLOAD_BLOCK : Nat := 1
/-- `bp7::canonical::PREVIOUS_NODE_BLOCK` (`core/processing.rs:277`). -/
def PREVIOUS_NODE_BLOCK : Nat := 6
/-- `bp7::BUNDLE_AGE_BLOCK` (`core/processing.rs:246`). -/
def BUNDLE_AGE_BLOCK : Nat := 7
/-- `bp7::canonical::HOP_COUNT_BLOCK` (`core/processing.rs:209`). -/
def HOP_COUNT_BLOCK : Nat := 10

/-- `bp7::primary::PrimaryBlock`. `bid` stands for the value of `Bundle::id()`, which bp7
computes from source, creation timestamp and fragment offset: nothing in `/repo` changes
a primary block, so it is a field here. `lifetime` is in milliseconds
(`core/bundlepack.rs:72`), `creationTime` in DTN-time milliseconds. -/
structure Primary where
  bid : String
  flags : BundleFlags := {}
  source : EID
  destination : EID
  reportTo : EID
  creationTime : Nat
  seqno : Nat := 0
  lifetime : Nat
deriving DecidableEq, Repr

/-- `bp7::Bundle`. -/
structure Bundle where
  primary : Primary
  canonicals : List Block
deriving DecidableEq, Repr

/-- `bp7::Bundle::id()`. -/
def Bundle.id (b : Bundle) : String := b.primary.bid

/-- `bp7::Bundle::is_administrative_record()`. -/
def Bundle.isAdmin (b : Bundle) : Bool := b.primary.flags.admin

end Dtn
