import Verif.Model.PackCbor
import Verif.Spec.Discovery
import Verif.Spec.BeaconLayout
/-! Records of bundles as CBOR, written down without use of the functions that write and read them. -/

namespace Dtn.Spec.Records
open Dtn.Spec.Beacons

/-- The fields of a record. -/
inductive Field where
  | source | destination | receivedTime | creationTime | lifetime | id | administrative | size | constraints
deriving DecidableEq, Repr

/-- The fields as they are declared. -/
def declared : List Field :=
  [.source, .destination, .receivedTime, .creationTime, .lifetime, .id, .administrative, .size, .constraints]

/-- The list names the elements of the set, each of them once. -/
def Lists (cs : List Constraint) (s : CSet) : Prop := cs.Nodup ∧ ∀ c, c ∈ cs ↔ s.has c = true

/-- The name of a constraint. -/
def Name : Constraint → String
  | .dispatchPending => "DispatchPending"
  | .forwardPending => "ForwardPending"
  | .reassemblyPending => "ReassemblyPending"
  | .contraindicated => "Contraindicated"
  | .localEndpoint => "LocalEndpoint"
  | .deleted => "Deleted"

/-- RFC 8949, 3.3: the simple values true and false. -/
def Truth (b : Bool) (bs : Bytes) : Prop := bs = [if b then 245 else 244]

/-- Key and value of a field. -/
def field (indefinite : Bool) (cs : List Constraint) (p : Pack) : Field → (Bytes → Prop) × (Bytes → Prop)
  | .source => (Text "source", Eid p.source)
  | .destination => (Text "destination", Eid p.destination)
  | .receivedTime => (Text "received_time", Num p.receivedTime)
  | .creationTime => (Text "creation_time", Num p.creationTime)
  | .lifetime => (Text "lifetime", Num p.lifetime)
  | .id => (Text "id", Text p.id)
  | .administrative => (Text "administrative", Truth p.administrative)
  | .size => (Text "size", Num p.size)
  | .constraints => (Text "constraints", Seq indefinite (cs.map fun c => Text (Name c)))

/-- A record: a map from the names of the fields to their values, in some order, with the constraints in some order; both may be of
indefinite length if this is allowed. -/
def Record (indefinite : Bool) (fs : List Field) (cs : List Constraint) (p : Pack) (bs : Bytes) : Prop :=
  MapOf indefinite (fs.map (field indefinite cs p)) bs

/-- The values fit the types of the fields: `u64`, `usize`, strings in memory, endpoints that have a text form. -/
structure Fits (p : Pack) : Prop where
  source : Spec.Discovery.GoodEid p.source
  destination : Spec.Discovery.GoodEid p.destination
  receivedTime : p.receivedTime < 2 ^ 64
  creationTime : p.creationTime < 2 ^ 64
  lifetime : p.lifetime < 2 ^ 64
  id : p.id.toUTF8.data.toList.length < 2 ^ 64
  size : p.size < 2 ^ 64

/-- What a call hands to the store fits the types of the fields. -/
def FitsOp : SledStore.Op → Prop
  | .push now b => Spec.Discovery.GoodEid b.primary.source ∧ Spec.Discovery.GoodEid b.primary.destination ∧
      now < 2 ^ 64 ∧ b.primary.creationTime < 2 ^ 64 ∧ b.primary.lifetime < 2 ^ 64 ∧
      b.id.toUTF8.data.toList.length < 2 ^ 64
  | .update bp => Fits bp
  | .remove _ => True

/-- The same for an event. -/
def FitsEvent : SledStore.Event → Prop
  | .call op => FitsOp op
  | .crash op _ => FitsOp op

end Dtn.Spec.Records
