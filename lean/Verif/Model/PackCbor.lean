import Verif.Model.Discovery
import Verif.Model.SledStore
/-!
The records of bundles as the database keeps them: CBOR, written by the derived `Serialize` and read by the derived
`Deserialize` of `BundlePack` (`core/bundlepack.rs:13-57,166-178`) through the crate `serde_cbor`.

Simplifications when reading, which matter only for bytes that the node has not written: keys that are no field are
refused (the crate skips them), so are keys and constraints given by their number, a record given as a list, tags before
a truth value and, as in `Model/Cbor.lean`, strings of indefinite length.
-/

namespace Dtn.PackCbor
open Cbor
open Rd (fail)

/-- The text of a constraint: the name of the variant, `core/bundlepack.rs:13-34`. -/
def name : Constraint → String
  | .dispatchPending => "DispatchPending"
  | .forwardPending => "ForwardPending"
  | .reassemblyPending => "ReassemblyPending"
  | .contraindicated => "Contraindicated"
  | .localEndpoint => "LocalEndpoint"
  | .deleted => "Deleted"

/-- A truth value. -/
def bool (b : Bool) : Bytes := [if b then 0xf5 else 0xf4]

/-- `to_cbor`, `core/bundlepack.rs:166-168`; `cs` are the constraints in the order in which the set lists them. The fields
are those of `core/bundlepack.rs:45-57`. -/
def write (cs : List Constraint) (p : Pack) : Bytes :=
  map [(text "source", Discovery.writeEid p.source), (text "destination", Discovery.writeEid p.destination),
    (text "received_time", num p.receivedTime), (text "creation_time", num p.creationTime),
    (text "lifetime", num p.lifetime), (text "id", text p.id), (text "administrative", bool p.administrative),
    (text "size", num p.size), (text "constraints", seq (cs.map fun c => text (name c)))]

/-- A truth value is read. -/
def readBool : Rd Bool := fun bs =>
  match bs with
  | 0xf4 :: rest => .ok false rest
  | 0xf5 :: rest => .ok true rest
  | _ => .err

/-- A constraint is read by its name. -/
def readConstraint : Rd Constraint := do
  let s ← readText
  if s = "DispatchPending" then pure .dispatchPending
  else if s = "ForwardPending" then pure .forwardPending
  else if s = "ReassemblyPending" then pure .reassemblyPending
  else if s = "Contraindicated" then pure .contraindicated
  else if s = "LocalEndpoint" then pure .localEndpoint
  else if s = "Deleted" then pure .deleted
  else fail

/-- One field with its value. -/
inductive Entry where
  | source (e : EID)
  | destination (e : EID)
  | receivedTime (n : Nat)
  | creationTime (n : Nat)
  | lifetime (n : Nat)
  | id (s : String)
  | administrative (b : Bool)
  | size (n : Nat)
  | constraints (cs : List Constraint)
deriving DecidableEq, Repr

/-- A key and the value the field takes: `u64` for the times, `usize` for the size. -/
def readEntry : Rd Entry := do
  let k ← readText
  if k = "source" then do pure (.source (← Discovery.readEid))
  else if k = "destination" then do pure (.destination (← Discovery.readEid))
  else if k = "received_time" then do pure (.receivedTime (← readNum (2 ^ 64)))
  else if k = "creation_time" then do pure (.creationTime (← readNum (2 ^ 64)))
  else if k = "lifetime" then do pure (.lifetime (← readNum (2 ^ 64)))
  else if k = "id" then do pure (.id (← readText))
  else if k = "administrative" then do pure (.administrative (← readBool))
  else if k = "size" then do pure (.size (← readNum (2 ^ 64)))
  else if k = "constraints" then do pure (.constraints (← readSeq readConstraint))
  else fail

/-- The value of a field: a field that is missing or given twice is an error. -/
def one {α : Type} (f : Entry → Option α) (es : List Entry) : Option α :=
  match es.filterMap f with
  | [a] => some a
  | _ => none

/-- The set of the constraints read. -/
def setOf (cs : List Constraint) : CSet := cs.foldl (fun s c => s.set true c) CSet.empty

/-- The record made of the fields. -/
def build (es : List Entry) : Option Pack := do
  let source ← one (fun | .source e => some e | _ => none) es
  let destination ← one (fun | .destination e => some e | _ => none) es
  let receivedTime ← one (fun | .receivedTime n => some n | _ => none) es
  let creationTime ← one (fun | .creationTime n => some n | _ => none) es
  let lifetime ← one (fun | .lifetime n => some n | _ => none) es
  let id ← one (fun | .id s => some s | _ => none) es
  let administrative ← one (fun | .administrative b => some b | _ => none) es
  let size ← one (fun | .size n => some n | _ => none) es
  let cs ← one (fun | .constraints cs => some cs | _ => none) es
  pure { source, destination, receivedTime, creationTime, lifetime, id, administrative, size, constraints := setOf cs }

/-- `From<&[u8]> for BundlePack`, `core/bundlepack.rs:172-178`; `none` is the panic of `expect`. Bytes after the record are
an error. -/
def read (bs : Bytes) : Option Pack :=
  match readMap readEntry bs with
  | .ok es [] => build es
  | _ => none

/-! ### The database with the bytes of the records -/

/-- The content of the two trees (`core/store/sled.rs:12-16`), with the records as bytes. Bundles, which the crate `bp7`
writes and reads, are kept as they are. -/
structure Db where
  bundles : AList String Bundle
  metadata : AList String Bytes
deriving DecidableEq, Repr

namespace Db

/-- A freshly created database, `core/store/sled.rs:143-151`. -/
def new : Db := ⟨[], []⟩

/-- One durable write, as `SledStore.Write`. -/
inductive Write where
  | record (key : String) (value : Bytes)
  | bundle (b : Bundle)
  | dropBundle (bid : String)
deriving DecidableEq, Repr

/-- Effect of one durable write. -/
def apply (s : Db) : Write → Db
  | .record k v => { s with metadata := AList.insert s.metadata k v }
  | .bundle b => { s with bundles := AList.insert s.bundles b.id b }
  | .dropBundle bid => { s with bundles := AList.erase s.bundles bid }

/-- `get_metadata`, `core/store/sled.rs:134-139`: a missing record and bytes that are no record panic. -/
def getMetadata (s : Db) (bid : String) : Outcome (Option Pack) :=
  match AList.get? s.metadata bid with
  | some bs => match read bs with
    | some p => .ok (some p)
    | none => .panic
  | none => .panic

/-- A record to be written, `core/store/sled.rs:28,42`; `o` is the order in which sets are listed. -/
def record (o : CSet → List Constraint) (p : Pack) : Write := .record p.id (PackCbor.write (o p.constraints) p)

/-- The durable writes of one call, `core/store/sled.rs:19-58`. -/
def writes (o : CSet → List Constraint) (s : Db) : SledStore.Op → Outcome (List Write)
  | .push now b =>
    if AList.contains s.bundles b.id then .ok [.bundle b]
    else if AList.contains s.metadata b.id then .err
    else .ok [record o (Pack.ofBundle now b), .bundle b]
  | .update bp => if AList.contains s.metadata bp.id then .ok [record o bp] else .err
  | .remove bid =>
    match s.getMetadata bid with
    | .ok (some m) =>
      let m := m.clear.add .deleted
      if AList.contains s.metadata m.id then .ok [record o m, .dropBundle bid] else .err
    | .ok none => .ok [.dropBundle bid]
    | .err => .err
    | .panic => .panic

/-- A complete call, or a call cut short by a crash after some of its durable writes, as `SledStore.event`. -/
def event (s : Db) (e : SledStore.Event × (CSet → List Constraint)) : Db :=
  match e.1 with
  | .call op => match s.writes e.2 op with
    | .ok ws => ws.foldl apply s
    | _ => s
  | .crash op n => match s.writes e.2 op with
    | .ok ws => (ws.take n).foldl apply s
    | _ => s

/-- Effect of a history; every call comes with the order in which it lists sets. -/
def run (s : Db) (es : List (SledStore.Event × (CSet → List Constraint))) : Db := es.foldl event s

/-- All records, `core/store/sled.rs:118-125`: bytes that are no record panic. -/
def packs (s : Db) : Outcome (List Pack) :=
  match (AList.values s.metadata).mapM read with
  | some ps => .ok ps
  | none => .panic

/-- `filter`, `core/store/sled.rs:85-101`. -/
def filter (s : Db) (criteria : List Constraint) : Outcome (List String) :=
  match s.packs with
  | .ok ps => .ok ((ps.filter fun e => criteria.all fun c => e.has c).map Pack.id)
  | .err => .err
  | .panic => .panic

/-- `pending`, `core/store/sled.rs:103-116`. -/
def pending (s : Db) : Outcome (List String) :=
  match s.packs with
  | .ok ps => .ok ((ps.filter fun e =>
      !e.has .reassemblyPending && (e.has .forwardPending || e.has .contraindicated)).map Pack.id)
  | .err => .err
  | .panic => .panic

end Db
end Dtn.PackCbor
