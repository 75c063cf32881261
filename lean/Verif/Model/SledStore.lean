import Verif.Model.AList
import Verif.Model.Pack
/-! Model of `core/store/sled.rs`. Database I/O errors are not modelled (every `?` on a
sled call is assumed to succeed); a `unwrap()` on `None` is an explicit panic. -/

namespace Dtn

/-- What a call into the store can come back with. -/
inductive Outcome (α : Type) where
  | ok (a : α)
  | err
  | panic
deriving DecidableEq, Repr

/-- `SledBundleStore`, `core/store/sled.rs:12-16`: the durable content of the two trees. -/
structure SledStore where
  bundles : AList String Bundle
  metadata : AList String Pack
deriving DecidableEq, Repr

namespace SledStore

/-- A freshly created database, `core/store/sled.rs:143-151`. -/
def new : SledStore := ⟨[], []⟩

/-- One durable write: a tree insert or remove together with the `flush` following it
(`core/store/sled.rs:28-29, 32-33, 42-43, 52-53`). -/
inductive Write where
  | meta_ (bp : Pack)
  | bundle (b : Bundle)
  | dropBundle (bid : String)
deriving DecidableEq, Repr

/-- Effect of one durable write. -/
def apply (s : SledStore) : Write → SledStore
  | .meta_ bp => { s with metadata := AList.insert s.metadata bp.id bp }
  | .bundle b => { s with bundles := AList.insert s.bundles b.id b }
  | .dropBundle bid => { s with bundles := AList.erase s.bundles bid }

/-- Effect of a sequence of durable writes. -/
def applyAll (s : SledStore) (ws : List Write) : SledStore := ws.foldl apply s

/-- `get_bundle`, `core/store/sled.rs:127-132`: `b.unwrap()` panics when the id is absent. -/
def getBundle (s : SledStore) (bid : String) : Outcome (Option Bundle) :=
  match AList.get? s.bundles bid with
  | some b => .ok (some b)
  | none => .panic

/-- `get_metadata`, `core/store/sled.rs:134-139`: `b.unwrap()` panics when the id is absent. -/
def getMetadata (s : SledStore) (bid : String) : Outcome (Option Pack) :=
  match AList.get? s.metadata bid with
  | some p => .ok (some p)
  | none => .panic

/-- The durable writes of `push`, `core/store/sled.rs:19-36`, in program order. -/
def pushW (now : Nat) (s : SledStore) (b : Bundle) : Outcome (List Write) :=
  if AList.contains s.bundles b.id then .ok [.bundle b]
  else if AList.contains s.metadata b.id then .err
  else .ok [.meta_ (Pack.ofBundle now b), .bundle b]

/-- The durable writes of `update_metadata`, `core/store/sled.rs:37-45`. -/
def updateW (s : SledStore) (bp : Pack) : Outcome (List Write) :=
  if AList.contains s.metadata bp.id then .ok [.meta_ bp] else .err

/-- The durable writes of `remove`, `core/store/sled.rs:46-58`. -/
def removeW (s : SledStore) (bid : String) : Outcome (List Write) :=
  match s.getMetadata bid with
  | .panic => .panic
  | .err => .err
  | .ok none => .ok [.dropBundle bid]
  | .ok (some m) => .ok [.meta_ (m.clear.add .deleted), .dropBundle bid]

/-- `count`, `core/store/sled.rs:65-67`. -/
def count (s : SledStore) : Nat := s.bundles.length
/-- `all_ids`, `core/store/sled.rs:68-75`. -/
def allIds (s : SledStore) : List String := AList.keys s.bundles
/-- `has_item`, `core/store/sled.rs:76-84`. -/
def hasItem (s : SledStore) (bid : String) : Bool := AList.contains s.bundles bid

/-- `filter`, `core/store/sled.rs:85-101`; that decoding of stored metadata succeeds is C144. -/
def filter (s : SledStore) (criteria : List Constraint) : List String :=
  ((AList.values s.metadata).filter (fun e => criteria.all (fun c => e.has c))).map Pack.id

/-- `forwarding`, `core/store/mod.rs:43-46`. -/
def forwarding (s : SledStore) : List String := s.filter [.forwardPending]

/-- `pending`, `core/store/sled.rs:103-116`. -/
def pending (s : SledStore) : List String :=
  ((AList.values s.metadata).filter (fun e =>
    !e.has .reassemblyPending && (e.has .forwardPending || e.has .contraindicated))).map Pack.id

/-- `bundles`, `core/store/sled.rs:118-125`. -/
def packs (s : SledStore) : List Pack := AList.values s.metadata

/-- One call of the mutating store API. -/
inductive Op where
  | push (now : Nat) (b : Bundle)
  | update (bp : Pack)
  | remove (bid : String)
deriving Repr

/-- The durable writes of one call. -/
def writes (s : SledStore) : Op → Outcome (List Write)
  | .push now b => s.pushW now b
  | .update bp => s.updateW bp
  | .remove bid => s.removeW bid

/-- Effect of one complete call: the writes are applied, an error or a panic happens before
the first write. -/
def step (s : SledStore) (op : Op) : SledStore :=
  match s.writes op with
  | .ok ws => s.applyAll ws
  | _ => s

/-- Effect of a call during which the process stops after `n` durable writes, followed by
reopening the database (`core/store/sled.rs:143-151`). -/
def crashStep (s : SledStore) (op : Op) (n : Nat) : SledStore :=
  match s.writes op with
  | .ok ws => s.applyAll (ws.take n)
  | _ => s

/-- An event in the life of the database: a complete call, or a call cut short by a crash. -/
inductive Event where
  | call (op : Op)
  | crash (op : Op) (n : Nat)
deriving Repr

/-- Effect of one event. -/
def event (s : SledStore) : Event → SledStore
  | .call op => s.step op
  | .crash op n => s.crashStep op n

/-- Effect of a history. -/
def run (s : SledStore) (es : List Event) : SledStore := es.foldl event s

/-- `store_add_bundle_if_unknown` on this store, `lib.rs:174-182`. -/
def addIfUnknown (now : Nat) (s : SledStore) (b : Bundle) : SledStore × Outcome Bool :=
  if !s.hasItem b.id then
    match s.pushW now b with
    | .ok ws => (s.applyAll ws, .ok true)
    | .err => (s, .err)
    | .panic => (s, .panic)
  else (s, .ok false)

end SledStore
end Dtn
