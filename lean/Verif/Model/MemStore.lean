import Verif.Model.AList
import Verif.Model.Pack
/-! Model of `core/store/mem.rs` and the default methods of `core/store/mod.rs`. -/

namespace Dtn

/-- `InMemoryBundleStore`, `core/store/mem.rs:10-13`. -/
structure MemStore where
  bundles : AList String Bundle
  metadata : AList String Pack
deriving DecidableEq, Repr

namespace MemStore

/-- `InMemoryBundleStore::new`, `core/store/mem.rs:102-107`. -/
def new : MemStore := ⟨[], []⟩

/-- `push`, `core/store/mem.rs:16-30`. Always `Ok`. `now` is the clock read by
`BundlePack::from` (line 18). -/
def push (now : Nat) (s : MemStore) (b : Bundle) : MemStore :=
  let bp := Pack.ofBundle now b
  let metadata := if AList.contains s.bundles bp.id then s.metadata
                  else AList.insert s.metadata bp.id bp
  { bundles := AList.insert s.bundles b.id b, metadata := metadata }

/-- `update_metadata`, `core/store/mem.rs:31-38`. The `Bool` is `Ok`/`Err`. -/
def updateMetadata (s : MemStore) (bp : Pack) : MemStore × Bool :=
  if AList.contains s.metadata bp.id then
    ({ s with metadata := AList.insert s.metadata bp.id bp }, true)
  else (s, false)

/-- `get_bundle`, `core/store/mem.rs:91-94`. -/
def getBundle (s : MemStore) (bid : String) : Option Bundle := AList.get? s.bundles bid

/-- `get_metadata`, `core/store/mem.rs:96-98`. -/
def getMetadata (s : MemStore) (bid : String) : Option Pack := AList.get? s.metadata bid

/-- `remove`, `core/store/mem.rs:39-51`. The `Bool` is `Ok`/`Err`; on the second error the
metadata has already been changed. -/
def remove (s : MemStore) (bid : String) : MemStore × Bool :=
  match s.getMetadata bid with
  | none => (s, false)
  | some meta_ =>
    let m := (meta_.clear).add .deleted
    match s.updateMetadata m with
    | (s', false) => (s', false)
    | (s', true) =>
      ({ s' with bundles := AList.erase s'.bundles bid }, AList.contains s'.bundles bid)

/-- `count`, `core/store/mem.rs:53-55`. -/
def count (s : MemStore) : Nat := s.bundles.length

/-- `all_ids`, `core/store/mem.rs:56-58`. -/
def allIds (s : MemStore) : List String := AList.keys s.bundles

/-- `has_item`, `core/store/mem.rs:59-61`. -/
def hasItem (s : MemStore) (bid : String) : Bool := AList.contains s.bundles bid

/-- `filter`, `core/store/mem.rs:62-75`. -/
def filter (s : MemStore) (criteria : List Constraint) : List String :=
  ((AList.values s.metadata).filter (fun e => criteria.all (fun c => e.has c))).map Pack.id

/-- `forwarding`, `core/store/mod.rs:43-46`. -/
def forwarding (s : MemStore) : List String := s.filter [.forwardPending]

/-- `pending`, `core/store/mem.rs:76-86`. -/
def pending (s : MemStore) : List String :=
  ((AList.values s.metadata).filter (fun e =>
    !e.has .reassemblyPending && (e.has .forwardPending || e.has .contraindicated))).map Pack.id

/-- `bundles`, `core/store/mem.rs:87-89`. -/
def packs (s : MemStore) : List Pack := AList.values s.metadata

/-- `store_add_bundle_if_unknown`, `lib.rs:174-182` (one lock acquisition).
The `Bool` is the returned value; with this store the push cannot fail. -/
def addIfUnknown (now : Nat) (s : MemStore) (b : Bundle) : MemStore × Bool :=
  if !s.hasItem b.id then (s.push now b, true) else (s, false)

/-- `BundlePack::sync`, `core/bundlepack.rs:119-128`. -/
def sync (s : MemStore) (bp : Pack) : MemStore × Bool :=
  if !bp.hasAny then s.remove bp.id else s.updateMetadata bp

/-- The loop of `store_delete_expired`, `lib.rs:224-231`: the errors of `store_remove`
are only logged. -/
def deleteAll (now : Nat) : List Pack → MemStore → MemStore
  | [], s => s
  | m :: ms, s => deleteAll now ms (if m.hasExpired now then (s.remove m.id).1 else s)

/-- `store_delete_expired`, `lib.rs:216-232`. The snapshot of line 217 and each removal take
the lock separately; this is the run without interference. -/
def deleteExpired (now : Nat) (s : MemStore) : MemStore :=
  deleteAll now (s.packs.filter (fun bp => !bp.has .deleted)) s

/-- One call of the mutating store API. -/
inductive Op where
  | push (now : Nat) (b : Bundle)
  | update (bp : Pack)
  | remove (bid : String)
deriving Repr

/-- Effect of one call (ignoring its result). -/
def step (s : MemStore) : Op → MemStore
  | .push now b => s.push now b
  | .update bp => (s.updateMetadata bp).1
  | .remove bid => (s.remove bid).1

/-- Effect of a history of calls. -/
def run (s : MemStore) (ops : List Op) : MemStore := ops.foldl step s

end MemStore
end Dtn
