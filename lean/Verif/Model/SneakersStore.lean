import Verif.Model.Sneakers
import Verif.Model.MemStore
import Verif.Model.SledStore
import Verif.Model.Routing.Static
/-! Model of the store in `core/store/sneakers.rs`. Directory and database belong to the crate `d7sneakers`, which is not part of the
repository: they are a parameter here, an object with the operations that the store calls. What is assumed of them is in
`Spec/SneakersStore.lean`. -/

namespace Dtn.Sneakers

/-- The columns of a row of the database that are read, `core/store/sneakers.rs:119-137`. -/
structure Entry where
  srcName : Option String
  srcService : Option String
  dstName : Option String
  dstService : Option String
  creationTime : Nat
  lifetime : Nat
  size : Nat
  timeAdded : Nat
deriving DecidableEq, Repr

/-- `d7sneakers::SneakerWorld` (external crate) as it is used in `core/store/sneakers.rs`. An operation that fails leaves everything as it
was. -/
structure World where
  /-- Directory and database. -/
  σ : Type
  /-- `db.exists`. -/
  has : σ → String → Bool
  /-- `push`; the number is the time. -/
  push : Nat → σ → Bundle → Option σ
  /-- `remove`. -/
  remove : σ → String → Option σ
  /-- `get_bundle`. -/
  bundle : σ → String → Option Bundle
  /-- `fs.get_bundle`. -/
  file : σ → String → Option Bundle
  /-- `db.get_bundle_entry`. -/
  entry : σ → String → Option Entry
  /-- `db.get_constraints`. -/
  marks : σ → String → Option Bits
  /-- `db.set_constraints`. -/
  mark : σ → String → Bits → Option σ
  /-- `db.ids`. -/
  ids : σ → List String
  /-- `db.len`. -/
  len : σ → Nat
  /-- `db.filter_constraints`. -/
  filter : σ → Bits → List String

/-- `parse::<u64>`: decimal digits with an optional plus sign. -/
def parseU64 (s : List Char) : Option Nat :=
  if Routing.StaticRouting.stripPlus s = [] then none
  else match Routing.StaticRouting.digits 0 (Routing.StaticRouting.stripPlus s) with
    | some n => if n < 2 ^ 64 then some n else none
    | none => none

/-- The text that `eid_from_strings` reads, `core/store/sneakers.rs:23-37`. -/
def eidText (name service : Option String) : String :=
  if (parseU64 (name.getD "").toList).isSome && (service.isNone || (parseU64 (service.getD "").toList).isSome) then
    "ipn:" ++ name.getD "" ++ "." ++ service.getD ""
  else "dtn:" ++ name.getD "" ++ "." ++ service.getD ""

/-- `eid_from_strings(..).unwrap_or_default()`, `core/store/sneakers.rs:38, 119-125`. `parse` is `EndpointID::try_from` (crate `bp7`,
external), the default is `dtn:none`. -/
def eidOf (parse : String → Option EID) (name service : Option String) : EID := (parse (eidText name service)).getD .none

variable (w : World) (parse : String → Option EID)

/-- `push`, `core/store/sneakers.rs:42-49`. The `Bool` is `Ok`/`Err`. -/
def push (now : Nat) (s : w.σ) (b : Bundle) : w.σ × Bool :=
  match w.push now s b with
  | some t => (t, true)
  | none => (s, false)

/-- `update_metadata`, `core/store/sneakers.rs:50-58`. -/
def updateMetadata (s : w.σ) (bp : Pack) : w.σ × Bool :=
  if !w.has s bp.id then (s, false)
  else match w.mark s bp.id (toBits bp.constraints) with
    | some t => (t, true)
    | none => (s, false)

/-- `get_metadata`, `core/store/sneakers.rs:109-150`. -/
def getMetadata (s : w.σ) (bid : String) : Option Pack :=
  match w.entry s bid with
  | none => none
  | some e =>
    match w.marks s bid with
    | none => none
    | some c =>
      some { source := eidOf parse e.srcName e.srcService
             destination := eidOf parse e.dstName e.dstService
             receivedTime := e.timeAdded
             creationTime := e.creationTime
             lifetime := e.lifetime
             id := bid
             administrative := false
             size := e.size
             constraints := toSet c }

/-- `remove`, `core/store/sneakers.rs:59-66`. -/
def remove (s : w.σ) (bid : String) : w.σ × Bool :=
  let drop (s : w.σ) : w.σ × Bool :=
    match w.remove s bid with
    | some t => (t, true)
    | none => (s, false)
  match getMetadata w parse s bid with
  | none => drop s
  | some m =>
    match updateMetadata w s (m.clear.add .deleted) with
    | (s, false) => (s, false)
    | (s, true) => drop s

/-- `count`, `core/store/sneakers.rs:68-70`. -/
def count (s : w.σ) : Nat := w.len s
/-- `all_ids`, `core/store/sneakers.rs:71-73`. -/
def allIds (s : w.σ) : List String := w.ids s
/-- `has_item`, `core/store/sneakers.rs:74-76`. -/
def hasItem (s : w.σ) (bid : String) : Bool := w.has s bid
/-- `filter`, `core/store/sneakers.rs:77-80`. -/
def filter (s : w.σ) (criteria : CSet) : List String := w.filter s (toBits criteria)
/-- `forwarding`, `core/store/mod.rs:43-46`. -/
def forwarding (s : w.σ) : List String := filter w s { forwardPending := true }
/-- `pending`, `core/store/sneakers.rs:81-85`. -/
def pending (s : w.σ) : List String := w.filter s DISPATCH_PENDING
/-- `get_bundle`, `core/store/sneakers.rs:102-107`. -/
def getBundle (s : w.σ) (bid : String) : Option Bundle := w.bundle s bid

/-- `bundles`, `core/store/sneakers.rs:86-100`, at time `now`; `none` is a panic (`unwrap`). -/
def packs (now : Nat) (s : w.σ) : Option (List Pack) :=
  (w.ids s).mapM fun id =>
    match w.file s id with
    | none => none
    | some b =>
      match w.marks s (Pack.ofBundle now b).id with
      | none => none
      | some c => some { Pack.ofBundle now b with constraints := toSet c }

/-- `store_add_bundle_if_unknown` on this store, `lib.rs:174-182`; the results are whether it was added, and `Err`. -/
def addIfUnknown (now : Nat) (s : w.σ) (b : Bundle) : w.σ × Option Bool :=
  if !hasItem w s b.id then
    match push w now s b with
    | (t, true) => (t, some true)
    | (t, false) => (t, none)
  else (s, some false)

/-- One call. -/
def step (s : w.σ) : MemStore.Op → w.σ × Bool
  | .push now b => push w now s b
  | .update bp => updateMetadata w s bp
  | .remove bid => remove w parse s bid

/-- A history of calls: the state after it, and the calls with their results (`Ok` or not), the latest first. -/
def run (s : w.σ) : List MemStore.Op → w.σ × List (MemStore.Op × Bool)
  | ops => ops.foldl (fun r op => let q := step w parse r.1 op; (q.1, (op, q.2) :: r.2)) (s, [])

end Dtn.Sneakers
