import Verif.Model.Processing
import Verif.Model.SledStore
/-!
Model of a node that keeps its bundles in the persistent store (`core/store/sled.rs`, chosen by `core/store/mod.rs:53-62` if the
setting `db` is `sled`). The functions of `core/processing.rs` are those of `Model/Processing.lean`; they are written out once more
because the calls into the store can come back with other results: lookups of missing ids panic, the removal of a bundle that is
gone already succeeds, and bundles whose id has metadata but no bundle are refused. A panic ends the task that made the call (the
lock of `STORE` is released). The store of `Node` holds the content of the two trees.

Simplifications: as in `Model/Processing.lean`; besides, the statistics go on counting across restarts (the code starts again from
zero).
-/

namespace Dtn.OnSled
open Proc
open Routing (Notification Answer)

/-- The content of the database. -/
def db (n : Node) : SledStore := ⟨n.store.bundles, n.store.metadata⟩

/-- The node with a changed database. -/
def setDb (n : Node) (s : SledStore) : Node := { n with store := ⟨s.bundles, s.metadata⟩ }

/-- The writes of a call, if it comes to them. -/
def write (n : Node) (o : Outcome (List SledStore.Write)) : Node :=
  match o with
  | .ok ws => setDb n ((db n).applyAll ws)
  | _ => n

/-- Go on after a call into the store. -/
def andThen {α : Type} (o : Outcome α) (k : Bool → Prog) : Prog :=
  match o with
  | .ok _ => k true
  | .err => k false
  | .panic => .panic

/-- `store_remove`, `lib.rs:184-191`. `cause` is ghost. -/
def removed (n : Node) (bid : String) (cause : Cause) : Node :=
  if (db n).hasItem bid then (write n ((db n).removeW bid)).log (.removed bid cause) else write n ((db n).removeW bid)

/-- A call of `store_remove`, `lib.rs:184-191`. -/
def remove (bid : String) (cause : Cause) (k : Bool → Prog) : Prog :=
  .act (fun n => removed n bid cause) fun n => andThen ((db n).removeW bid) k

/-- A call of `BundlePack::sync`, `core/bundlepack.rs:119-128`. -/
def sync (bp : Pack) (k : Bool → Prog) (cause : Cause := .request) : Prog :=
  if !bp.hasAny then remove bp.id cause k
  else .act (fun n => write n ((db n).updateW bp)) fun n => andThen ((db n).updateW bp) k

/-- A call of `store_get_bundle`, `lib.rs:209-211`: panics if there is no such bundle. -/
def getBundle (bid : String) (k : Option Bundle → Prog) : Prog :=
  .read fun n =>
    match (db n).getBundle bid with
    | .ok b => k b
    | _ => .panic

/-- A call of `store_get_metadata`, `lib.rs:212-214`: panics if there are none. -/
def getMetadata (bid : String) (k : Option Pack → Prog) : Prog :=
  .read fun n =>
    match (db n).getMetadata bid with
    | .ok p => k p
    | _ => .panic

/-- A call of `store_push_bundle`, `lib.rs:170-172`. -/
def push (b : Bundle) (k : Bool → Prog) : Prog :=
  .act (fun n => write n ((db n).pushW n.clock b)) fun n => andThen ((db n).pushW n.clock b) k

/-- `store_remove_if_singleton_bundle`, `lib.rs:194-201`; an error is only logged. -/
def removeIfSingleton (b : Bundle) (k : Prog) : Prog :=
  if !b.primary.destination.isNonSingleton then remove b.id (.given b) fun _ => k else .read fun _ => k

/-- `send_status_report`, `core/processing.rs:645-696`. -/
def sendReport (bp : Pack) (cause : Bundle) (pos : Pos) (reason : Reason) (k : Prog) : Prog :=
  if bp.administrative || bp.source = .none then k
  else getBundle bp.id fun
    | none => k
    | some subject =>
      .read fun n =>
        if n.agents.has subject.primary.reportTo then k
        else
          let endpoints := n.agents.eids
          .fresh fun bid =>
          .act (fun n =>
              match (db n).pushW n.clock (mkReport n subject bid pos) with
              | .ok ws => (setDb n ((db n).applyAll ws)).log
                  (.report { pack := bp, cause, endpoints, subject, report := mkReport n subject bid pos, pos, reason })
              | _ => n) fun n =>
            andThen ((db n).pushW n.clock (mkReport n subject bid pos)) fun ok =>
              if ok then sync ((Pack.ofBundle n.clock (mkReport n subject bid pos)).add .forwardPending) fun _ => k
              else k

/-- The tests in `core/processing.rs:117-123`, `441-447`, `483-489` and `522-528`. -/
def reportIf (asked : Bool) (bp : Pack) (b : Bundle) (pos : Pos) (reason : Reason) (k : Prog) : Prog :=
  .read fun n => if asked && !b.isAdmin && n.cfg.statusReports then sendReport bp b pos reason k else k

/-- `delete`, `core/processing.rs:516-535`. `cause` is ghost. -/
def delete (bp : Pack) (reason : Reason) (cause : Cause) (k : Bool → Prog) : Prog :=
  getBundle bp.id fun
    | none => k false
    | some b => reportIf b.primary.flags.reqDeletion bp b .deleted reason <| sync bp.clear k cause

/-- `inspect_status_report`, `core/processing.rs:588-641`. -/
def inspectReport (b : Bundle) (r : AdminRecord) (k : Prog) : Prog :=
  match r with
  | .statusReport sips ref =>
    if sips.isEmpty then k
    else .read fun n =>
      if !(db n).hasItem ref then k
      else if sips.length ≠ 4 then k
      else remove ref (.statusReport b r) fun _ => k
  | .other => k

/-- `is_administrative_record_valid`, `core/processing.rs:537-586`. -/
def adminValid (b : Bundle) (k : Bool → Prog) : Prog :=
  if !b.isAdmin then k false
  else match b.canonicals.find? fun c => c.btype = PAYLOAD_BLOCK with
    | none => k false
    | some blk =>
      match blk.data with
      | .data bytes => .read fun n =>
        match n.cfg.decode bytes with
        | some ar => inspectReport b ar (k true)
        | none => k false
      | _ => k false

/-- `contraindicated`, `core/processing.rs:509-514`. -/
def contraindicated (bp : Pack) (k : Bool → Prog) : Prog := sync (bp.add .contraindicated) k

/-- Delivery to the agent, `core/processing.rs:502-507` with `core/application_agent.rs:39-56`. -/
def giveToAgent (eid : EID) (b : Bundle) (k : Bool → Prog) : Prog :=
  .choose fun room =>
    .act (fun n => n.deliver eid b room) fun n =>
      match n.agents.find eid with
      | none => k true
      | some a =>
        let count := Prog.set (fun n => { n with stats := { n.stats with delivered := n.stats.delivered + 1 } }) (k true)
        match (a.push b room).2 with
        | some _ => removeIfSingleton b count
        | none => count

/-- The end of `local_delivery`, `core/processing.rs:500-507`. -/
def finishDelivery (bp : Pack) (b : Bundle) (k : Bool → Prog) : Prog :=
  sync bp fun ok => if !ok then k false else giveToAgent bp.destination b k

/-- `local_delivery` after the check of administrative records, `core/processing.rs:480-507`. -/
def deliverBundle (bp : Pack) (b : Bundle) (k : Bool → Prog) : Prog :=
  sync (bp.add .localEndpoint) fun ok =>
    if !ok then k false
    else .read fun n =>
      if n.isLocal bp.destination then
        reportIf b.primary.flags.reqDelivery (bp.add .localEndpoint) b .delivered .noInformation
          (finishDelivery (bp.add .localEndpoint).clear b k)
      else finishDelivery ((bp.add .localEndpoint).add .forwardPending) b k

/-- `local_delivery`, `core/processing.rs:467-508`. -/
def localDelivery (bp : Pack) (k : Bool → Prog) : Prog :=
  getBundle bp.id fun
    | none => k false
    | some b =>
      if bp.administrative then
        adminValid b fun ok =>
          if !ok then delete bp .noInformation (.badRecord b) (fun _ => k false) else deliverBundle bp b k
      else deliverBundle bp b k

/-- The end of `forward`, `core/processing.rs:440-464`. -/
def afterTransfers (bp : Pack) (b : Bundle) (a : Answer) (g : Nat) (k : Bool → Prog) : Prog :=
  .read fun n =>
    if n.isSent g then
      reportIf b.primary.flags.reqForward bp b .forwarded .noInformation <|
        if a.delete then remove bp.id (.router bp a) k
        else if b.isAdmin then adminValid b fun _ => contraindicated bp k
        else k true
    else k true

/-- The transfers of `forward`, `core/processing.rs:346-427`. -/
def sendAll (bp : Pack) (b out : Bundle) (a : Answer) (checkedAt agedAt : Nat) (receivedAt : Option Nat)
    (k : Bool → Prog) : Prog :=
  .act (fun n => n.newGroup bp b a) fun n =>
    let g := n.groups.length
    spawnTransfers bp.id (fun to => { group := g, stored := b, out, to, checkedAt, agedAt, receivedAt }) a.clas <|
      .wait (fun n => n.allEnded g) <| afterTransfers bp out a g k

/-- The bundle is prepared for sending, `core/processing.rs:326-344`. The metadata are looked up only if there is an age block
(line 246). -/
def prepare (bp : Pack) (a : Answer) (k : Bool → Prog) : Prog :=
  getBundle bp.id fun
    | none => k false
    | some b =>
      .read fun n =>
        if lifetimeExceeded n.dtnNow b.primary then
          let now := n.dtnNow
          .read fun n => delete (Pack.ofBundle n.clock b) .lifetimeExpired (.lifetime b now) fun _ => k false
        else
          let checkedAt := n.clock
          let b1 := (raiseHop b).1
          if (raiseHop b).2 then
            .read fun n => delete (Pack.ofBundle n.clock b1) .hopLimitExceeded (.hops b) fun _ => k false
          else .read fun n =>
            match setPrevious n.cfg.hostEid b1 with
            | none => .panic
            | some b2 =>
              .read fun n =>
                if (firstBlock BUNDLE_AGE_BLOCK b2).isSome ∧ (db n).getMetadata b.id = .panic then .panic
                else
                  let received := (AList.get? (db n).metadata b.id).map Pack.receivedTime
                  let b3 := (raiseAge n.clock received b2).1
                  let age := (raiseAge n.clock received b2).2
                  if tooOld b3 age then
                    .read fun n => delete (Pack.ofBundle n.clock b3) .lifetimeExpired (.age b age) fun _ => k false
                  else sendAll bp b b3 a checkedAt n.clock received k

/-- `forward` after the question to the router, `core/processing.rs:312-464`. -/
def answered (bp : Pack) (k : Bool → Prog) : Option Answer → Prog
  | none => k false
  | some a =>
    if a.clas.isEmpty then
      if a.delete then remove bp.id (.router bp a) k
      else k true
    else prepare bp a k

/-- `forward`, `core/processing.rs:299-465`. -/
def forward (bp : Pack) (k : Bool → Prog) : Prog :=
  let bp := (bp.add .forwardPending).del .dispatchPending
  sync bp fun ok => if !ok then k false else .route bp (answered bp k)

/-- The end of `dispatch`, `core/processing.rs:195-204`. -/
def dispatchRemote (bp : Pack) (k : Bool → Prog) : Prog :=
  .read fun n => if !n.isLocal bp.destination then .spawn (forward bp .done) (k true) else k true

/-- `dispatch`, `core/processing.rs:185-205`. -/
def dispatch (bp : Pack) (k : Bool → Prog) : Prog :=
  getBundle bp.id fun
    | none => .panic
    | some b =>
      .set (fun n => n.log (.note (.incomingBundle b))) <|
      .read fun n =>
        if n.agents.has bp.destination then
          localDelivery bp fun ok => if !ok then k false else dispatchRemote bp k
        else dispatchRemote bp k

/-- `transmit`, `core/processing.rs:75-94`. -/
def transmit (bp : Pack) (k : Bool → Prog) : Prog :=
  let bp := bp.add .dispatchPending
  sync bp fun ok =>
    if !ok then k false
    else .read fun n =>
      if bp.source ≠ .none ∧ n.agents.find bp.source = none then
        delete bp .noInformation (.foreign bp n.agents.eids) k
      else dispatch bp k

/-- The spawned task of `send_bundle`, `core/processing.rs:27-37`. -/
def sendBundle (b : Bundle) : Prog :=
  push b fun ok =>
    if !ok then .done false else .read fun n => transmit (Pack.ofBundle n.clock b) .done

/-- The end of `receive`, `core/processing.rs:171-181`. -/
def finishReceive (b : Bundle) (bp : Pack) (marked : List Nat) (k : Bool → Prog) : Prog :=
  match removeBlocks marked b.canonicals with
  | none => .panic
  | some cs =>
    push { b with canonicals := cs } fun ok =>
      if !ok then k false else dispatch bp fun _ => k true

/-- The loop over the blocks, `core/processing.rs:126-170`. -/
def scanBlocks (b : Bundle) (bp : Pack) (k : Bool → Prog) : List Block → Nat → List Nat → Prog
  | [], _, marked => finishReceive b bp marked k
  | c :: cs, index, marked =>
    if c.btype < 11 then scanBlocks b bp k cs index marked
    else
      let next := scanBlocks b bp k cs (index + 1) (if c.flags.remove then marked ++ [index] else marked)
      let continue_ := if c.flags.deleteBundle then delete bp .blockUnintelligible (.block b c) k else next
      if c.flags.report then
        .read fun n =>
          if n.cfg.statusReports then sendReport bp b .received .blockUnintelligible continue_ else continue_
      else continue_

/-- The change made by `store_add_bundle_if_unknown`, `lib.rs:174-182`; a bundle that is refused leaves no trace. -/
def added (n : Node) (b : Bundle) : Node :=
  match ((db n).addIfUnknown n.clock b).2 with
  | .ok true => (setDb n ((db n).addIfUnknown n.clock b).1).log (.accepted b)
  | .ok false => n.log (.duplicate b)
  | _ => n

/-- `receive`, `core/processing.rs:97-182`. -/
def receive (b : Bundle) (k : Bool → Prog) : Prog :=
  .act (fun n => added n b) fun n =>
    match ((db n).addIfUnknown n.clock b).2 with
    | .ok true =>
      .set (fun n => { n with stats := { n.stats with incoming := n.stats.incoming + 1 } }) <|
      .read fun n =>
        let bp := (Pack.ofBundle n.clock b).add .dispatchPending
        sync bp fun ok =>
          if !ok then k false
          else reportIf b.primary.flags.reqReception bp b .received .noInformation <|
            scanBlocks b bp k b.canonicals 0 []
    | .ok false => .set (fun n => { n with stats := { n.stats with dups := n.stats.dups + 1 } }) (k true)
    | .err => k false
    | .panic => .panic

/-- The loop of `store_delete_expired`, `lib.rs:224-231`. -/
def sweep : List Pack → Prog → Prog
  | [], k => k
  | m :: ms, k => .read fun n =>
    if m.hasExpired n.dtnNow then
      let now := n.dtnNow
      remove m.id (.expired m now) fun _ => sweep ms k
    else sweep ms k

/-- The metadata of the listed bundles, `core/mod.rs:158-162`, one lock acquisition each. -/
def collect : List String → List Pack → (List Pack → Prog) → Prog
  | [], acc, k => k acc
  | bid :: bids, acc, k => getMetadata bid fun
    | some bp => collect bids (if bp.has .deleted then acc else acc ++ [bp]) k
    | none => collect bids acc k

/-- `forward` for each of the selected bundles, `core/mod.rs:169-195`. -/
def forwardAll (parallel : Bool) : List Pack → Prog
  | [] => .done true
  | bp :: bps =>
    if parallel then .spawn (forward bp .done) (forwardAll parallel bps)
    else forward bp fun _ => forwardAll parallel bps

/-- `process_bundles`, `core/mod.rs:144-203`. -/
def processBundles : Prog :=
  .read fun n =>
    sweep ((db n).packs.filter fun bp => !bp.has .deleted) <|
    .read fun n =>
      if !n.claActive then .done true
      else .read fun n =>
        collect (db n).forwarding [] fun packs =>
          .read fun n => forwardAll n.cfg.parallel
            (packs.mergeSort fun a b => decide (a.creationTime ≤ b.creationTime))

/-- `pop` on the agent of an endpoint, `httpd.rs:622-634` with `core/application_agent.rs:57-63`. -/
def popBundle (eid : EID) : Prog :=
  .act (fun n => n.popAgent eid) fun n =>
    match n.agents.find eid with
    | none => .done false
    | some a =>
      match a.pop.2 with
      | none => .done true
      | some b => removeIfSingleton b (.done true)

/-- The task that handles a call. -/
def task : Call → Prog
  | .receive b => receive b .done
  | .send b => sendBundle b
  | .remove bid => remove bid .request fun _ => .done true
  | .pop eid => popBundle eid
  | .janitor => processBundles

/-- The node after a restart, `dtnd/daemon.rs:66-166`: the database is opened again (`core/store/sled.rs:143-151`); endpoints and
peers are gone until they are registered, configured or discovered again, and the statistics, which are kept in memory
(`lib.rs:37`), start from zero (`core/mod.rs:41-51`). -/
def restarted (n : Node) (clock : Nat) : Node := { n with agents := [], peers := [], stats := {}, clock }

/-- One step of the running system: of any of the tasks, in any order. -/
inductive Step : Sys → Sys → Prop where
  | task (l r : List Prog) (p : Prog) (n n' : Node) (ps : List Prog) (h : TaskStep n p n' ps) :
      Step ⟨n, l ++ p :: r⟩ ⟨n', l ++ ps ++ r⟩
  | call (n : Node) (pool : List Prog) (c : Call) : Step ⟨n, pool⟩ ⟨n.log (.called c), pool ++ [task c]⟩
  | change (n n' : Node) (pool : List Prog) (h : Outside n n') : Step ⟨n, pool⟩ ⟨n', pool⟩

/-- The executions: the process may be stopped and started again at any time, whatever the tasks are doing: between two calls of the
store, or after some but not all of the writes of one call (`SledStore.crashStep`; here of any call, not only of one that a task is
about to make). -/
inductive Reaches : Sys → Sys → Prop where
  | refl (s : Sys) : Reaches s s
  | step {s t u : Sys} : Reaches s t → Step t u → Reaches s u
  | restart {s : Sys} {n : Node} {pool : List Prog} (clock : Nat) : Reaches s ⟨n, pool⟩ → Reaches s ⟨restarted n clock, []⟩
  | cut {s : Sys} {n : Node} {pool : List Prog} (clock : Nat) (op : SledStore.Op) (k : Nat)
      (h : ∀ ws, (db n).writes op = .ok ws → k < ws.length) :
      Reaches s ⟨n, pool⟩ → Reaches s ⟨restarted (setDb n ((db n).crashStep op k)) clock, []⟩

end Dtn.OnSled
