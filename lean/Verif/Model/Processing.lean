import Verif.Model.Agents
import Verif.Model.Peer
import Verif.Model.Routing.Epidemic
/-!
Model of `core/processing.rs` and of `process_bundles` in `core/mod.rs`.

Every async function becomes a program (`Prog`): a tree of atomic actions on the state of the node, one per lock
acquisition in the code, so that other tasks can run between any two of them. Functions are written in continuation
passing style; the continuation receives `true` for `Ok(())` and `false` for `Err(_)`. Fields and events marked "ghost"
record what happened and are read by no program.

Simplifications: the node runs the in-memory store, whose `push` cannot fail; log messages are left out; the lock of
`DTNCORE` is not held across the two halves of a delivery, so the model has more interleavings than the code.
-/

namespace Dtn.Proc
open Routing (Notification Answer)

/-- `StatusInformationPos` of `bp7::administrative_record` (used in `core/processing.rs:124,448,490,529`). -/
inductive Pos where
  | received
  | forwarded
  | delivered
  | deleted
deriving DecidableEq, Repr

/-- `StatusReportReason` of `bp7::administrative_record`, the values used in `core/processing.rs`. -/
inductive Reason where
  | noInformation
  | lifetimeExpired
  | hopLimitExceeded
  | blockUnintelligible
deriving DecidableEq, Repr

/-- `bp7::AdministrativeRecord` (`core/processing.rs:589`): of a status report, the `asserted` bits of its status
information and the id of the bundle it is about. -/
inductive AdminRecord where
  | statusReport (status : List Bool) (ref : String)
  | other
deriving DecidableEq, Repr

/-- `CONFIG` (`lib.rs:33`), as far as `core/processing.rs` reads it, and the CBOR coding of administrative records, which
is external (`serde_cbor::from_slice`, line 556; `to_payload` in `bp7`). -/
structure Config where
  hostEid : EID
  statusReports : Bool
  parallel : Bool := true
  decode : Bytes → Option AdminRecord
  encode : AdminRecord → Bytes

/-- `DtnStatistics`, `core/mod.rs:32-39`. -/
structure Stats where
  incoming : Nat := 0
  dups : Nat := 0
  outgoing : Nat := 0
  delivered : Nat := 0
  failed : Nat := 0
deriving DecidableEq, Repr

/-- Ghost: one copy of a bundle handed to a convergence layer by a `forward` call. -/
structure Transfer where
  /-- the `forward` call -/
  group : Nat
  /-- the bundle as read from the store (`core/processing.rs:326`) -/
  stored : Bundle
  /-- the bundle that is encoded and sent (`core/processing.rs:347`) -/
  out : Bundle
  /-- to whom -/
  to : Sender
  /-- unix time when the lifetime was checked (`core/processing.rs:334`) -/
  checkedAt : Nat
  /-- unix time when the age block was set (`core/processing.rs:251`) -/
  agedAt : Nat
  /-- reception time found in the metadata then (`core/processing.rs:248`), if there were any -/
  receivedAt : Option Nat
deriving DecidableEq, Repr

/-- Ghost: one status report put into the store. -/
structure Report where
  /-- the bundle pack that was being processed -/
  pack : Pack
  /-- the bundle whose flags asked for it -/
  cause : Bundle
  /-- the endpoints registered when it was decided -/
  endpoints : List EID
  /-- the bundle found in the store when the report was made -/
  subject : Bundle
  /-- the report itself -/
  report : Bundle
  pos : Pos
  reason : Reason
deriving DecidableEq, Repr

/-- Ghost: why a bundle is taken out of the store. -/
inductive Cause where
  /-- a client asked for it (`httpd.rs:698`) -/
  | request
  /-- a client was given it (`core/application_agent.rs:50,60`) -/
  | given (b : Bundle)
  /-- the janitor found it expired (`lib.rs:225`) -/
  | expired (meta_ : Pack) (dtnNow : Nat)
  /-- the router asked for it (`core/processing.rs:321,451`) -/
  | router (bp : Pack) (a : Answer)
  /-- a bundle containing a status report about it was processed (`core/processing.rs:622`) -/
  | statusReport (b : Bundle) (record : AdminRecord)
  /-- it is submitted for transmission with a foreign source (`core/processing.rs:89`) -/
  | foreign (bp : Pack) (endpoints : List EID)
  /-- an unknown block asks for it (`core/processing.rs:157`) -/
  | block (b : Bundle) (c : Block)
  /-- its lifetime is over (`core/processing.rs:237`) -/
  | lifetime (b : Bundle) (dtnNow : Nat)
  /-- its hop limit is exceeded (`core/processing.rs:223`) -/
  | hops (b : Bundle)
  /-- its age exceeds its lifetime (`core/processing.rs:269`); `age` is the new age -/
  | age (b : Bundle) (age : Option Nat)
  /-- it is marked as an administrative record but contains none (`core/processing.rs:477`) -/
  | badRecord (b : Bundle)
deriving DecidableEq, Repr

/-- The calls the outside world makes. -/
inductive Call where
  /-- a convergence layer or `/push` received a bundle (`mtcp.rs:326`, `udp.rs:31`, `tcp/mod.rs:229`, `httppull.rs:99`,
  `ecla/processing.rs:196`, `httpd.rs:534`) -/
  | receive (b : Bundle)
  /-- a client sends a bundle (`httpd.rs:323,436,461,520`, `ws.rs:341,409`) -/
  | send (b : Bundle)
  /-- `/delete` (`httpd.rs:698`) -/
  | remove (bid : String)
  /-- `/endpoint` and `ws.rs:452` -/
  | pop (eid : EID)
  /-- the janitor (`janitor.rs`) -/
  | janitor
deriving DecidableEq, Repr

/-- Ghost: what can be observed of a node. -/
inductive Event where
  /-- the outside world made a call -/
  | called (c : Call)
  /-- a received bundle was new -/
  | accepted (b : Bundle)
  /-- a received bundle was known -/
  | duplicate (b : Bundle)
  /-- a bundle was taken out of the store -/
  | removed (bid : String) (cause : Cause)
  /-- the router was told something -/
  | note (n : Notification)
  /-- the router was asked where to send a bundle; `none`: it did not answer -/
  | asked (bp : Pack) (answer : Option Answer)
  /-- a bundle was given to the agent of an endpoint -/
  | delivered (eid : EID) (b : Bundle) (channel : Option Nat)
  /-- a client fetched a bundle from the agent of an endpoint -/
  | popped (eid : EID) (b : Bundle)
  /-- a copy was handed to a convergence layer -/
  | sending (t : Transfer)
  /-- the convergence layer reported success or failure -/
  | outcome (t : Transfer) (ok : Bool)
  /-- a status report was created -/
  | report (r : Report)
deriving DecidableEq, Repr

/-- The transfers started by one `forward` call: how many are not finished (`wg`, `core/processing.rs:346,427`) and the
flag `bundle_sent` (line 309). The other fields are ghost. -/
structure Group where
  running : Nat
  sent : Bool := false
  pack : Pack
  stored : Bundle
  answer : Answer
deriving DecidableEq, Repr

/-- The state shared by all tasks of a node: the statics of `lib.rs:31-44`. -/
structure Node where
  cfg : Config
  store : MemStore
  agents : Registry := []
  peers : Peers := []
  /-- is there a convergence layer that accepts bundles (`core/mod.rs:149`) -/
  claActive : Bool := true
  stats : Stats := {}
  /-- unix time in milliseconds -/
  clock : Nat
  groups : List Group := []
  events : List Event := []

/-- A task. -/
inductive Prog where
  /-- return; `true` for `Ok` -/
  | done (ok : Bool)
  /-- the task panicked -/
  | panic
  /-- one atomic action; the continuation sees the state before it -/
  | act (f : Node → Node) (k : Node → Prog)
  /-- ask the router (`lib.rs:262-279`); the answer is up to the router, `none` if it has gone -/
  | route (bp : Pack) (k : Option Answer → Prog)
  /-- something decided elsewhere: does a transfer succeed, is there room in a channel -/
  | choose (k : Bool → Prog)
  /-- a new bundle id (creation timestamp and sequence number, made up in `bp7`) -/
  | fresh (k : String → Prog)
  /-- `tokio::spawn` -/
  | spawn (t : Prog) (k : Prog)
  /-- wait for a condition -/
  | wait (c : Node → Bool) (k : Prog)

/-- Read the state. -/
def Prog.read (k : Node → Prog) : Prog := .act id k

/-- Change the state. -/
def Prog.set (f : Node → Node) (k : Prog) : Prog := .act f fun _ => k

namespace Node

/-- Ghost: record an event. -/
def log (n : Node) (e : Event) : Node := { n with events := n.events ++ [e] }

/-- `bp7::dtn_time_now()`: milliseconds since 2000-01-01. -/
def dtnNow (n : Node) : Nat := n.clock - 946684800000

/-- `store_push_bundle`, `lib.rs:170-172`. -/
def push (n : Node) (b : Bundle) : Node := { n with store := n.store.push n.clock b }

/-- `store_add_bundle_if_unknown`, `lib.rs:174-182`. -/
def addIfUnknown (n : Node) (b : Bundle) : Node :=
  if (n.store.addIfUnknown n.clock b).2 then
    { n with store := (n.store.addIfUnknown n.clock b).1 }.log (.accepted b)
  else { n with store := (n.store.addIfUnknown n.clock b).1 }.log (.duplicate b)

/-- `store_remove`, `lib.rs:184-191`. `cause` is ghost. -/
def remove (n : Node) (bid : String) (cause : Cause) : Node :=
  if (n.store.remove bid).2 then { n with store := (n.store.remove bid).1 }.log (.removed bid cause)
  else { n with store := (n.store.remove bid).1 }

/-- `BundlePack::sync`, `core/bundlepack.rs:119-128`. `cause` is ghost. -/
def sync (n : Node) (bp : Pack) (cause : Cause := .request) : Node :=
  if !bp.hasAny then n.remove bp.id cause else { n with store := (n.store.updateMetadata bp).1 }

/-- `is_local_node_id`, `lib.rs:152-154`. -/
def isLocal (n : Node) (e : EID) : Bool := e.nodeId == n.cfg.hostEid.nodeId

/-- `aa.push(&bndl)` on the agent found by `get_endpoint_mut`, `core/processing.rs:502-504`; `room` is the outcome of
`try_send`. Without the removal from the store. -/
def deliver (n : Node) (eid : EID) (b : Bundle) (room : Bool) : Node :=
  match n.agents.find eid with
  | none => n
  | some a =>
    { n with agents := Registry.modify (fun a => (a.push b room).1) eid n.agents }.log
      (.delivered eid b (a.push b room).2)

/-- `pop` on the agent found by `get_endpoint_mut`, `core/application_agent.rs:57-63`. Without the removal from the
store. -/
def popAgent (n : Node) (eid : EID) : Node :=
  match n.agents.find eid with
  | none => n
  | some a =>
    match a.pop.2 with
    | none => n
    | some b => { n with agents := Registry.modify (fun a => a.pop.1) eid n.agents }.log (.popped eid b)

/-- `store_remove_if_singleton_bundle`, `lib.rs:194-201`. -/
def removeIfSingleton (n : Node) (b : Bundle) : Node :=
  if !b.primary.destination.isNonSingleton then n.remove b.id (.given b) else n

/-- Start of a group of transfers. -/
def newGroup (n : Node) (bp : Pack) (b : Bundle) (a : Answer) : Node :=
  { n with groups := n.groups ++ [{ running := a.clas.length, pack := bp, stored := b, answer := a }] }

/-- One transfer task has ended. -/
def endTask (n : Node) (g : Nat) : Node :=
  { n with groups := n.groups.modify g fun x => { x with running := x.running - 1 } }

/-- `bundle_sent.store(true, Ordering::Relaxed)`, `core/processing.rs:412`. -/
def setSent (n : Node) (g : Nat) : Node := { n with groups := n.groups.modify g fun x => { x with sent := true } }

/-- `join_all(wg).await` returns, `core/processing.rs:427`. -/
def allEnded (n : Node) (g : Nat) : Bool :=
  match n.groups[g]? with
  | some x => x.running == 0
  | none => false

/-- `bundle_sent.load(Ordering::Relaxed)`, `core/processing.rs:440`. -/
def isSent (n : Node) (g : Nat) : Bool :=
  match n.groups[g]? with
  | some x => x.sent
  | none => false

end Node

/-- The bundle made by `bp7::administrative_record::new_status_report_bundle` (called in `core/processing.rs:674-680`):
an administrative record from this node to the report-to address of the subject. -/
def mkReport (n : Node) (subject : Bundle) (bid : String) (pos : Pos) : Bundle :=
  { primary :=
      { bid
        flags := { admin := true }
        source := n.cfg.hostEid
        destination := subject.primary.reportTo
        reportTo := n.cfg.hostEid
        creationTime := n.dtnNow
        lifetime := subject.primary.lifetime }
    canonicals :=
      [{ btype := PAYLOAD_BLOCK, num := 1,
         data := .data (n.cfg.encode (.statusReport
           [decide (pos = .received), decide (pos = .forwarded), decide (pos = .delivered), decide (pos = .deleted)]
           subject.id)) }] }

/-- `send_status_report`, `core/processing.rs:645-696`. `cause` is ghost. -/
def sendReport (bp : Pack) (cause : Bundle) (pos : Pos) (reason : Reason) (k : Prog) : Prog :=
  if bp.administrative || bp.source = .none then k
  else .read fun n =>
    match n.store.getBundle bp.id with
    | none => k
    | some subject =>
      .read fun n =>
        if n.agents.has subject.primary.reportTo then k
        else
          let endpoints := n.agents.eids
          .fresh fun bid =>
          .act (fun n => (n.push (mkReport n subject bid pos)).log
              (.report { pack := bp, cause, endpoints, subject, report := mkReport n subject bid pos, pos, reason })) fun n =>
            .set (fun n' => n'.sync ((Pack.ofBundle n.clock (mkReport n subject bid pos)).add .forwardPending)) k

/-- A report that is sent only if the bundle's flag `asked` and the configuration allow it: the tests in
`core/processing.rs:117-123`, `441-447`, `483-489` and `522-528`. -/
def reportIf (asked : Bool) (bp : Pack) (b : Bundle) (pos : Pos) (reason : Reason) (k : Prog) : Prog :=
  .read fun n => if asked && !b.isAdmin && n.cfg.statusReports then sendReport bp b pos reason k else k

/-- `delete`, `core/processing.rs:516-535`. `cause` is ghost. -/
def delete (bp : Pack) (reason : Reason) (cause : Cause) (k : Bool → Prog) : Prog :=
  .read fun n =>
    match n.store.getBundle bp.id with
    | none => k false
    | some b =>
      reportIf b.primary.flags.reqDeletion bp b .deleted reason <|
        .act (fun n => n.sync bp.clear cause) fun n => k (n.store.sync bp.clear).2

/-- `inspect_status_report`, `core/processing.rs:588-641`. The loop over the status information does something only at
position `DELIVERED_BUNDLE` (2), whether or not that bit is asserted. `b`, the bundle the record comes from, is ghost. -/
def inspectReport (b : Bundle) (r : AdminRecord) (k : Prog) : Prog :=
  match r with
  | .statusReport sips ref =>
    if sips.isEmpty then k
    else .read fun n =>
      if !n.store.hasItem ref then k
      else if sips.length ≠ 4 then k
      else .set (fun n => n.remove ref (.statusReport b r)) k
  | .other => k

/-- `is_administrative_record_valid`, `core/processing.rs:537-586`. -/
def adminValid (b : Bundle) (k : Bool → Prog) : Prog :=
  if !b.isAdmin then k false
  else match b.canonicals.find? fun c => c.btype = PAYLOAD_BLOCK with
    | none => k false
    | some blk =>
      match blk.data with
      | .data bytes => .read fun n =>
        match n.cfg.decode bytes with
        | some ar => inspectReport b ar (k true)
        | none => k false
      | _ => k false

/-- `contraindicated`, `core/processing.rs:509-514`. -/
def contraindicated (bp : Pack) (k : Bool → Prog) : Prog :=
  .act (fun n => n.sync (bp.add .contraindicated)) fun n => k (n.store.sync (bp.add .contraindicated)).2

/-- Delivery to the agent, `core/processing.rs:502-507` with `core/application_agent.rs:39-56`. -/
def giveToAgent (eid : EID) (b : Bundle) (k : Bool → Prog) : Prog :=
  .choose fun room =>
    .act (fun n => n.deliver eid b room) fun n =>
      match n.agents.find eid with
      | none => k true
      | some a =>
        let count := Prog.set (fun n => { n with stats := { n.stats with delivered := n.stats.delivered + 1 } }) (k true)
        match (a.push b room).2 with
        | some _ => .set (fun n => n.removeIfSingleton b) count
        | none => count

/-- The end of `local_delivery`, `core/processing.rs:500-507`. -/
def finishDelivery (bp : Pack) (b : Bundle) (k : Bool → Prog) : Prog :=
  .act (fun n => n.sync bp) fun n =>
    if !(n.store.sync bp).2 then k false else giveToAgent bp.destination b k

/-- `local_delivery` after the check of administrative records, `core/processing.rs:480-507`. -/
def deliverBundle (bp : Pack) (b : Bundle) (k : Bool → Prog) : Prog :=
  .act (fun n => n.sync (bp.add .localEndpoint)) fun n =>
    if !(n.store.sync (bp.add .localEndpoint)).2 then k false
    else .read fun n =>
      if n.isLocal bp.destination then
        reportIf b.primary.flags.reqDelivery (bp.add .localEndpoint) b .delivered .noInformation
          (finishDelivery (bp.add .localEndpoint).clear b k)
      else finishDelivery ((bp.add .localEndpoint).add .forwardPending) b k

/-- `local_delivery`, `core/processing.rs:467-508`. -/
def localDelivery (bp : Pack) (k : Bool → Prog) : Prog :=
  .read fun n =>
    match n.store.getBundle bp.id with
    | none => k false
    | some b =>
      if bp.administrative then
        adminValid b fun ok =>
          if !ok then delete bp .noInformation (.badRecord b) (fun _ => k false) else deliverBundle bp b k
      else deliverBundle bp b k

/-- Change the first block of a type (`extension_block_by_type_mut` of `bp7`). -/
def setFirst (ty : Nat) (d : BlockData) : List Block → List Block
  | [] => []
  | c :: cs => if c.btype = ty then { c with data := d } :: cs else c :: setFirst ty d cs

/-- The first block of a type (`extension_block_by_type` of `bp7`). -/
def firstBlock (ty : Nat) (b : Bundle) : Option Block := b.canonicals.find? fun c => c.btype = ty

/-- `bp7::primary::PrimaryBlock::is_lifetime_exceeded` (called in `core/processing.rs:231`). -/
def lifetimeExceeded (now : Nat) (p : Primary) : Bool :=
  if p.creationTime = 0 then false else decide ((p.creationTime + p.lifetime) % u64 ≤ now)

/-- The changes of `handle_hop_count_block`, `core/processing.rs:207-229`; the second component says that the limit is
exceeded. The count is a `u8` in `bp7`, whose increment wraps in a release build. -/
def raiseHop (b : Bundle) : Bundle × Bool :=
  match firstBlock HOP_COUNT_BLOCK b with
  | some blk =>
    match blk.data with
    | .hopCount limit count =>
      ({ b with canonicals := setFirst HOP_COUNT_BLOCK (.hopCount limit ((count + 1) % 256)) b.canonicals },
       decide ((count + 1) % 256 > limit))
    | _ => (b, false)
  | none => (b, false)

/-- `bp7::Bundle::add_canonical_block` for a block other than the payload (called in `core/processing.rs:294`): the block
gets the next free number, and the blocks are sorted by falling number. -/
def addBlock (b : Bundle) (c : Block) : Bundle :=
  let num := (b.canonicals.map Block.num).foldl max 1 + 1
  { b with canonicals := ({ c with num } :: b.canonicals).mergeSort fun x y => decide (y.num ≤ x.num) }

/-- `handle_previous_node_block`, `core/processing.rs:276-297`; `none` is the panic of line 280. -/
def setPrevious (host : EID) (b : Bundle) : Option Bundle :=
  match firstBlock PREVIOUS_NODE_BLOCK b with
  | some blk =>
    match blk.data with
    | .previousNode _ =>
      some { b with canonicals := setFirst PREVIOUS_NODE_BLOCK (.previousNode host) b.canonicals }
    | _ => none
  | none => some (addBlock b { btype := PREVIOUS_NODE_BLOCK, num := 0, data := .previousNode host })

/-- `update_bundle_age`, `core/processing.rs:244-264`; `received` is the reception time in the metadata, if there are
any. The `u64` operations wrap in a release build. -/
def raiseAge (now : Nat) (received : Option Nat) (b : Bundle) : Bundle × Option Nat :=
  match firstBlock BUNDLE_AGE_BLOCK b, received with
  | some blk, some t =>
    match blk.data with
    | .bundleAge age =>
      let newAge := (age + (now + u64 - t) % u64) % u64
      if newAge ≠ 0 then
        ({ b with canonicals := setFirst BUNDLE_AGE_BLOCK (.bundleAge newAge) b.canonicals }, some newAge)
      else (b, none)
    | _ => (b, none)
  | _, _ => (b, none)

/-- The test of `handle_bundle_age_block`, `core/processing.rs:267`: the age in milliseconds is read as microseconds. -/
def tooOld (b : Bundle) (age : Option Nat) : Bool :=
  match age with
  | some a => decide (a ≥ b.primary.lifetime * 1000)
  | none => false

/-- One transfer task, `core/processing.rs:353-422`. -/
def transferTask (bid : String) (t : Transfer) : Prog :=
  .set (fun n => n.log (.sending t)) <|
  .choose fun ok =>
  .set (fun n => n.log (.outcome t ok)) <|
  if !ok then
    .set (fun n => { n with stats := { n.stats with failed := n.stats.failed + 1 } }) <|
    match t.to.nextHop.node with
    | none => .set (fun n => n.endTask t.group) .panic
    | some node =>
      .set (fun n => n.log (.note (.sendingFailed bid node))) <|
      .act (fun n => { n with peers := (n.peers.failCount node).1 }) fun n =>
      .set (fun n' => { n' with peers := Peers.failRemove n'.peers (n.peers.failCount node).2 }) <|
      .set (fun n => n.endTask t.group) (.done true)
  else
    .set (fun n => { n with stats := { n.stats with outgoing := n.stats.outgoing + 1 } }) <|
    .set (fun n => n.setSent t.group) <|
    match t.to.nextHop.node with
    | none => .set (fun n => n.endTask t.group) .panic
    | some node =>
      .set (fun n => n.log (.note (.sendingSucceeded bid node))) <|
      .set (fun n => n.endTask t.group) (.done true)

/-- The loop starting the transfers, `core/processing.rs:348-424`. -/
def spawnTransfers (bid : String) (mk : Sender → Transfer) : List Sender → Prog → Prog
  | [], k => k
  | s :: ss, k => .spawn (transferTask bid (mk s)) (spawnTransfers bid mk ss k)

/-- The end of `forward`, `core/processing.rs:440-464`. -/
def afterTransfers (bp : Pack) (b : Bundle) (a : Answer) (g : Nat) (k : Bool → Prog) : Prog :=
  .read fun n =>
    if n.isSent g then
      reportIf b.primary.flags.reqForward bp b .forwarded .noInformation <|
        if a.delete then .act (fun n => n.remove bp.id (.router bp a)) fun n => k (n.store.remove bp.id).2
        else if b.isAdmin then adminValid b fun _ => contraindicated bp k
        else k true
    else k true

/-- The transfers of `forward`, `core/processing.rs:346-427`. -/
def sendAll (bp : Pack) (b out : Bundle) (a : Answer) (checkedAt agedAt : Nat) (receivedAt : Option Nat)
    (k : Bool → Prog) : Prog :=
  .act (fun n => n.newGroup bp b a) fun n =>
    let g := n.groups.length
    spawnTransfers bp.id (fun to => { group := g, stored := b, out, to, checkedAt, agedAt, receivedAt }) a.clas <|
      .wait (fun n => n.allEnded g) <| afterTransfers bp out a g k

/-- The bundle is prepared for sending, `core/processing.rs:326-344`. -/
def prepare (bp : Pack) (a : Answer) (k : Bool → Prog) : Prog :=
  .read fun n =>
    match n.store.getBundle bp.id with
    | none => k false
    | some b =>
      .read fun n =>
        if lifetimeExceeded n.dtnNow b.primary then
          let now := n.dtnNow
          .read fun n => delete (Pack.ofBundle n.clock b) .lifetimeExpired (.lifetime b now) fun _ => k false
        else
          let checkedAt := n.clock
          let b1 := (raiseHop b).1
          if (raiseHop b).2 then
            .read fun n => delete (Pack.ofBundle n.clock b1) .hopLimitExceeded (.hops b) fun _ => k false
          else .read fun n =>
            match setPrevious n.cfg.hostEid b1 with
            | none => .panic
            | some b2 =>
              .read fun n =>
                let received := (n.store.getMetadata b.id).map Pack.receivedTime
                let b3 := (raiseAge n.clock received b2).1
                let age := (raiseAge n.clock received b2).2
                if tooOld b3 age then
                  .read fun n => delete (Pack.ofBundle n.clock b3) .lifetimeExpired (.age b age) fun _ => k false
                else sendAll bp b b3 a checkedAt n.clock received k

/-- `forward`, `core/processing.rs:299-465`. -/
def forward (bp : Pack) (k : Bool → Prog) : Prog :=
  let bp := (bp.add .forwardPending).del .dispatchPending
  .act (fun n => n.sync bp) fun n =>
    if !(n.store.sync bp).2 then k false
    else .route bp fun answer =>
      match answer with
      | none => k false
      | some a =>
        if a.clas.isEmpty then
          if a.delete then .act (fun n => n.remove bp.id (.router bp a)) fun n => k (n.store.remove bp.id).2
          else k true
        else prepare bp a k

/-- The end of `dispatch`, `core/processing.rs:195-204`. -/
def dispatchRemote (bp : Pack) (k : Bool → Prog) : Prog :=
  .read fun n => if !n.isLocal bp.destination then .spawn (forward bp .done) (k true) else k true

/-- `dispatch`, `core/processing.rs:185-205`. -/
def dispatch (bp : Pack) (k : Bool → Prog) : Prog :=
  .read fun n =>
    match n.store.getBundle bp.id with
    | none => .panic
    | some b =>
      .set (fun n => n.log (.note (.incomingBundle b))) <|
      .read fun n =>
        if n.agents.has bp.destination then
          localDelivery bp fun ok => if !ok then k false else dispatchRemote bp k
        else dispatchRemote bp k

/-- `transmit`, `core/processing.rs:75-94`. -/
def transmit (bp : Pack) (k : Bool → Prog) : Prog :=
  let bp := bp.add .dispatchPending
  .act (fun n => n.sync bp) fun n =>
    if !(n.store.sync bp).2 then k false
    else .read fun n =>
      if bp.source ≠ .none ∧ n.agents.find bp.source = none then
        delete bp .noInformation (.foreign bp n.agents.eids) k
      else dispatch bp k

/-- The spawned task of `send_bundle`, `core/processing.rs:27-37`. -/
def sendBundle (b : Bundle) : Prog :=
  .set (fun n => n.push b) <| .read fun n => transmit (Pack.ofBundle n.clock b) .done

/-- The removal of the marked blocks, `core/processing.rs:171-174`; `none` is the panic of `Vec::remove`. -/
def removeBlocks : List Nat → List Block → Option (List Block)
  | [], cs => some cs
  | i :: is, cs => if i < cs.length then removeBlocks is (cs.eraseIdx i) else none

/-- The end of `receive`, `core/processing.rs:171-181`. -/
def finishReceive (b : Bundle) (bp : Pack) (marked : List Nat) (k : Bool → Prog) : Prog :=
  match removeBlocks marked b.canonicals with
  | none => .panic
  | some cs =>
    .set (fun n => n.push { b with canonicals := cs }) <|
      dispatch bp fun _ => k true

/-- The loop over the blocks, `core/processing.rs:126-170`: `index` counts the unknown blocks only. -/
def scanBlocks (b : Bundle) (bp : Pack) (k : Bool → Prog) : List Block → Nat → List Nat → Prog
  | [], _, marked => finishReceive b bp marked k
  | c :: cs, index, marked =>
    if c.btype < 11 then scanBlocks b bp k cs index marked
    else
      let next := scanBlocks b bp k cs (index + 1) (if c.flags.remove then marked ++ [index] else marked)
      let continue_ := if c.flags.deleteBundle then delete bp .blockUnintelligible (.block b c) k else next
      if c.flags.report then
        .read fun n =>
          if n.cfg.statusReports then sendReport bp b .received .blockUnintelligible continue_ else continue_
      else continue_

/-- `receive`, `core/processing.rs:97-182`. -/
def receive (b : Bundle) (k : Bool → Prog) : Prog :=
  .act (fun n => n.addIfUnknown b) fun n =>
    if (n.store.addIfUnknown n.clock b).2 then
      .set (fun n => { n with stats := { n.stats with incoming := n.stats.incoming + 1 } }) <|
      .read fun n =>
        let bp := (Pack.ofBundle n.clock b).add .dispatchPending
        .act (fun n => n.sync bp) fun n =>
          if !(n.store.sync bp).2 then k false
          else reportIf b.primary.flags.reqReception bp b .received .noInformation <|
            scanBlocks b bp k b.canonicals 0 []
    else
      .set (fun n => { n with stats := { n.stats with dups := n.stats.dups + 1 } }) (k true)

/-- The loop of `store_delete_expired`, `lib.rs:224-231`. -/
def sweep : List Pack → Prog → Prog
  | [], k => k
  | m :: ms, k => .read fun n =>
    if m.hasExpired n.dtnNow then
      let now := n.dtnNow
      .set (fun n => n.remove m.id (.expired m now)) (sweep ms k)
    else sweep ms k

/-- The metadata of the listed bundles, `core/mod.rs:158-162`, one lock acquisition each. -/
def collect : List String → List Pack → (List Pack → Prog) → Prog
  | [], acc, k => k acc
  | bid :: bids, acc, k => .read fun n =>
    match n.store.getMetadata bid with
    | some bp => collect bids (if bp.has .deleted then acc else acc ++ [bp]) k
    | none => collect bids acc k

/-- `forward` for each of the selected bundles, `core/mod.rs:169-195`: all at once, or one after the other. The janitor
waits for parallel calls at the end, which is left out. -/
def forwardAll (parallel : Bool) : List Pack → Prog
  | [] => .done true
  | bp :: bps =>
    if parallel then .spawn (forward bp .done) (forwardAll parallel bps)
    else forward bp fun _ => forwardAll parallel bps

/-- `process_bundles`, `core/mod.rs:144-203`. -/
def processBundles : Prog :=
  .read fun n =>
    sweep (n.store.packs.filter fun bp => !bp.has .deleted) <|
    .read fun n =>
      if !n.claActive then .done true
      else .read fun n =>
        collect n.store.forwarding [] fun packs =>
          .read fun n => forwardAll n.cfg.parallel
            (packs.mergeSort fun a b => decide (a.creationTime ≤ b.creationTime))

/-- `pop` on the agent of an endpoint, `httpd.rs:622-634` with `core/application_agent.rs:57-63`. -/
def popBundle (eid : EID) : Prog :=
  .act (fun n => n.popAgent eid) fun n =>
    match n.agents.find eid with
    | none => .done false
    | some a =>
      match a.pop.2 with
      | none => .done true
      | some b => .set (fun n => n.removeIfSingleton b) (.done true)

/-- The task that handles a call. -/
def Call.prog : Call → Prog
  | .receive b => Proc.receive b .done
  | .send b => sendBundle b
  | .remove bid => .set (fun n => n.remove bid .request) (.done true)
  | .pop eid => popBundle eid
  | .janitor => processBundles

/-- Changes of the node made elsewhere: the clock runs, peers come and go (`lib.rs:118-143`, `core/mod.rs:120-141`),
convergence layers too, endpoints are registered, unregistered and subscribed to (`httpd.rs:550-605`, `ws.rs`). -/
inductive Outside : Node → Node → Prop where
  | clock (n : Node) (t : Nat) : Outside n { n with clock := t }
  | peers (n : Node) (ps : Peers) : Outside n { n with peers := ps }
  | cla (n : Node) (b : Bool) : Outside n { n with claActive := b }
  | register (n : Node) (eid : EID) : Outside n { n with agents := Registry.register n.agents (AppAgent.with eid) }
  | unregister (n : Node) (eid : EID) : Outside n { n with agents := Registry.unregister n.agents eid }
  | subscribe (n : Node) (eid : EID) (ch : Nat) :
      Outside n { n with agents := Registry.modify (fun a => a.setDelivery ch) eid n.agents }
  | unsubscribe (n : Node) (eid : EID) :
      Outside n { n with agents := Registry.modify AppAgent.clearDelivery eid n.agents }

/-- A node that has just been started. -/
def Node.start (cfg : Config) (clock : Nat) : Node := { cfg, store := .new, clock }

/-- A node with its running tasks. -/
structure Sys where
  node : Node
  pool : List Prog

/-- One step of one task: the new state and the tasks that replace it. -/
inductive TaskStep : Node → Prog → Node → List Prog → Prop where
  | done (n : Node) (ok : Bool) : TaskStep n (.done ok) n []
  | panic (n : Node) : TaskStep n .panic n []
  | act (n : Node) (f : Node → Node) (k : Node → Prog) : TaskStep n (.act f k) (f n) [k n]
  | route (n : Node) (bp : Pack) (k : Option Answer → Prog) (a : Option Answer) :
      TaskStep n (.route bp k) (n.log (.asked bp a)) [k a]
  | choose (n : Node) (k : Bool → Prog) (b : Bool) : TaskStep n (.choose k) n [k b]
  | fresh (n : Node) (k : String → Prog) (s : String) : TaskStep n (.fresh k) n [k s]
  | spawn (n : Node) (t k : Prog) : TaskStep n (.spawn t k) n [k, t]
  | wait (n : Node) (c : Node → Bool) (k : Prog) (h : c n = true) : TaskStep n (.wait c k) n [k]

/-- What the outside world may do. -/
structure World where
  call : Call → Prop
  change : Node → Node → Prop

/-- Everything. -/
def World.any : World := { call := fun _ => True, change := Outside }

/-- Nothing but letting the clock run: the tasks under study and the tasks they start have the node for themselves. -/
def World.quiet : World :=
  { call := fun _ => False, change := fun n m => ∃ t, n.clock ≤ t ∧ m = { n with clock := t } }

/-- One step of the system: of any of the tasks, in any order. -/
inductive Step (w : World) : Sys → Sys → Prop where
  | task (l r : List Prog) (p : Prog) (n n' : Node) (ps : List Prog) (h : TaskStep n p n' ps) :
      Step w ⟨n, l ++ p :: r⟩ ⟨n', l ++ ps ++ r⟩
  | call (n : Node) (pool : List Prog) (c : Call) (h : w.call c) :
      Step w ⟨n, pool⟩ ⟨n.log (.called c), pool ++ [c.prog]⟩
  | change (n n' : Node) (pool : List Prog) (h : w.change n n') : Step w ⟨n, pool⟩ ⟨n', pool⟩

/-- The executions. -/
inductive Reaches (w : World) : Sys → Sys → Prop where
  | refl (s : Sys) : Reaches w s s
  | step {s t u : Sys} : Reaches w s t → Step w t u → Reaches w s u

end Dtn.Proc
