import Verif.Model.Processing
import Verif.Spec.Bundle
/-! Specification of bundle processing, in terms of the observable events of a node. -/

namespace Dtn.Spec
open Proc

/-- Is this block unknown to the node (`core/processing.rs:129`)? -/
def UnknownBlock (c : Block) : Prop := 11 ≤ c.btype

/-- The bundle is marked as an administrative record and its payload can be read as this one. -/
def Carries (cfg : Config) (b : Bundle) (r : AdminRecord) : Prop :=
  b.isAdmin = true ∧ ∃ c, b.canonicals.find? (fun c => c.btype = PAYLOAD_BLOCK) = some c ∧
    ∃ bytes, c.data = .data bytes ∧ cfg.decode bytes = some r

/-- Does the bundle contain an administrative record that can be read? -/
def HasRecord (cfg : Config) (b : Bundle) : Prop := ∃ r, Carries cfg b r

/-- The bundle asks, for itself or in one of its blocks, for a report of this kind. -/
def AsksFor (b : Bundle) : Pos → Reason → Prop
  | .received, .blockUnintelligible => ∃ c ∈ b.canonicals, UnknownBlock c ∧ c.flags.report = true
  | .received, _ => b.primary.flags.reqReception = true
  | .forwarded, _ => b.primary.flags.reqForward = true
  | .delivered, _ => b.primary.flags.reqDelivery = true
  | .deleted, _ => b.primary.flags.reqDeletion = true

/-- A status report the node may create: reports are enabled, the bundle is not itself an administrative record, its
source is not anonymous, no local endpoint is the recipient, and the bundle asked for it. It is an administrative record
from this node to the report-to address. -/
structure Permitted (cfg : Config) (r : Report) : Prop where
  enabled : cfg.statusReports = true
  notAdmin : r.pack.administrative = false
  causeNotAdmin : r.reason ≠ .blockUnintelligible ∨ r.pos ≠ .received → r.cause.isAdmin = false
  notAnonymous : r.pack.source ≠ .none
  notLocal : r.subject.primary.reportTo ∉ r.endpoints
  asked : AsksFor r.cause r.pos r.reason
  sameCause : r.cause.id = r.pack.id
  sameSubject : r.subject.id = r.pack.id
  toReportTo : r.report.primary.destination = r.subject.primary.reportTo
  fromHere : r.report.primary.source = cfg.hostEid
  isRecord : r.report.isAdmin = true

/-- The lifetime in the primary block is over, in unbounded arithmetic. A bundle without creation time does not expire
this way. -/
def LifetimeOver (now : Nat) (p : Primary) : Prop := p.creationTime ≠ 0 ∧ p.creationTime + p.lifetime ≤ now

/-- `xs` is `ys` except that some blocks of the given types changed their contents. -/
def SameBut (types : List Nat) : List Block → List Block → Prop
  | [], [] => True
  | x :: xs, y :: ys => (x = y ∨ (x.btype ∈ types ∧ x.btype = y.btype ∧ x.num = y.num ∧ x.flags = y.flags)) ∧
      SameBut types xs ys
  | _, _ => False

/-- The bundle has at most one block of this type, as the bundle protocol demands of the blocks changed on the way. -/
def AtMostOne (ty : Nat) (b : Bundle) : Prop := b.canonicals.countP (fun c => c.btype = ty) ≤ 1

/-- `out` is what a node `host` may pass on for `stored`: the same primary block, and the same other blocks up to the
contents of hop count, age and previous node; a previous node block is added, under a number not in use, if there was
none. -/
def PassedOn (host : EID) (out stored : Bundle) : Prop :=
  out.primary = stored.primary ∧
  (((∃ c ∈ stored.canonicals, c.btype = PREVIOUS_NODE_BLOCK) ∧
      SameBut [PREVIOUS_NODE_BLOCK, HOP_COUNT_BLOCK, BUNDLE_AGE_BLOCK] out.canonicals stored.canonicals) ∨
   ((∀ c ∈ stored.canonicals, c.btype ≠ PREVIOUS_NODE_BLOCK) ∧
      ∃ blk rest, out.canonicals.Perm (blk :: rest) ∧
        SameBut [HOP_COUNT_BLOCK, BUNDLE_AGE_BLOCK] rest stored.canonicals ∧
        blk.btype = PREVIOUS_NODE_BLOCK ∧ blk.data = .previousNode host ∧ ∀ c ∈ stored.canonicals, c.num ≠ blk.num))

/-- A reason that justifies taking a bundle out of the store, given what happened before. Sums are those of 64 bit
numbers. -/
def Justified (evs : List Event) (cfg : Config) (bid : String) : Cause → Prop
  | .request => True
  | .given b => b.id = bid ∧ b.primary.destination.isNonSingleton = false ∧
      ((∃ e ch, Event.delivered e b (some ch) ∈ evs) ∨ ∃ e, Event.popped e b ∈ evs)
  | .expired p now => p.id = bid ∧ p.lifetime ≠ 0 ∧ (p.creationTime + p.lifetime) % 2 ^ 64 < now
  | .router bp a => bp.id = bid ∧ a.delete = true ∧ Event.asked bp (some a) ∈ evs ∧
      (a.clas = [] ∨ ∃ t, Event.outcome t true ∈ evs ∧ t.stored.id = bid ∧ t.to ∈ a.clas)
  | .statusReport b r => Carries cfg b r ∧ ∃ status, r = .statusReport status bid ∧ status.length = 4
  | .foreign bp eids => bp.id = bid ∧ bp.source ≠ .none ∧ bp.source ∉ eids
  | .block b c => b.id = bid ∧ c ∈ b.canonicals ∧ UnknownBlock c ∧ c.flags.deleteBundle = true
  | .lifetime b now => b.id = bid ∧ b.primary.creationTime ≠ 0 ∧
      (b.primary.creationTime + b.primary.lifetime) % 2 ^ 64 ≤ now
  | .hops b => b.id = bid ∧ ∃ l k, hopCount b = some (l, k) ∧ l < (k + 1) % 256
  | .age b age => b.id = bid ∧ ∃ a, age = some a ∧ b.primary.lifetime * 1000 ≤ a
  | .badRecord b => b.id = bid ∧ ¬ HasRecord cfg b

/-- What happened between two states of the same node. -/
def newEvents (n m : Node) : List Event := m.events.drop n.events.length

/-- The blocks that stay when the unknown ones that ask for removal are removed. -/
def keptBlocks (cs : List Block) : List Block := cs.filter fun c => !(decide (11 ≤ c.btype) && c.flags.remove)

/-- No unknown block asks to be removed, or only one, and all blocks before it are unknown too. -/
def InFront (cs : List Block) : Prop :=
  (∀ c ∈ cs, UnknownBlock c → c.flags.remove = false) ∨
  ∃ pre c post, cs = pre ++ c :: post ∧ (∀ x ∈ pre, UnknownBlock x ∧ x.flags.remove = false) ∧
    UnknownBlock c ∧ ∀ x ∈ post, UnknownBlock x → x.flags.remove = false

/-- The call makes the node take on the bundle: it is received, is not in the store and has no unknown block that asks for
its removal or that of the bundle, or it is submitted with an anonymous or registered source. -/
def TakesOn (n : Node) (b : Bundle) (c : Call) : Prop :=
  (c = .receive b ∧ n.store.getBundle b.id = none ∧
    ∀ x ∈ b.canonicals, UnknownBlock x → x.flags.remove = false ∧ x.flags.deleteBundle = false) ∨
  (c = .send b ∧ (b.primary.source = .none ∨ b.primary.source ∈ n.agents.eids))

/-! Kinds of events, for counting. -/

def isReceive : Event → Bool
  | .called (.receive _) => true
  | _ => false

def isAccepted : Event → Bool
  | .accepted _ => true
  | _ => false

def isDuplicate : Event → Bool
  | .duplicate _ => true
  | _ => false

def isSending : Event → Bool
  | .sending _ => true
  | _ => false

def isOutcome (ok : Bool) : Event → Bool
  | .outcome _ o => o == ok
  | _ => false

def isDelivery : Event → Bool
  | .delivered .. => true
  | _ => false

/-- A transfer of bundle `bid` to `node` ended like this. -/
def isOutcomeFor (ok : Bool) (bid node : String) : Event → Bool
  | .outcome t o => o == ok && decide (t.stored.id = bid) && decide (t.to.nextHop.node = some node)
  | _ => false

/-- The router was told that sending bundle `bid` to `node` succeeded or failed. -/
def isTold (ok : Bool) (bid node : String) : Event → Bool
  | .note (.sendingSucceeded b n) => ok && decide (b = bid) && decide (n = node)
  | .note (.sendingFailed b n) => !ok && decide (b = bid) && decide (n = node)
  | _ => false

/-- The bundle was received as a new one. -/
def isAcceptedId (bid : String) : Event → Bool
  | .accepted b => decide (b.id = bid)
  | _ => false

/-- A client sent the bundle. -/
def isSentId (bid : String) : Event → Bool
  | .called (.send b) => decide (b.id = bid)
  | _ => false

/-- The router was told that the bundle has come in. -/
def isIncomingId (bid : String) : Event → Bool
  | .note (.incomingBundle b) => decide (b.id = bid)
  | _ => false

/-- The router was asked about the bundle, and answered. -/
def isAskedId (bid : String) : Event → Bool
  | .asked bp (some _) => decide (bp.id = bid)
  | _ => false

/-- The bundle was given to an agent. -/
def isDeliveryId (bid : String) : Event → Bool
  | .delivered _ b _ => decide (b.id = bid)
  | _ => false

/-- A status report of this kind was made about the bundle. -/
def isReport (pos : Pos) (bid : String) : Event → Bool
  | .report r => decide (r.pos = pos) && decide (r.pack.id = bid)
  | _ => false

/-- A reception report was made about the bundle because of an unknown block, or not. -/
def isReception (unknown : Bool) (bid : String) : Event → Bool
  | .report r => decide (r.pos = .received) && decide (r.pack.id = bid) &&
      (decide (r.reason = .blockUnintelligible) == unknown)
  | _ => false

/-- A copy of the bundle was handed to a convergence layer for this recipient. -/
def isSendingTo (bid : String) (s : Sender) : Event → Bool
  | .sending t => decide (t.stored.id = bid) && decide (t.to = s)
  | _ => false

/-- How often the router named a recipient for the bundle in one answer. -/
def named (bid : String) (s : Sender) : Event → Nat
  | .asked bp (some a) => if bp.id = bid then a.clas.count s else 0
  | _ => 0

/-- The number of unknown blocks that ask for a report. -/
def reporting (b : Bundle) : Nat := b.canonicals.countP fun c => decide (11 ≤ c.btype) && c.flags.report

/-- The same for a bundle that was received as a new one. -/
def reportingOf (bid : String) : Event → Nat
  | .accepted b => if b.id = bid then reporting b else 0
  | _ => 0

/-- The ids of the bundles the router was asked about. -/
def askedIds (es : List Event) : List String :=
  es.filterMap fun
    | .asked bp _ => some bp.id
    | _ => none

/-- The bundle was removed: its contents are gone and its metadata say so. -/
def Removed (n : Node) (bid : String) : Prop :=
  n.store.getBundle bid = none ∧ ∃ p, n.store.getMetadata bid = some p ∧ p.has .deleted = true

/-- Something new with this id comes to the node: it is received or sent by a client, or a report gets the id. -/
def Brings (bid : String) : Event → Prop
  | .called (.receive b) => b.id = bid
  | .called (.send b) => b.id = bid
  | .report r => r.report.id = bid
  | _ => False

/-- A bundle with this id is taken up: the router is told or asked about it, it is given to an application or fetched by one, or it is
handed to a convergence layer. -/
def TakenUp (bid : String) : Event → Prop
  | .note (.incomingBundle b) => b.id = bid
  | .asked bp _ => bp.id = bid
  | .delivered _ b _ => b.id = bid
  | .popped _ b => b.id = bid
  | .sending t => t.out.id = bid
  | _ => False

end Dtn.Spec
