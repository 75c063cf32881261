import Verif.Model.Routing.Epidemic
/-! Model of `routing/external.rs` and `routing/erouting/processing.rs`: routing decisions taken by a program connected
over a web socket. Every step is what one task does between two lock acquisitions or suspension points. -/

namespace Dtn.Routing.External

/-- The constraints, `core/bundlepack.rs:13-34`. -/
def allConstraints : List Constraint :=
  [.dispatchPending, .forwardPending, .reassemblyPending, .contraindicated, .localEndpoint, .deleted]

/-- `derive(Debug)` for `Constraint`, `core/bundlepack.rs:13`. -/
def constraintName : Constraint → List Char
  | .dispatchPending => ['D', 'i', 's', 'p', 'a', 't', 'c', 'h', 'P', 'e', 'n', 'd', 'i', 'n', 'g']
  | .forwardPending => ['F', 'o', 'r', 'w', 'a', 'r', 'd', 'P', 'e', 'n', 'd', 'i', 'n', 'g']
  | .reassemblyPending => ['R', 'e', 'a', 's', 's', 'e', 'm', 'b', 'l', 'y', 'P', 'e', 'n', 'd', 'i', 'n', 'g']
  | .contraindicated => ['C', 'o', 'n', 't', 'r', 'a', 'i', 'n', 'd', 'i', 'c', 'a', 't', 'e', 'd']
  | .localEndpoint => ['L', 'o', 'c', 'a', 'l', 'E', 'n', 'd', 'p', 'o', 'i', 'n', 't']
  | .deleted => ['D', 'e', 'l', 'e', 't', 'e', 'd']

/-- A bundle pack in memory together with the order in which its `HashSet<Constraint>` iterates
(`core/bundlepack.rs:56`). The order is fixed for one set and its clones, but a set built anew from JSON has new random
hash keys and so may iterate in any order. -/
structure Held where
  pack : Pack
  order : List Constraint
deriving DecidableEq, Repr

/-- The order lists every constraint of the pack once. -/
def Held.valid (h : Held) : Bool :=
  decide h.order.Nodup && allConstraints.all fun c => decide (c ∈ h.order) == h.pack.has c

/-- The elements of a set as `{:?}` prints them: separated by `", "`. -/
def printConstraints : List Constraint → List Char
  | [] => []
  | [c] => constraintName c
  | c :: cs => constraintName c ++ [',', ' '] ++ printConstraints cs

/-- `Display for BundlePack`, `core/bundlepack.rs:59-63`: `"{} {:?}"` of the id and the constraints. -/
def Held.print (h : Held) : String :=
  String.ofList (h.pack.id.toList ++ [' ', '{'] ++ printConstraints h.order ++ ['}'])

/-- `Sender`, `routing/erouting/mod.rs:85-92`. -/
structure Hop where
  remote : PeerAddress
  port : Option Nat
  agent : String
  nextHop : EID
deriving DecidableEq, Repr

/-- `ResponseSenderForBundle`, `routing/erouting/mod.rs:105-110`. -/
structure Response where
  bp : Held
  clas : List Hop
  delete : Bool
deriving DecidableEq, Repr

/-- Packets sent to the router, `routing/erouting/mod.rs:20-51`. The contents of the state and notification packets are
left out. -/
inductive Packet where
  | request (clas : List String) (bp : Pack)
  | timeout (bp : Pack)
  | notification (n : Notification)
  | peerState
  | serviceState
deriving DecidableEq, Repr

/-- The one-shot channel of a request (`routing/erouting/processing.rs:210`): nothing sent yet, the response with the
given number, or one end dropped. -/
inductive Slot where
  | empty
  | value (k : Nat)
  | closed
deriving DecidableEq, Repr

/-- Where a request is in `sender_for_bundle`, `routing/erouting/processing.rs:202-245`: before line 205, before 211,
before 218, at 220-224, before 226, before 228, before 240, before 243 and after the end. -/
inductive PC where
  | start
  | checked
  | registered
  | waiting
  | got (k : Nat)
  | unregistered (k : Nat)
  | lost
  | reported
  | done
deriving DecidableEq, Repr

/-- One call of `sender_for_bundle`. -/
structure Req where
  bp : Held
  pc : PC := .start
  slot : Slot := .empty
deriving DecidableEq, Repr

/-- Where a connection is in `handle_connection`, `routing/erouting/processing.rs:50-138`: before line 71, before 74,
before 75, reading messages, refused (lines 54-68), ended (line 137), stopped by a panic. -/
inductive Phase where
  | accepted
  | installed
  | greeted
  | reading
  | refused
  | ended
  | crashed
deriving DecidableEq, Repr

/-- One web socket connection: the channel of line 51 and what was written to the socket. -/
structure Conn where
  phase : Phase
  queue : List Packet := []
  sent : List Packet := []
deriving DecidableEq, Repr

/-- The global state: `CONNECTION` and `RESPONSES` (`routing/erouting/processing.rs:29-34`; a channel is named by the
request that waits on it), all connections and requests so far, the service list and whether the command loop of
`routing/external.rs:22-42` runs. `inbox` logs the responses read and `answers` the results returned. -/
structure State where
  connection : Option Nat := none
  responses : AList String Nat := []
  conns : List Conn := []
  reqs : List Req := []
  services : AList Nat String := []
  alive : Bool := true
  inbox : List Response := []
  answers : List (Nat × Answer) := []
deriving DecidableEq, Repr

/-- `(vec![], false)`. -/
def nothing : Answer := { clas := [], delete := false }

/-- `unpack_sender_for_bundle`, `routing/erouting/processing.rs:170-198`. Simplification: the running layers are read
once, not once per entry. -/
def unpack (running : List Cla) (r : Response) : Answer :=
  { clas := r.clas.filterMap fun h =>
      (running.find? fun c => h.agent = c.name).map fun c =>
        { tx := c, dest := h.remote.print ++ ":" ++ toString (h.port.getD c.port), claName := c.name,
          nextHop := h.nextHop }
    delete := r.delete }

/-- `send_packet`, `routing/erouting/processing.rs:145-153`: a packet for a full channel (capacity 100, line 51) is
dropped. -/
def State.send (s : State) (p : Packet) : State :=
  match s.connection with
  | none => s
  | some c => { s with conns := s.conns.modify c fun k => if k.queue.length < 100 then { k with queue := k.queue ++ [p] } else k }

/-- Drop the sending end of a request's channel. -/
def Req.hangUp (r : Req) : Req := if r.slot = .empty then { r with slot := .closed } else r

/-- `remove_response_channel`, `routing/erouting/processing.rs:161-163`. -/
def State.unregister (s : State) (key : String) : State :=
  match AList.get? s.responses key with
  | none => s
  | some j => { s with responses := AList.erase s.responses key, reqs := s.reqs.modify j Req.hangUp }

/-- `create_response_channel`, `routing/erouting/processing.rs:165-167`: inserting drops the channel stored before. -/
def State.register (s : State) (key : String) (i : Nat) : State :=
  let s := s.unregister key
  { s with responses := AList.insert s.responses key i }

/-- Move request `i` to another place. -/
def State.goto (s : State) (i : Nat) (pc : PC) : State :=
  { s with reqs := s.reqs.modify i fun r => { r with pc := pc } }

/-- Return from `sender_for_bundle`. -/
def State.answer (s : State) (i : Nat) (a : Answer) : State :=
  { s.goto i .done with answers := s.answers ++ [(i, a)] }

/-- What can happen. `run` carries the running convergence layers, `notify` the peer stored for the node, if any. -/
inductive Ev where
  | ask (bp : Held)
  | run (i : Nat) (running : List Cla)
  | timer (i : Nat)
  | notify (n : Notification) (peer : Option Peer)
  | shutdown
  | connect
  | proceed (c : Nat)
  | response (c : Nat) (r : Response)
  | serviceAdd (c : Nat) (tag : Nat) (service : String)
  | text (c : Nat)
  | binary (c : Nat)
  | close (c : Nat)
  | transfer (c : Nat)
deriving DecidableEq, Repr

/-- `sender_for_bundle`, `routing/erouting/processing.rs:202-245`, for request `i` from where it is to the next
suspension or lock. `none`: it cannot run now. -/
def State.runReq (s : State) (i : Nat) (running : List Cla) : Option State :=
  match s.reqs[i]? with
  | none => none
  | some r =>
    match r.pc with
    | .start => if s.connection.isNone then some (s.answer i nothing) else some (s.goto i .checked)
    | .checked => some ((s.register r.bp.print i).goto i .registered)
    | .registered => some ((s.send (.request (running.map Cla.name) r.bp.pack)).goto i .waiting)
    | .waiting =>
      match r.slot with
      | .empty => none
      | .value k => some (s.goto i (.got k))
      | .closed => some (s.goto i .lost)
    | .got k => some ((s.unregister r.bp.print).goto i (.unregistered k))
    | .unregistered k =>
      match s.inbox[k]? with
      | none => none
      | some p => if p.bp.print ≠ r.bp.print then some (s.answer i nothing) else some (s.answer i (unpack running p))
    | .lost => some ((s.send (.timeout r.bp.pack)).goto i .reported)
    | .reported => some ((s.unregister r.bp.print).answer i nothing)
    | .done => none

/-- The timer of `routing/erouting/processing.rs:220-224`. A response that is already there is taken; otherwise the
receiving end of the channel is dropped. -/
def State.runTimer (s : State) (i : Nat) : Option State :=
  match s.reqs[i]? with
  | none => none
  | some r =>
    if r.pc = .waiting then
      match r.slot with
      | .empty => some { s with reqs := s.reqs.modify i fun r => { r with pc := .lost, slot := .closed } }
      | .value k => some (s.goto i (.got k))
      | .closed => some (s.goto i .lost)
    else none

/-- `notify`, `routing/erouting/processing.rs:157-159` with `From<RoutingNotifcation> for Packet`,
`routing/erouting/mod.rs:53-82`. It runs in the command loop, which ends when an `unwrap` fails. -/
def State.runNotify (s : State) (n : Notification) (peer : Option Peer) : State :=
  if !s.alive then s
  else
    match n with
    | .encounteredPeer e => if e.node.isNone || peer.isNone then { s with alive := false } else s.send (.notification n)
    | .droppedPeer e => if e.node.isNone then { s with alive := false } else s.send (.notification n)
    | _ => s.send (.notification n)

/-- Is connection `c` reading messages? -/
def State.reads (s : State) (c : Nat) : Bool := ((s.conns[c]?).map Conn.phase) = some .reading

/-- Set the phase of connection `c`. -/
def State.setPhase (s : State) (c : Nat) (p : Phase) : State :=
  { s with conns := s.conns.modify c fun k => { k with phase := p } }

/-- A response read from the socket, `routing/erouting/processing.rs:89-106`. -/
def State.takeResponse (s : State) (r : Response) : State :=
  let k := s.inbox.length
  let s := { s with inbox := s.inbox ++ [r] }
  match AList.get? s.responses r.bp.print with
  | none => s
  | some j =>
    { s with
      responses := AList.erase s.responses r.bp.print
      reqs := s.reqs.modify j fun q => if q.slot = .empty then { q with slot := .value k } else q }

/-- `handle_connection` between accepting and reading, `routing/erouting/processing.rs:71-75`. -/
def State.proceed (s : State) (c : Nat) : Option State :=
  match (s.conns[c]?).map Conn.phase with
  | some .accepted => some { s.setPhase c .installed with connection := some c }
  | some .installed => some ((s.send .peerState).setPhase c .greeted)
  | some .greeted => some ((s.send .serviceState).setPhase c .reading)
  | _ => none

/-- One step. `none`: it cannot happen in this state. -/
def step (s : State) : Ev → Option State
  -- `routing/external.rs:25-29`: each request gets its own task
  | .ask bp =>
    if bp.valid then if s.alive then some { s with reqs := s.reqs ++ [{ bp }] } else some s
    else none
  | .run i running => s.runReq i running
  | .timer i => s.runTimer i
  | .notify n peer => some (s.runNotify n peer)
  -- `routing/external.rs:30-32`
  | .shutdown => some { s with alive := false }
  -- `routing/erouting/processing.rs:54-69`
  | .connect =>
    some { s with conns := s.conns ++ [{ phase := if s.connection.isSome then .refused else .accepted }] }
  | .proceed c => s.proceed c
  | .response c r => if s.reads c ∧ r.bp.valid then some (s.takeResponse r) else none
  -- `routing/erouting/processing.rs:108-115`
  | .serviceAdd c tag service =>
    if s.reads c then some { s with services := AList.insert s.services tag service } else none
  -- lines 116 and 118-120: other packets and text that is no packet are ignored
  | .text c => if s.reads c then some s else none
  -- line 80 or 83: `to_text().unwrap()` fails for binary data that is not UTF-8
  | .binary c => if s.reads c then some (s.setPhase c .crashed) else none
  -- lines 134-142: the end of the stream or of the channel
  | .close c => if s.reads c then some { s.setPhase c .ended with connection := none } else none
  -- lines 126-132
  | .transfer c =>
    match s.conns[c]? with
    | none => none
    | some k =>
      match k.queue with
      | [] => none
      | p :: q => some { s with conns := s.conns.set c { k with queue := q, sent := k.sent ++ [p] } }

/-- A run. -/
def run (s : State) : List Ev → Option State
  | [] => some s
  | e :: es => (step s e).bind fun s => run s es

end Dtn.Routing.External
