import Verif.Model.Clas
import Verif.Model.TcpclSession
/-! Model of the layer `tcp` around its sessions, `cla/tcp/mod.rs:488-781`: the command loop, the task of a transfer, the table of
connections, the listener, the beginning of a session, and the channel that carries transfers to a session. The session itself is
`Sess` in `Model/TcpclSession.lean`. Simplification: two layers of this kind share `TCP_CONNECTIONS`; here there is one layer. -/

namespace Dtn.TcpPool
open Dtn.Clas (Sock Answer Result)
open Dtn.Tcpcl

/-- What the layer gets from elsewhere: the text form of addresses, bundles (`env`; what the store holds is given with each message),
the setting `refuse_existing_bundles` (`cla/tcp/mod.rs:718-731`), what this node announces (`494-499`), and for a node id received
`EndpointID::try_from` (`none` if it fails) with `node()` (`547-549`). -/
structure Cfg (A : Type) where
  net : Sock A
  env : Env
  refuse : Bool
  loc : SessInit
  node : Bytes → Option (Option String)

/-- Where a transfer is. `queued`: in the channel of the layer. `start`: its task begins (`cla/tcp/mod.rs:636`). `connect a c`: in
`TcpStream::connect` (`673-674`), holding the receiver of the new channel `c`. `send a c`: before `sender.send` (`702`). `waiting c`: in
channel `c`. `flying c`: taken by the session that reads channel `c`. `done`: the caller has its answer. -/
inductive Pc (A : Type) where
  | queued
  | start
  | connect (a : A) (c : Nat)
  | send (a : A) (c : Nat)
  | waiting (c : Nat)
  | flying (c : Nat)
  | done (ans : Answer)
deriving DecidableEq, Repr

/-- A transfer: `ClaCmd::Transfer`, `cla/mod.rs:45`, and its task. -/
structure Req (A : Type) where
  dest : String
  data : Bytes
  pc : Pc A := .queued
deriving DecidableEq, Repr

/-- How far a connection is: `TcpStream::connect` (`cla/tcp/mod.rs:673`), waiting for the contact header (`530-540`), waiting for the
session parameters (`504`), in `TcpSession::run` (`592`), or over, when the receiver of its channel is dropped. -/
inductive Stage where
  | connecting
  | contact
  | params
  | session
  | ended
deriving DecidableEq, Repr

/-- A connection with its channel. `active`: started by this node. `entered` are all transfers put into the channel, `taken` is the
number of those the session has taken. `remote` are the parameters of the peer, `sess` is the session, `history` a log of what happened
in it. -/
structure Chan (A : Type) where
  addr : A
  active : Bool
  stage : Stage
  entered : List Nat := []
  taken : Nat := 0
  remote : Option SessInit := none
  sess : Option Sess := none
  history : List ((Bytes → Bool) × Sess.Ev) := []

/-- The state. `alive`: the command loop runs (`cla/tcp/mod.rs:738-769`). `queue`: its channel, with the numbers of the transfers; `none` is
`Shutdown`. `table` is `TCP_CONNECTIONS` (`58-60`). `chans` are all connections ever made. `met` logs the peers added (`559`). -/
structure State (A : Type) where
  alive : Bool := true
  queue : List (Option Nat) := []
  reqs : List (Req A) := []
  table : AList A Nat := []
  chans : List (Chan A) := []
  met : List (String × A) := []

/-- What can happen. `request`, `shutdown` and `take` as in the other layers. `go`: the task of a transfer goes on; if it is waiting for
`TcpStream::connect`, `ok` says how that ended (an error or, after three seconds, a timeout). `accept`: a connection comes in
(`cla/tcp/mod.rs:605-606`). `contact`, `params`: what was read from a connection when its session begins; `known`: the answer of
`peers_known`. `next`: the session takes a transfer from its channel. `message`, `timeout`, `lost`: as in `Sess.Ev`. `closed`: the session finds
that its channel has no senders any more (`183-186`). -/
inductive Ev (A : Type) where
  | request (dest : String) (data : Bytes)
  | shutdown
  | take
  | go (i : Nat) (ok : Bool)
  | accept (a : A)
  | contact (c : Nat) (ok : Bool)
  | params (c : Nat) (r : Option SessInit) (known : Bool)
  | next (c : Nat)
  | message (c : Nat) (has : Bytes → Bool) (p : Packet)
  | timeout (c : Nat)
  | lost (c : Nat)
  | closed (c : Nat)

/-- `INTERNAL_CHANNEL_BUFFER`, `cla/tcp/mod.rs:56`: the capacity of all channels of this layer. -/
def capacity : Nat := 200

variable {A : Type} [DecidableEq A]

/-- Transfer `i` goes on at `pc`. -/
def State.goto (s : State A) (i : Nat) (pc : Pc A) : State A :=
  { s with reqs := s.reqs.modify i fun r => { r with pc := pc } }

/-- A transfer whose command is dropped with the channel of the layer. -/
def Req.drop (r : Req A) : Req A := if r.pc = .queued then { r with pc := .done .lost } else r

/-- The command loop ends, `cla/tcp/mod.rs:763-766`. -/
def State.die (s : State A) : State A := { s with alive := false, queue := [], reqs := s.reqs.map Req.drop }

/-- A transfer that was in channel `c` or taken from it when the reader of the channel ends: the sending half of its reply is dropped. -/
def Req.lose (c : Nat) (r : Req A) : Req A :=
  if r.pc = .waiting c ∨ r.pc = .flying c then { r with pc := .done .lost } else r

/-- The reader of channel `c` ends, by an error, a panic or the end of the session. -/
def State.close (s : State A) (c : Nat) : State A :=
  { s with chans := s.chans.modify c fun k => { k with stage := .ended }, reqs := s.reqs.map (Req.lose c) }

/-- The loop takes a command, `cla/tcp/mod.rs:739-768`: a transfer gets a task of its own. -/
def State.take (s : State A) : Option (State A) :=
  if !s.alive then none
  else match s.queue with
    | [] => none
    | none :: _ => some s.die
    | some i :: q => some { s.goto i .start with queue := q }

/-- A new connection with an empty channel, in the table under its address: `cla/tcp/mod.rs:652-657`, `660-664` and `617-621`. -/
def State.open (s : State A) (a : A) (active : Bool) (stage : Stage) : State A :=
  { s with chans := s.chans ++ [{ addr := a, active, stage }], table := AList.insert s.table a s.chans.length }

/-- The connection in the table, unless its reader has ended (`is_closed`), `cla/tcp/mod.rs:648-650`. -/
def State.usable (s : State A) (a : A) : Option Nat :=
  match AList.get? s.table a with
  | none => none
  | some c =>
    match s.chans[c]? with
    | none => none
    | some k => if k.stage = .ended then none else some c

/-- `tcp_send_bundles`, `cla/tcp/mod.rs:636-706`. An address that cannot be read panics (`642`), which ends this task only. The table is
locked in lines 646-667. If connecting fails the receiver of the channel is dropped when the function returns (`684-697`). `sender.send` waits
while the channel is full; if the receiver is gone, the transfer comes back in the error and is dropped with its reply. -/
def State.go (cfg : Cfg A) (s : State A) (i : Nat) (r : Req A) (ok : Bool) : Option (State A) :=
  match r.pc with
  | .start =>
    match cfg.net.parse r.dest with
    | none => some (s.goto i (.done .lost))
    | some a =>
      match s.usable a with
      | some c => some (s.goto i (.send a c))
      | none => some ((s.open a true .connecting).goto i (.connect a s.chans.length))
  | .connect a c =>
    if ok then
      some { s.goto i (.send a c) with chans := s.chans.modify c fun k => { k with stage := .contact } }
    else some ((s.goto i (.done (.replied .failure))).close c)
  | .send _ c =>
    match s.chans[c]? with
    | none => none
    | some k =>
      if k.stage = .ended then some (s.goto i (.done .lost))
      else if k.entered.length - k.taken < capacity then
        some { s.goto i (.waiting c) with chans := s.chans.modify c fun k => { k with entered := k.entered ++ [i] } }
      else none
  | _ => none

/-- The answer of a session. -/
def answerOf : TransferResult → Answer
  | .successful => .replied .successful
  | .failure => .replied .failure

/-- The session of channel `c` has gone on from `old` to `new`: its new results are the answers of the transfers it took, and if it is
over its channel is dropped. -/
def State.settle (s : State A) (c : Nat) (k : Chan A) (old new : Sess) : State A :=
  let s := (new.results.drop old.results.length).foldl (fun s x =>
    match k.entered[x.1]? with
    | some i => s.goto i (.done (answerOf x.2))
    | none => s) s
  if new.isTerminated then s.close c else s

/-- One round of the loop of the session on connection `c`. -/
def State.session (cfg : Cfg A) (s : State A) (c : Nat) (k : Chan A) (has : Bytes → Bool) (ev : Sess.Ev) : Option (State A) :=
  match k.stage, k.sess with
  | .session, some old =>
    let new := old.step { cfg.env with hasItem := has } ev
    some (State.settle { s with chans := s.chans.modify c fun k => { k with sess := some new, history := k.history ++ [(has, ev)] } }
      c k old new)
  | _, _ => none

/-- The session takes the next transfer from its channel, `cla/tcp/mod.rs:173-181`; only when it is not sending. -/
def State.next (cfg : Cfg A) (s : State A) (c : Nat) : Option (State A) :=
  match s.chans[c]? with
  | none => none
  | some k =>
    match k.sess, k.entered[k.taken]? with
    | some old, some i =>
      match s.reqs[i]? with
      | none => none
      | some r =>
        if old.tx = .idle ∧ k.stage = .session then
          State.session cfg
            { s.goto i (.flying c) with chans := s.chans.modify c fun k => { k with taken := k.taken + 1 } }
            c { k with taken := k.taken + 1 } (fun _ => false) (.request r.data)
        else none
    | _, _ => none

/-- No sender of channel `c` is left: neither in the table nor held by the task of a transfer. -/
def State.senderless (s : State A) (c : Nat) : Bool :=
  (s.table.all fun x => x.2 ≠ c) && s.reqs.all fun r =>
    match r.pc with
    | .send _ d => d ≠ c
    | .connect _ d => d ≠ c
    | _ => true

/-- Session parameters have been read, `cla/tcp/mod.rs:504-592`. Node ids that cannot be read, and for incoming connections the one without
a node, panic. Peers that come in and are not known are added, with the address the connection came from (`549-560`). -/
def State.begun (cfg : Cfg A) (s : State A) (c : Nat) (k : Chan A) (r : SessInit) (known : Bool) : State A :=
  let start (s : State A) : State A := { s with chans := s.chans.modify c fun k =>
    { k with stage := .session, remote := some r, sess := some (newSess cfg.refuse cfg.loc r) } }
  match cfg.node r.nodeId with
  | none => s.close c
  | some name =>
    if k.active then start s
    else match name with
      | none => s.close c
      | some n => start (if known then s else { s with met := s.met ++ [(n, k.addr)] })

/-- One step; `none`: this cannot happen now. Callers wait while the channel of the layer is full; if the loop has ended their `send` fails. -/
def step (cfg : Cfg A) (s : State A) : Ev A → Option (State A)
  | .request dest data =>
    if !s.alive then some { s with reqs := s.reqs ++ [{ dest, data, pc := .done .lost }] }
    else if s.queue.length < capacity then
      some { s with reqs := s.reqs ++ [{ dest, data }], queue := s.queue ++ [some s.reqs.length] }
    else none
  | .shutdown =>
    if s.alive && decide (s.queue.length < capacity) then some { s with queue := s.queue ++ [none] } else none
  | .take => s.take
  | .go i ok =>
    match s.reqs[i]? with
    | none => none
    | some r => s.go cfg i r ok
  | .accept a => some (s.open a false .contact)
  | .contact c ok =>
    match s.chans[c]? with
    | none => none
    | some k =>
      if k.stage = .contact then
        some (if ok then { s with chans := s.chans.modify c fun k => { k with stage := .params } } else s.close c)
      else none
  | .params c r known =>
    match s.chans[c]? with
    | none => none
    | some k =>
      if k.stage = .params then
        some (match r with
          | none => s.close c
          | some r => s.begun cfg c k r known)
      else none
  | .next c => s.next cfg c
  | .message c has p =>
    match s.chans[c]? with
    | none => none
    | some k => s.session cfg c k has (.recv p)
  | .timeout c =>
    match s.chans[c]? with
    | none => none
    | some k => s.session cfg c k (fun _ => false) .timeout
  | .lost c =>
    match s.chans[c]? with
    | none => none
    | some k => s.session cfg c k (fun _ => false) .lost
  | .closed c =>
    match s.chans[c]? with
    | none => none
    | some k =>
      if k.entered.length = k.taken ∧ s.senderless c = true ∧ (k.sess.map (·.tx)) = some .idle then
        s.session cfg c k (fun _ => false) .closed
      else none

/-- A run. -/
def run (cfg : Cfg A) (s : State A) : List (Ev A) → Option (State A)
  | [] => some s
  | e :: es => (step cfg s e).bind fun s => run cfg s es

end Dtn.TcpPool
