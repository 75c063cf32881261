import Verif.Model.AList
import Verif.Model.Mtcp
/-! Model of the tasks of the convergence layers: the command loops of `cla/mtcp.rs`, `cla/udp.rs`, `cla/http.rs`,
`cla/httppull.rs`, `cla/dummy.rs` and `cla/external.rs`, the functions that send, and the tasks that receive bundles by UDP
and MTCP. The layer `tcp` is modelled in `Model/TcpPool.lean`. -/

namespace Dtn.Clas

/-- The layers. `external` with the setting `discovery_only`, `cla/external.rs:28-31`. -/
inductive Kind where
  | dummy
  | httppull
  | mtcp
  | udp
  | http
  | external (discoveryOnly : Bool)
deriving DecidableEq, Repr

/-- `TransferResult`, `cla/mod.rs:37-41`. -/
inductive Result where
  | successful
  | failure
deriving DecidableEq, Repr

/-- What `transfer` gets from `reply_rx.await`, `cla/mod.rs:63`: a result, or an error because the sending half was dropped. -/
inductive Answer where
  | replied (r : Result)
  | lost
deriving DecidableEq, Repr

/-- The result of `transfer`, `cla/mod.rs:59-71`: true is `Ok`. -/
def Answer.ok : Answer → Bool
  | .replied .successful => true
  | _ => false

/-- `std::net::SocketAddr` (external): `from_str` and `is_ipv4`. -/
structure Sock (A : Type) where
  parse : String → Option A
  isV4 : A → Bool

/-- Where a transfer is. `queued`: in the channel of the layer. `mtcp_send_bundles`, `cla/mtcp.rs:212-262`: before the line of the
`contains_key` (231), of `connect` (233), of `insert` (234), of `get` (242-247), inside `write_all` (249) with the bytes still to be
written, before `remove` (251). `udp_send_bundles`, `cla/udp.rs:43-78`: before `bind` (48), `connect` (54), `send` (65).
`http_send_bundles`, `cla/http.rs:20-63`: at the beginning, and waiting for the response (41). `submit`: before
`scheduled_submission`, `cla/external.rs:43-45`. `done`: the caller has its answer. -/
inductive Pc (A : Type) where
  | queued
  | check (a : A)
  | connect (a : A)
  | insert (a : A) (c : Nat)
  | get (a : A)
  | write (a : A) (c : Nat) (rest : Bytes)
  | remove (a : A)
  | udpBind (a : A)
  | udpConnect (a : A)
  | udpSend (a : A)
  | http
  | post (a : A)
  | submit
  | done (ans : Answer)
deriving DecidableEq, Repr

/-- A transfer: `ClaCmd::Transfer`, `cla/mod.rs:45`, and its task. -/
structure Req (A : Type) where
  dest : String
  data : Bytes
  pc : Pc A := .queued
deriving DecidableEq, Repr

/-- The state. `alive`: the task of the command loop runs. `queue`: the channel, with the numbers of the transfers; `none` is
`Shutdown`. `table` is `MTCP_CONNECTIONS`, `cla/mtcp.rs:26-29`, with the numbers of connections; `streams` are all connections ever
made with the bytes given to the operating system. The others log what left the node: complete MTCP frames by transfer and
connection, datagrams, and HTTP requests that were answered, with the status of the response. Simplification: two layers of the
same kind share `MTCP_CONNECTIONS`; here there is one layer. -/
structure State (A : Type) where
  alive : Bool := true
  queue : List (Option Nat) := []
  reqs : List (Req A) := []
  table : AList A Nat := []
  streams : List (A × Bytes) := []
  handed : List (Nat × Nat) := []
  datagrams : List (Nat × A × Bytes) := []
  posts : List (Nat × A × Bytes × Nat) := []
  submitted : List (Nat × String × Bytes × Result) := []
deriving DecidableEq, Repr

/-- What the operating system, the network or another part of the program does at a step. -/
inductive Choice where
  | ok
  | err
  | wrote (n : Nat)
  | status (code : Nat)
  | result (r : Option Result)
deriving DecidableEq, Repr

/-- What can happen: a caller hands over a transfer; somebody sends `Shutdown`; the loop takes a command; a task goes on. -/
inductive Ev where
  | request (dest : String) (data : Bytes)
  | shutdown
  | take
  | go (i : Nat) (ch : Choice)
deriving DecidableEq, Repr

/-- The capacities of the channels: `cla/mtcp.rs:278`, `cla/udp.rs:96`, `cla/http.rs:68`, `cla/external.rs:35`, `cla/dummy.rs:19` and
`cla/httppull.rs:170`. -/
def Kind.capacity : Kind → Nat
  | .dummy | .httppull => 1
  | _ => 100

variable {A : Type} [DecidableEq A]

/-- Transfer `i` goes on at `pc`. -/
def State.goto (s : State A) (i : Nat) (pc : Pc A) : State A :=
  { s with reqs := s.reqs.modify i fun r => { r with pc := pc } }

/-- The caller gets an answer. -/
def State.finish (s : State A) (i : Nat) (ans : Answer) : State A := s.goto i (.done ans)

/-- A transfer whose command is dropped. -/
def Req.drop (r : Req A) : Req A := if r.pc = .queued then { r with pc := .done .lost } else r

/-- The loop ends, by `break` or by a panic: the receiver of the channel is dropped with the commands in it. -/
def State.die (s : State A) : State A := { s with alive := false, queue := [], reqs := s.reqs.map Req.drop }

/-- One command, `cla/mtcp.rs:282-301`, `cla/udp.rs:100-119`, `cla/http.rs:79-90`, `cla/httppull.rs:173-179`, `cla/dummy.rs:23-29`,
`cla/external.rs:39-51`. In the layers `mtcp` and `udp` the loop itself parses the address and panics if this fails. -/
def State.handle (k : Kind) (net : Sock A) (s : State A) (i : Nat) (r : Req A) : State A :=
  match k with
  | .dummy => s.finish i (.replied .successful)
  | .httppull => s.finish i (.replied .failure)
  | .external true => s.finish i (.replied .failure)
  | .external false => s.goto i .submit
  | .http => s.goto i .http
  | .mtcp =>
    if r.data = [] then s.finish i (.replied .successful)
    else match net.parse r.dest with
      | none => s.die
      | some a => s.goto i (.check a)
  | .udp =>
    if r.data = [] then s.finish i (.replied .successful)
    else match net.parse r.dest with
      | none => s.die
      | some a => s.goto i (.udpBind a)

/-- The loop takes the next command. -/
def State.take (k : Kind) (net : Sock A) (s : State A) : Option (State A) :=
  if !s.alive then none
  else match s.queue with
    | [] => none
    | none :: _ => some s.die
    | some i :: q =>
      match s.reqs[i]? with
      | none => none
      | some r => some (State.handle k net { s with queue := q } i r)

/-- One write of `write_all`, `cla/mtcp.rs:249`: some of the bytes are taken. -/
def State.written (s : State A) (i c : Nat) (a : A) (rest : Bytes) (n : Nat) : State A :=
  let s := { s with streams := s.streams.modify c fun x => (x.1, x.2 ++ rest.take n) }
  if rest.drop n = [] then { s.finish i (.replied .successful) with handed := s.handed ++ [(i, c)] }
  else s.goto i (.write a c (rest.drop n))

/-- The task of transfer `i` goes on: `mtcp_send_bundles`, `cla/mtcp.rs:212-262`, `udp_send_bundles`, `cla/udp.rs:43-78`,
`http_send_bundles`, `cla/http.rs:20-63`, `scheduled_submission`, `cla/external.rs:43-45`. A panic drops the sending half of the
reply. `none`: this cannot happen. A socket bound to `0.0.0.0` cannot be connected to an IPv6 address. The URL `http://::1:80/push`
that `cla/http.rs:32` makes of an IPv6 address is no URL, so the `unwrap` in line 38 panics. -/
def State.go (net : Sock A) (s : State A) (i : Nat) (r : Req A) (ch : Choice) : Option (State A) :=
  match r.pc, ch with
  | .check a, .ok => some (s.goto i (if AList.contains s.table a then .get a else .connect a))
  | .connect a, .ok => some { s.goto i (.insert a s.streams.length) with streams := s.streams ++ [(a, [])] }
  | .connect _, .err => some (s.finish i (.replied .failure))
  | .insert a c, .ok => some { s.goto i (.get a) with table := AList.insert s.table a c }
  | .get a, .ok =>
    match AList.get? s.table a with
    | none => some (s.finish i .lost)
    | some c => some (s.goto i (.write a c (Mtcp.sendBuffer [r.data])))
  | .get _, .err => some (s.finish i .lost)
  | .write a c rest, .wrote n => if 0 < n ∧ n ≤ rest.length then some (s.written i c a rest n) else none
  | .write a _ _, .err => some (s.goto i (.remove a))
  | .remove a, .ok => some { s.finish i (.replied .failure) with table := AList.erase s.table a }
  | .udpBind a, .ok => some (s.goto i (.udpConnect a))
  | .udpBind _, .err => some (s.finish i (.replied .failure))
  | .udpConnect a, .ok => if net.isV4 a then some (s.goto i (.udpSend a)) else none
  | .udpConnect _, .err => some (s.finish i (.replied .failure))
  | .udpSend a, .ok =>
    if r.data.length > 65535 then some (s.finish i (.replied .failure))
    else some { s.finish i (.replied .successful) with datagrams := s.datagrams ++ [(i, a, r.data)] }
  | .udpSend _, .err => some (s.finish i (.replied .failure))
  | .http, .ok =>
    if r.data = [] then some (s.finish i (.replied .successful))
    else match net.parse r.dest with
      | none => some (s.finish i .lost)
      | some a => if net.isV4 a then some (s.goto i (.post a)) else some (s.finish i .lost)
  | .post a, .status code =>
    some { s.finish i (.replied .successful) with posts := s.posts ++ [(i, a, r.data, code)] }
  | .post _, .err => some (s.finish i (.replied .failure))
  | .submit, .result (some res) =>
    some { s.finish i (.replied res) with submitted := s.submitted ++ [(i, r.dest, r.data, res)] }
  | .submit, .result none => some (s.finish i .lost)
  | _, _ => none

/-- One step. A caller waits while the channel is full; if the loop has ended its `send` fails, `cla/mod.rs:62`. -/
def step (k : Kind) (net : Sock A) (s : State A) : Ev → Option (State A)
  | .request dest data =>
    if !s.alive then some { s with reqs := s.reqs ++ [{ dest, data, pc := .done .lost }] }
    else if s.queue.length < k.capacity then
      some { s with reqs := s.reqs ++ [{ dest, data }], queue := s.queue ++ [some s.reqs.length] }
    else none
  | .shutdown =>
    if s.alive && decide (s.queue.length < k.capacity) then some { s with queue := s.queue ++ [none] } else none
  | .take => s.take k net
  | .go i ch =>
    match s.reqs[i]? with
    | none => none
    | some r => s.go net i r ch

/-- A run. -/
def run (k : Kind) (net : Sock A) (s : State A) : List Ev → Option (State A)
  | [] => some s
  | e :: es => (step k net s e).bind fun s => run k net s es

/-! ### Receiving -/

/-- A task that receives bundles: what it gave to `receive` in `core/processing.rs`, `STATS.broken`, and whether it still runs. -/
structure Listener where
  received : List Bundle := []
  broken : Nat := 0
  alive : Bool := true
deriving DecidableEq, Repr

/-- One call of `recv_from` in `udp_listener`, `cla/udp.rs:23-40`: a datagram, or an error (`none`), which ends the task. -/
def udpReceive (parse : Bytes → Option Bundle) (l : Listener) (datagram : Option Bytes) : Listener :=
  if !l.alive then l
  else match datagram with
    | none => { l with alive := false }
    | some d =>
      match parse d with
      | some b => { l with received := l.received ++ [b] }
      | none => { l with broken := l.broken + 1 }

/-- `udp_listener`. -/
def udpListen (parse : Bytes → Option Bundle) (ds : List (Option Bytes)) : Listener := ds.foldl (udpReceive parse) {}

/-- One frame in `handle_connection`, `cla/mtcp.rs:321-336`: the first one that is no bundle ends the connection. -/
def mtcpFrame (parse : Bytes → Option Bundle) (l : Listener) (frame : Bytes) : Listener :=
  if !l.alive then l
  else match parse frame with
    | some b => { l with received := l.received ++ [b] }
    | none => { l with broken := l.broken + 1, alive := false }

/-- `handle_connection`, `cla/mtcp.rs:315-345`, for the pieces in which the bytes arrive; a framing error ends it. -/
def mtcpConnection (parse : Bytes → Option Bundle) (chunks : List Bytes) : Listener :=
  let r := Mtcp.receive chunks
  let l := r.frames.foldl (mtcpFrame parse) {}
  if r.failed then { l with alive := false } else l

end Dtn.Clas
