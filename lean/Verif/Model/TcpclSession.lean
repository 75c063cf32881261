import Verif.Model.TcpclNet
/-! Model of a TCPCL session, `cla/tcp/mod.rs`. -/

namespace Dtn.Tcpcl

/-- `cla/tcp/mod.rs:98-102`. -/
inductive RxState where
  | idle
  | receiving (buf : Bytes) (tid : Nat)
  | terminated
deriving DecidableEq, Repr

/-- `cla/tcp/mod.rs:104-109`. The `oneshot::Sender` of a request is represented by the number of the request. -/
inductive TxState where
  | idle
  | sending (len : Nat) (req : Nat)
  | transferRequest (data : Bytes) (req : Nat)
  | terminated
deriving DecidableEq, Repr

/-- `cla/mod.rs` `TransferResult`. -/
inductive TransferResult where
  | successful
  | failure
deriving DecidableEq, Repr

/-- `cla/tcp/mod.rs:87-96` `TcpSession` with the local variables of `run` (`113-115`), and logs of what it did. -/
structure Sess where
  refuseExisting : Bool := false
  /-- `remote_session_data.segment_mru` -/
  segmentMru : Nat
  /-- `remote_session_data.keepalive` -/
  keepalive : Nat := 30
  lastTid : Nat := 0
  rx : RxState := .idle
  tx : TxState := .idle
  keepaliveSent : Bool := false
  keepaliveReceived : Bool := false
  /-- log: bundles taken from the queue of requests so far -/
  requests : List Bytes := []
  /-- log: messages written -/
  out : List Packet := []
  /-- log: results sent to requesters, by request number -/
  results : List (Nat × TransferResult) := []
  /-- log: buffers handed to bundle processing -/
  processed : List Bytes := []
  /-- log: received buffers that did not parse as a bundle -/
  broken : List Bytes := []
  /-- log: segments taken over into a transfer (`true`, `cla/tcp/mod.rs:288`, `336`) or refused (`false`, `323-331`) -/
  handled : List (XferSeg × Bool) := []
  /-- log: bundle ids found in the store when their transfer was refused -/
  refused : List Bytes := []
deriving DecidableEq, Repr

/-- What the session asks of the rest of the node. -/
structure Env where
  /-- `Bundle::try_from(bytes).is_ok()` -/
  parses : Bytes → Bool
  /-- `Bundle::try_from(bytes)`'s id as bytes, for bytes that parse -/
  bundleId : Bytes → Bytes
  /-- `STORE.lock().has_item(id)` at this moment -/
  hasItem : Bytes → Bool

namespace Sess

/-- Both states `Terminated` (`cla/tcp/mod.rs:148`, `159`, `223`, ...). -/
def terminated (s : Sess) : Sess := { s with rx := .terminated, tx := .terminated }

/-- The loop condition `cla/tcp/mod.rs:117-125`. -/
def isTerminated (s : Sess) : Bool := s.rx = .terminated || s.tx = .terminated

/-- `write` of a message. Write errors are not modelled separately: they end the session, as event `lost` does. -/
def send (s : Sess) (p : Packet) : Sess := { s with out := s.out ++ [p] }

/-- `response.send(result)`; the requester is waiting for it, so it does not fail. -/
def respond (s : Sess) (req : Nat) (r : TransferResult) : Sess :=
  { s with results := s.results ++ [(req, r)] }

/-- `cla/tcp/mod.rs:213-224` `terminate_session`. -/
def terminate (s : Sess) (reason : TermReason) : Sess :=
  (s.send (.sessTerm false reason)).terminated

/-- `cla/tcp/mod.rs:225-248` `process_bundle`. -/
def processBundle (e : Env) (s : Sess) (buf : Bytes) (tid : Nat) : Sess :=
  if e.parses buf then { s with rx := .idle, processed := s.processed ++ [buf] }
  else { s.send (.xferRefuse .notAcceptable tid) with rx := .idle, broken := s.broken ++ [buf] }

end Sess

/-- `slice::chunks(n)` for `n > 0`; the fuel is the length of the list. -/
def chunksAux (n : Nat) : Nat → Bytes → List Bytes
  | 0, _ => []
  | fuel + 1, l => if l = [] then [] else l.take n :: chunksAux n fuel (l.drop n)

/-- `slice::chunks(n)`. -/
def chunks (n : Nat) (l : Bytes) : List Bytes := chunksAux n l.length l

/-- `first_mut().flags |= START` (`cla/tcp/mod.rs:466-471`). -/
def setStart : List XferSeg → List XferSeg
  | [] => []
  | s :: ss => { s with flags := { s.flags with start := true } } :: ss

/-- `last_mut().flags |= END` (`cla/tcp/mod.rs:472-475`). -/
def setEnd : List XferSeg → List XferSeg
  | [] => []
  | [s] => [{ s with flags := { s.flags with «end» := true } }]
  | s :: ss => s :: setEnd ss

/-- The segments of one bundle, `cla/tcp/mod.rs:442-475`. -/
def segments (refuseExisting : Bool) (tid mru : Nat) (data : Bytes) : List XferSeg :=
  let segs := (chunks mru data).map fun buf =>
    { flags := {}, buf := buf, len := buf.length, tid := tid, extensions := [] : XferSeg }
  let segs := if refuseExisting then segs else setStart segs
  setEnd segs

namespace Sess

/-- `cla/tcp/mod.rs:436-487` `send_bundle`. `chunks(0)` panics, which ends the session task without a result. -/
def sendBundle (s : Sess) (data : Bytes) (req : Nat) : Sess :=
  if s.segmentMru = 0 then s.terminated
  else
    let segs := segments s.refuseExisting s.lastTid s.segmentMru data
    if segs = [] then { s.respond req .failure with tx := .idle }
    else
      let s := segs.foldl (fun s seg => s.send (.xferSeg seg)) s
      { s with tx := .sending data.length req }

/-- The START segment asking whether the peer has the bundle, `cla/tcp/mod.rs:415-429`. -/
def requestSeg (e : Env) (tid : Nat) (data : Bytes) : XferSeg :=
  { flags := { start := true }, tid := tid, len := 0, buf := [],
    extensions := [{ critical := false, data := e.bundleId data }] }

/-- `cla/tcp/mod.rs:407-435` `send`, called from `173-183` with `keepalive_* = false` (`189-190`). -/
def request (e : Env) (s : Sess) (data : Bytes) : Sess :=
  let req := s.requests.length
  let s := { s with lastTid := s.lastTid + 1, requests := s.requests ++ [data],
                    keepaliveSent := false, keepaliveReceived := false }
  if s.refuseExisting then
    if e.parses data then
      { s.send (.xferSeg (requestSeg e s.lastTid data)) with tx := .transferRequest data req }
    else s.terminated
  else s.sendBundle data req

/-- The refusal check of a START segment, `cla/tcp/mod.rs:311-335`. -/
def refuses (e : Env) (s : Sess) (d : XferSeg) : Bool :=
  d.flags.start && s.refuseExisting && d.extensions.any fun x => e.hasItem x.data

/-- `cla/tcp/mod.rs:272-353`: a transfer segment is received. -/
def receiveSeg (e : Env) (s : Sess) (d : XferSeg) : Sess :=
  match s.rx with
  | .receiving buf tid =>
    if d.flags.start then s.terminated
    else if tid ≠ d.tid then s.terminated
    else
      let buf := buf ++ d.buf
      let s := { s with handled := s.handled ++ [(d, true)] }
      let s := s.send (.xferAck { tid := d.tid, len := buf.length, flags := {} })
      if d.flags.end then s.processBundle e buf d.tid
      else { s with rx := .receiving buf d.tid }
  | .idle =>
    if (d.flags.end && !d.flags.start) || d.flags.isEmpty then s.terminated
    else if s.refuses e d then
      { s.send (.xferRefuse .notAcceptable d.tid) with
        handled := s.handled ++ [(d, false)]
        refused := s.refused ++ (d.extensions.map (·.data)).filter e.hasItem }
    else
      let s := { s with handled := s.handled ++ [(d, true)] }
      let s := s.send (.xferAck { tid := d.tid, len := d.len, flags := {} })
      if d.flags.end then s.processBundle e d.buf d.tid
      else { s with rx := .receiving d.buf d.tid }
  | .terminated => s.terminated

/-- `cla/tcp/mod.rs:252-404` `receive`. An `Err` result makes `run` terminate the session (`157-160`). -/
def receive (e : Env) (s : Sess) : Packet → Sess
  | .sessTerm reply reason =>
    (if reply then s else s.send (.sessTerm true reason)).terminated
  | .xferSeg d => s.receiveSeg e d
  | .xferAck a =>
    match s.tx with
    | .transferRequest data req =>
      if a.tid ≠ s.lastTid then s.terminated else s.sendBundle data req
    | .sending len req =>
      if a.tid ≠ s.lastTid then s.terminated
      else if a.len < len then s
      else { s.respond req .successful with tx := .idle }
    | _ => s.terminated
  | .xferRefuse _ tid =>
    match s.tx with
    | .transferRequest _ req =>
      if tid ≠ s.lastTid then s.terminated
      else { s.respond req .successful with tx := .idle }
    | .sending _ req =>
      if tid ≠ s.lastTid then s.terminated
      else { s.respond req .failure with tx := .idle }
    | _ => s.terminated
  | _ => s.terminated

/-- What can happen to a session. -/
inductive Ev where
  /-- a message was read -/
  | recv (p : Packet)
  /-- a bundle was taken from the queue of requests -/
  | request (data : Bytes)
  /-- the queue of requests was closed -/
  | closed
  /-- the keepalive timer fired -/
  | timeout
  /-- reading failed: connection lost or unparsable bytes -/
  | lost
deriving DecidableEq, Repr

/-- One round of the loop in `run`, `cla/tcp/mod.rs:116-211`. Requests are only taken in `SendState::Idle` (`173`). -/
def step (e : Env) (s : Sess) : Ev → Sess
  | ev =>
    if s.isTerminated then s
    else match ev with
    | .recv .keepAlive =>
      let s := if s.keepaliveSent then { s with keepaliveSent := false }
        else { s.send .keepAlive with keepaliveSent := true }
      { s with keepaliveReceived := true }
    | .recv p =>
      { s.receive e p with keepaliveReceived := false, keepaliveSent := false }
    | .request data => if s.tx = .idle then s.request e data else s
    | .closed => if s.tx = .idle then s.terminate .unknown else s
    | .timeout =>
      let s := if s.keepaliveSent then s else { s.send .keepAlive with keepaliveSent := true }
      if !s.keepaliveReceived && s.keepaliveSent then s.terminate .idleTimeout else s
    | .lost => s.terminated

/-- A history of a session; the content of the bundle store may be different at each event. -/
def run (e : Env) (s : Sess) (evs : List ((Bytes → Bool) × Ev)) : Sess :=
  evs.foldl (fun s x => s.step { e with hasItem := x.1 } x.2) s

end Sess

/-- `cla/tcp/mod.rs:492-514`: the keepalive interval used by the session is the smaller of the two announced. -/
def negotiateKeepalive (loc remote : SessInit) : Nat := min loc.keepalive remote.keepalive

/-- `cla/tcp/mod.rs:53-55`, `494-499`: what this node announces. -/
def localInit (nodeId : Bytes) : SessInit :=
  { keepalive := 30, segmentMru := 64000, transferMru := 64000, nodeId := nodeId }

/-- `cla/tcp/mod.rs:543-591`: the session that is started once the parameters are negotiated. -/
def newSess (refuseExisting : Bool) (loc remote : SessInit) : Sess :=
  { refuseExisting := refuseExisting, segmentMru := remote.segmentMru,
    keepalive := negotiateKeepalive loc remote }

/-- `cla/tcp/mod.rs:136-138`: seconds after which the keepalive timer of a loop round fires. -/
def timerSecs (s : Sess) : Nat := s.keepalive

/-! ### Reading messages while other things happen -/

/-- A session together with its reading side: `partialRead` are the bytes the pending `TcpClPacket::read` future of
the current loop round has taken from the connection without having completed a message
(`cla/tcp/mod.rs:141`). -/
structure SessIO where
  s : Sess
  partialRead : Bytes := []
deriving DecidableEq, Repr

/-- What can happen at the connection level. -/
inductive IOEv where
  /-- bytes arrive on the connection -/
  | bytes (b : Bytes)
  /-- a bundle is put into the queue of requests -/
  | request (data : Bytes)
  /-- the keepalive timer fires -/
  | timeout
deriving DecidableEq, Repr

/-- Read and handle messages until the bytes are used up. When a message is complete its future is finished and the
next loop round starts a new one on the remaining bytes. A parse error ends the session. -/
def SessIO.consume (e : Env) : Nat → SessIO → SessIO
  | 0, io => io
  | fuel + 1, io =>
    if io.s.isTerminated then io
    else if io.partialRead = [] then io
    else match readPacket io.partialRead with
      | .ok p rest => SessIO.consume e fuel { s := io.s.step e (.recv p), partialRead := rest }
      | .eof => io
      | .err => { io with s := io.s.step e .lost }
      | .panic => { io with s := io.s.terminated }

/-- One event at the connection level. When another branch of `select!` (`cla/tcp/mod.rs:140-210`) completes, the
pending read future is dropped together with the bytes it has already consumed: `read_u8`, `read_u64` and
`read_exact` are not cancellation safe. The request branch is only enabled in `SendState::Idle` (`173`). -/
def SessIO.step (e : Env) (io : SessIO) : IOEv → SessIO
  | .bytes b =>
    let buf := io.partialRead ++ b
    SessIO.consume e buf.length { io with partialRead := buf }
  | .request data =>
    if io.s.tx = .idle then { s := io.s.step e (.request data), partialRead := [] } else io
  | .timeout => { s := io.s.step e .timeout, partialRead := [] }

/-! ### Two connected sessions -/

/-- Two sessions at the ends of one TCP connection. Each writes its messages into a stream (its `out` log); `readB` and
`readA` say how many messages of the other side's stream each has read. -/
structure Pair where
  a : Sess
  b : Sess
  readA : Nat := 0
  readB : Nat := 0

namespace Pair

/-- Events at one end that are not the arrival of a message. -/
inductive LocalEv where
  | request (data : Bytes)
  | closed
  | timeout
  | lost
deriving DecidableEq, Repr

/-- The corresponding event of the session. -/
def LocalEv.toEv : LocalEv → Sess.Ev
  | .request d => .request d
  | .closed => .closed
  | .timeout => .timeout
  | .lost => .lost

/-- What can happen to the two sessions: a message under way is received at the other end (the bundle store of
the receiving side has the given content at that moment), or something else happens at one end. -/
inductive Ev where
  | toB (hasItem : Bytes → Bool)
  | toA (hasItem : Bytes → Bool)
  | atA (ev : LocalEv)
  | atB (ev : LocalEv)

/-- One step of the connected pair; TCP delivers the messages of each direction in order. -/
def step (e : Env) (p : Pair) : Ev → Pair
  | .toB has =>
    match p.a.out[p.readB]? with
    | none => p
    | some m => { p with b := p.b.step { e with hasItem := has } (.recv m), readB := p.readB + 1 }
  | .toA has =>
    match p.b.out[p.readA]? with
    | none => p
    | some m => { p with a := p.a.step { e with hasItem := has } (.recv m), readA := p.readA + 1 }
  | .atA ev => { p with a := p.a.step e ev.toEv }
  | .atB ev => { p with b := p.b.step e ev.toEv }

/-- An execution. -/
def run (e : Env) (p : Pair) (evs : List Ev) : Pair := evs.foldl (step e) p

end Pair

end Dtn.Tcpcl
