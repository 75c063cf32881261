import Verif.Model.Mtcp
import Verif.Model.EclaFrames
import Verif.Model.ModuleClient
/-! Model of the programs `examples/dtnecla_mtcp.rs` and `examples/dtnecla_json_mtcp.rs`, external convergence layers that carry bundles over TCP.
Their connection with the node is the client library of `Model/ModuleClient.lean`; here it only hands over packets and takes packets. -/

namespace Dtn.Bridge
open ModuleClient (EclaPacket)

/-- What becomes of a frame that was read: a packet for the node, nothing, or the end of reading. -/
inductive Item where
  | pass (p : EclaPacket)
  | skip
  | stop
deriving DecidableEq, Repr

/-- In what the two programs differ: where a packet is sent and what is written, how frames are cut out of the chunks that are read and whether
this has failed, what is made of a frame read from an address, whether packets wait for room in the channel to the client, and whether the
program ends when its client does. -/
structure Prog where
  frame : EclaPacket → Option (String × Bytes)
  frames : List Bytes → List Bytes × Bool
  item : String → Bytes → Item
  waits : Bool
  exits : Bool

/-- Encodings that are not part of the programs: bundles (`bp7`) and packets as JSON (`serde_json`). -/
structure Codec where
  bid : Bundle → String
  wire : Bundle → Bytes
  parse : Bytes → Option Bundle
  json : EclaPacket → Bytes
  fromJson : Bytes → Option EclaPacket

/-- `examples/dtnecla_mtcp.rs`. Sending: lines 206-226. A bundle that cannot be parsed and every other packet is ignored. Receiving: lines 34-64;
`FramedRead` yields the frames of the codec in order. The channel: lines 42-49. The end: lines 190-199. -/
def mtcp (x : Codec) : Prog where
  frame
    | .data _ dst _ bytes => (x.parse bytes).map fun b => (dst, Mtcp.encode (x.wire b))
    | _ => none
  frames cs := ((Mtcp.receive cs).frames, (Mtcp.receive cs).failed)
  item addr f :=
    match x.parse f with
    | some b => .pass (.data "" addr (x.bid b) (x.wire b))
    | none => .stop
  waits := true
  exits := true

/-- `examples/dtnecla_json_mtcp.rs`. Sending: lines 183-202. Receiving: lines 32-51; a frame that is no packet is an error that the loop ignores,
and after an error of `FramedRead` the stream ends. The channel: line 44. The end: line 176. -/
def jsonMtcp (x : Codec) : Prog where
  frame
    | .data src dst bid bytes => some (dst, EclaFrames.frame (x.json (.data src dst bid bytes)))
    | _ => none
  frames cs := ((EclaFrames.receive cs).packets, (EclaFrames.receive cs).failed)
  item _ f :=
    match x.fromJson f with
    | some p => .pass p
    | none => .skip
  waits := false
  exits := false

/-- The capacity of the program's channels, `examples/dtnecla_mtcp.rs:159-160`, `examples/dtnecla_json_mtcp.rs:146-147`. -/
def capacity : Nat := 100

/-- An outgoing connection: where to, and the bytes the other end can read. -/
structure Outgoing where
  addr : String
  written : Bytes := []
deriving DecidableEq, Repr

/-- An incoming connection: from where, what has been read from it, whether it has ended, how many frames have been dealt with, and whether
`handle_connection` has returned. -/
structure Incoming where
  addr : String
  chunks : List Bytes := []
  closed : Bool := false
  used : Nat := 0
  done : Bool := false
deriving DecidableEq, Repr

/-- What became of a packet of the client: written on a connection, nothing was to be written, or it could not be written. -/
inductive Fate where
  | written (c : Nat)
  | ignored
  | lost
deriving DecidableEq, Repr

/-- The program. `rx` and `ctx` are its channels, `busy` is the packet for which `send_bundle` has its connection but has not written yet
(before `examples/dtnecla_mtcp.rs:106`, `examples/dtnecla_json_mtcp.rs:93`), `pool` is `MTCP_CONNECTIONS`. `handled` records the packets that came
out of `rx`, `offered` the packets that were to go into `ctx`, with the connection they came from and whether they went in, and `given` the
packets that the client got; nothing reads the three. `client`: the client is running. `ended`: the program has ended. -/
structure State where
  rx : List EclaPacket := []
  busy : Option (EclaPacket × String × Bytes) := none
  pool : AList String Nat := []
  outs : List Outgoing := []
  ins : List Incoming := []
  ctx : List EclaPacket := []
  handled : List (EclaPacket × Fate) := []
  offered : List (Nat × EclaPacket × Bool) := []
  given : List EclaPacket := []
  client : Bool := true
  ended : Bool := false
deriving DecidableEq, Repr

/-- What can happen. -/
inductive Ev where
  /-- the client passes a packet of the node to the program -/
  | packet (p : EclaPacket)
  /-- the next packet is looked at; if a connection has to be opened, does that succeed? -/
  | pick (ok : Bool)
  /-- the frame is written; `some k`: writing fails after `k` bytes -/
  | write (r : Option Nat)
  /-- somebody connects -/
  | accept (addr : String)
  /-- bytes are read from incoming connection `i` -/
  | chunk (i : Nat) (bytes : Bytes)
  /-- incoming connection `i` is closed by the other side -/
  | close (i : Nat)
  /-- the task of incoming connection `i` takes the next frame, or returns if there is none to come -/
  | next (i : Nat)
  /-- the next packet for the node is given to the client -/
  | take
  /-- the client ends -/
  | clientEnds
deriving DecidableEq, Repr

/-- `handle_connection` of connection `i` returns, `examples/dtnecla_mtcp.rs:66-70`, `examples/dtnecla_json_mtcp.rs:53-57`. -/
def State.finish (s : State) (i : Nat) (c : Incoming) : State :=
  { s with ins := s.ins.set i { c with done := true }, pool := s.pool.erase c.addr }

/-- One step. `none`: it cannot happen in this state. -/
def State.step (g : Prog) (s : State) (e : Ev) : Option State :=
  if s.ended then none
  else match e with
  | .packet p => if s.client ∧ s.rx.length < capacity then some { s with rx := s.rx ++ [p] } else none
  -- `examples/dtnecla_mtcp.rs:89-104`, `207-215`; `examples/dtnecla_json_mtcp.rs:77-91`, `184-194`
  | .pick ok =>
    match s.busy, s.rx with
    | none, p :: rx =>
      match g.frame p with
      | none => some { s with rx, handled := s.handled ++ [(p, .ignored)] }
      | some (dst, data) =>
        if s.pool.contains dst then some { s with rx, busy := some (p, dst, data) }
        else if ok then some { s with rx, busy := some (p, dst, data), outs := s.outs ++ [{ addr := dst }], pool := s.pool.insert dst s.outs.length }
        else some { s with rx, handled := s.handled ++ [(p, .lost)] }
    | _, _ => none
  -- `examples/dtnecla_mtcp.rs:106-119`, `examples/dtnecla_json_mtcp.rs:93-106`; the task panics if the connection has been removed, and so `main`
  -- returns
  | .write r =>
    match s.busy with
    | none => none
    | some (p, dst, data) =>
      match s.pool.get? dst with
      | none => some { s with busy := none, handled := s.handled ++ [(p, .lost)], ended := true }
      | some c =>
        match s.outs[c]? with
        | none => none
        | some o =>
          match r with
          | none => some { s with busy := none, outs := s.outs.set c { o with written := o.written ++ data }, handled := s.handled ++ [(p, .written c)] }
          | some k =>
            if k < data.length then
              some { s with busy := none, outs := s.outs.set c { o with written := o.written ++ data.take k }, pool := s.pool.erase dst, handled := s.handled ++ [(p, .lost)] }
            else none
  -- `examples/dtnecla_mtcp.rs:81-86`, `examples/dtnecla_json_mtcp.rs:68-73`
  | .accept addr => some { s with ins := s.ins ++ [{ addr }] }
  | .chunk i bytes =>
    match s.ins[i]? with
    | some c => if c.closed = false ∧ c.done = false then some { s with ins := s.ins.set i { c with chunks := c.chunks ++ [bytes] } } else none
    | none => none
  | .close i =>
    match s.ins[i]? with
    | some c => if c.closed = false ∧ c.done = false then some { s with ins := s.ins.set i { c with closed := true } } else none
    | none => none
  -- `examples/dtnecla_mtcp.rs:36-64`, `examples/dtnecla_json_mtcp.rs:41-51`
  | .next i =>
    match s.ins[i]? with
    | none => none
    | some c =>
      if c.done then none
      else match (g.frames c.chunks).1[c.used]? with
      | some f =>
        match g.item c.addr f with
        | .pass p =>
          if s.ctx.length < capacity then
            some { s with ins := s.ins.set i { c with used := c.used + 1 }, ctx := s.ctx ++ [p], offered := s.offered ++ [(i, p, true)] }
          else if g.waits then none
          else some { s with ins := s.ins.set i { c with used := c.used + 1 }, offered := s.offered ++ [(i, p, false)] }
        | .skip => some { s with ins := s.ins.set i { c with used := c.used + 1 } }
        | .stop => some (s.finish i c)
      | none => if (g.frames c.chunks).2 ∨ c.closed then some (s.finish i c) else none
  -- `examples/dtnecla_mtcp.rs:180-183`, `examples/dtnecla_json_mtcp.rs:166-169`
  | .take => match s.ctx with | [] => none | p :: ctx => some { s with ctx, given := s.given ++ [p] }
  | .clientEnds => if s.client then some { s with client := false, ended := g.exits } else none

/-- A sequence of events. -/
def State.run (g : Prog) (s : State) : List Ev → Option State
  | [] => some s
  | e :: es => (s.step g e).bind fun t => t.run g es

end Dtn.Bridge
