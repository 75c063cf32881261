import Verif.Model.Ws
/-! Model of the programs `examples/dtnecho2.rs` and `examples/dtnping.rs`, which use the web socket of a node. -/

namespace Dtn.EchoPing
open Ws

/-- `WsRecvData` of the `dtn7-plus` crate, as used in both programs. -/
structure RecvData where
  bid : String
  src : String
  dst : String
  data : Bytes
deriving DecidableEq, Repr

/-- The two functions of `serde_cbor` that the programs use, for these types. -/
structure Io where
  recv : Bytes → Option RecvData
  send : SendData → Bytes

/-- What the program writes on the socket. -/
inductive Up where
  | text (s : String)
  | binary (b : Bytes)
deriving DecidableEq, Repr

/-- Where the echo program is: waiting for the answer to `/data` (`examples/dtnecho2.rs:54`), for the one to `/subscribe` (line 62), in
its loop (line 69), or over. -/
inductive Phase where
  | mode
  | subscribe
  | serving
  | ended
deriving DecidableEq, Repr

/-- The name of the echo service, `examples/dtnecho2.rs:39-48`: by the scheme of the node's id. -/
def service (dtn : Bool) : String := if dtn then "echo" else "7"

/-- `starts_with`. -/
def startsWith (t : String) (p : String) : Bool := p.toList.isPrefixOf t.toList

/-- The response to a bundle, `examples/dtnecho2.rs:99-109`. -/
def response (d : RecvData) : SendData := { src := d.dst, dst := d.src, lifetime := 3600 * 24 * 1000, notify := false, data := d.data }

/-- What the echo program does with a message, `examples/dtnecho2.rs:53-123`; `endpoint` is its service name. A bundle it cannot
decode panics (line 84). Simplification: in the first two phases a message that is no text ends the program like a wrong one. -/
def echo (io : Io) (endpoint : String) (phase : Phase) (m : Msg) : Phase × List Up :=
  match phase, m with
  | .mode, .text t => if startsWith t "200 tx mode: data" then (.subscribe, [.text ("/subscribe " ++ endpoint)]) else (.ended, [])
  | .mode, _ => (.ended, [])
  | .subscribe, .text t => if startsWith t "200 subscribed" then (.serving, []) else (.ended, [])
  | .subscribe, _ => (.ended, [])
  | .serving, .binary b =>
    match io.recv b with
    | some d => (.serving, [.binary (io.send (response d))])
    | none => (.ended, [])
  | .serving, _ => (.serving, [])
  | .ended, _ => (.ended, [])

/-- The echo program and its node. `evs` is what has happened at the web socket side of the node, `conn` the number of the program's
connection, `got` how many of the messages for it the program has read, `up` what it has written and the node has not handled yet. -/
structure System where
  evs : List Ev
  conn : Nat
  got : Nat := 0
  up : List Up := [.text "/data"]
  phase : Phase := .mode
deriving DecidableEq, Repr

/-- The program connects, `examples/dtnecho2.rs:49-53`, when `before` has happened at the node. -/
def start (before : List Ev) : System := { evs := before ++ [.connect], conn := before.count .connect }

/-- What can happen: something else at the node, the program reads the next message, or the node handles the next message of the
program. -/
inductive Move where
  | other (ev : Ev)
  | read
  | handle
deriving DecidableEq, Repr

/-- Is the event a message of client `i`? -/
def from' (i : Nat) : Ev → Bool
  | .text j _ | .binary j _ | .ping j _ => j == i
  | _ => false

/-- The hub after some events. -/
def hub (x : Ext) (host : EID) (store : MemStore) (evs : List Ev) : Hub := run x host (Ws.init store) evs

/-- Effect of a move; `none` if it cannot happen. -/
def System.step (x : Ext) (host : EID) (store : MemStore) (io : Io) (endpoint : String) (s : System) : Move → Option System
  | .other ev => if from' s.conn ev then none else some { s with evs := s.evs ++ [ev] }
  | .read =>
    match (hub x host store s.evs).sessions[s.conn]? with
    | none => none
    | some t =>
      match t.out[s.got]? with
      | none => none
      | some m => if s.phase = .ended then none else some { s with got := s.got + 1, phase := (echo io endpoint s.phase m).1, up := s.up ++ (echo io endpoint s.phase m).2 }
  | .handle =>
    match s.up with
    | [] => none
    | .text t :: up => some { s with evs := s.evs ++ [.text s.conn t], up }
    | .binary b :: up => some { s with evs := s.evs ++ [.binary s.conn b], up }

/-- A run. -/
def System.run (x : Ext) (host : EID) (store : MemStore) (io : Io) (endpoint : String) (s : System) : List Move → Option System
  | [] => some s
  | m :: ms => (s.step x host store io endpoint m).bind fun s => s.run x host store io endpoint ms

/-! The ping program. -/

/-- What `read_message` gives the ping program, `examples/dtnping.rs:147-200`: a text, a bundle, another message (the node asks for a sign of
life every few seconds, `dtnd/ws.rs:93-109`), nothing in time, or an error. `bundle none` cannot be decoded. -/
inductive Heard where
  | text
  | bundle (d : Option RecvData)
  | other
  | timeout
  | broken
deriving DecidableEq, Repr

/-- The variables of the loop, `examples/dtnping.rs:90,130-131`: `seq_num`, `successful_pings` and whether it is ready to send. `exit` is
the exit code once the program has ended. -/
structure Ping where
  seq : Nat := 0
  ok : Nat := 0
  ready : Bool := true
  exit : Option Nat := none
deriving DecidableEq, Repr

/-- The first half of a round, `examples/dtnping.rs:135-145`, and the end of the program, lines 203-211; `count` is the argument. The second
part of the result says whether a ping is written. Simplification: numbers do not overflow, and writing succeeds. -/
def Ping.turn (count : Int) (p : Ping) : Ping × Bool :=
  if !p.ready then (p, false)
  else if count > 0 ∧ (p.seq : Int) = count then ({ p with exit := some (if (p.ok : Int) < count then 1 else 0) }, false)
  else ({ p with seq := p.seq + 1, ready := false }, true)

/-- The second half, `examples/dtnping.rs:147-200`. A panic ends the program with code 101 and an error with code 1. -/
def Ping.hear (p : Ping) : Heard → Ping
  | .text | .other => p
  | .bundle (some _) => { p with ok := p.ok + 1, ready := true }
  | .bundle none => { p with exit := some 101 }
  | .timeout => { p with ready := true }
  | .broken => { p with exit := some 1 }

/-- What is seen from outside: the pings it writes, with the number printed (line 142), what it hears, and the number printed for a bundle
(line 179). -/
inductive Seen where
  | ping (n : Nat)
  | heard (h : Heard)
  | reply (n : Nat)
deriving DecidableEq, Repr

/-- The first half, with what is seen of it; nothing once the program has ended. -/
def Ping.send (count : Int) (p : Ping) : Ping × List Seen :=
  if p.exit.isSome then (p, []) else ((p.turn count).1, if (p.turn count).2 then [.ping (p.turn count).1.seq] else [])

/-- The second half, with what is seen of it. -/
def Ping.seen (p : Ping) : Heard → List Seen
  | .bundle (some d) => [.heard (.bundle (some d)), .reply p.seq]
  | h => [.heard h]

/-- It hears something and goes on to the next read. -/
def Ping.round (count : Int) (s : Ping × List Seen) (h : Heard) : Ping × List Seen :=
  if s.1.exit.isSome then s else (((s.1.hear h).send count).1, s.2 ++ s.1.seen h ++ ((s.1.hear h).send count).2)

/-- The program up to where it waits after hearing `hs`, and what was seen of it. -/
def Ping.run (count : Int) (hs : List Heard) : Ping × List Seen := hs.foldl (Ping.round count) (Ping.send count {})

/-- Reading with a timeout, `examples/dtnping.rs:108-109,147-163`: the program reads from the time `now` on, and the messages arrive at the
given times. Each read gives up when `timeout` has passed without a message, and the next one starts. The result is what it hears up to the last
message. Simplification: the second that it sleeps after a bundle (line 192) and the time it takes to write are left out. -/
def hears (timeout : Nat) : Nat → List (Nat × Heard) → List Heard
  | _, [] => []
  | now, (t, h) :: ms => List.replicate ((t - now) / timeout) .timeout ++ h :: hears timeout (max now t) ms

end Dtn.EchoPing
