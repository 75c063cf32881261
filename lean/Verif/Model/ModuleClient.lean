import Verif.Model.Setup
/-! Model of the client library of external convergence layers and external routers: `cla/ecla/ws_client.rs` and
`routing/erouting/ws_client.rs`, which differ in the registration and in what they do with received packets. -/

namespace Dtn.ModuleClient

open Setup (Text)

/-- The outcome of `new`. -/
inductive Made where
  | client (ip : Text) (port : Nat)
  | refused
  | panicked
deriving DecidableEq, Repr

/-- `new`, `cla/ecla/ws_client.rs:43-80` with `router := false` and `routing/erouting/ws_client.rs:33-52` with
`router := true`: there the port is parsed with `expect`. -/
def new (router : Bool) (addr : Text) : Made :=
  match Setup.split ':' addr with
  | [ip, p] =>
    match Routing.StaticRouting.parseU16 p with
    | some port => .client ip port
    | none => if router then .panicked else .refused
  | _ => .refused

/-- `Command`, `cla/ecla/ws_client.rs:13-18` and `routing/erouting/ws_client.rs:10-15`. -/
inductive Command (α : Type) where
  | send (p : α)
  | close
deriving DecidableEq, Repr

/-- What is done with a received packet: pass it on to the module, keep its error text for the end, or nothing. -/
inductive Relayed (α : Type) where
  | pass (p : α)
  | error (reason : String)
  | nothing
deriving DecidableEq, Repr

/-- In what the two clients differ: the registration packet and the handling of packets. -/
structure Kind (α : Type) where
  registration : Option α
  relay : α → Relayed α

/-- `Packet`, `cla/ecla/mod.rs:52-114`. -/
inductive EclaPacket where
  | register (name : String) (beacon : Bool) (port : Option Nat)
  | beacon (eid : EID) (addr : String) (block : Bytes)
  | data (src dst bid : String) (bytes : Bytes)
  | registered (eid : EID) (nodeid : String)
  | error (reason : String)
deriving DecidableEq, Repr

/-- The client of a convergence layer module, `cla/ecla/ws_client.rs:92-103` and `137-167`. -/
def ecla (name id : String) (beacon : Bool) (port : Option Nat) : Kind EclaPacket where
  registration := some (.register name beacon port)
  relay
    | .data _ dst bid bytes => .pass (.data id dst bid bytes)
    | .registered eid nodeid => .pass (.registered eid nodeid)
    | .beacon eid _ block => .pass (.beacon eid id block)
    | .error reason => .error reason
    | .register .. => .nothing

/-- The client of a router, `routing/erouting/ws_client.rs:93-97`. -/
def erouting (α : Type) : Kind α := { registration := none, relay := .pass }

/-- What the connection yields: an error, a message that is not UTF-8, or text, with the packet it encodes if it is one. -/
inductive Message (α : Type) where
  | broken
  | binary
  | text (p : Option α)
deriving DecidableEq, Repr

/-- Who has the receiving end of the command channel: the client, the writing task of a connection (which goes on when `serve`
has returned, since dropping its handle does not stop it), or nobody. -/
inductive Holder where
  | client
  | writer (conn : Nat)
  | nobody
deriving DecidableEq, Repr

/-- Where `serve` is. -/
inductive Phase where
  | idle
  /-- connected, before the registration is queued -/
  | connected (conn : Nat)
  /-- in `select` -/
  | serving (conn : Nat)
deriving DecidableEq, Repr

/-- How `serve` ended. -/
inductive Result where
  | ok
  | unconnected
  | unregistered
  | refused (reason : String)
  | panicked
deriving DecidableEq, Repr

/-- The state of a client, `cla/ecla/ws_client.rs:20-31`. Simplification: the client object is kept, so that the command channel
has a sender, and its id and port are not changed while it is used. `taken` logs the packets that writing tasks have taken from the channel, with the connection and whether
they could be written; `passed` those handed to the module. -/
structure State (α : Type) where
  queue : List (Command α) := []
  holder : Holder := .client
  phase : Phase := .idle
  conns : Nat := 0
  errors : List String := []
  taken : List (Nat × α × Bool) := []
  passed : List α := []
  results : List Result := []
deriving DecidableEq, Repr

/-- The capacity of the command channel, `cla/ecla/ws_client.rs:59`, `routing/erouting/ws_client.rs:43`. -/
def capacity : Nat := 100

/-- What can happen. -/
inductive Ev (α : Type) where
  /-- a user of the command channel sends a command -/
  | command (c : Command α)
  /-- `serve` is called; does it connect? -/
  | serve (ok : Bool)
  /-- the registration is queued and the writing task started -/
  | begin
  /-- the writing task handles a command; can the packet be written? -/
  | write (ok : Bool)
  | message (m : Message α)
  /-- the connection ends -/
  | lost
  /-- `serve` sees that its writing task has ended -/
  | finish
deriving DecidableEq, Repr

variable {α : Type}

/-- `serve` returns, `cla/ecla/ws_client.rs:177-181`, `routing/erouting/ws_client.rs:106`. -/
def State.return (s : State α) : State α :=
  { s with
    phase := .idle
    errors := []
    results := s.results ++ [match s.errors with | [] => .ok | r :: _ => .refused r] }

/-- After the registration: the writing task is started with the receiving end, `cla/ecla/ws_client.rs:105-107`, `routing/erouting/ws_client.rs:64-66`. In later calls
the client has only the end of a channel without senders, and the task ends at once. -/
def State.start (s : State α) (conn : Nat) : State α :=
  { s with phase := .serving conn, holder := if s.holder = .client then .writer conn else s.holder }

/-- A received packet, `cla/ecla/ws_client.rs:135-168`, `routing/erouting/ws_client.rs:93-97`. Simplification: the module takes
packets from its channel and keeps it open. -/
def State.receive (k : Kind α) (s : State α) (p : α) : State α :=
  match k.relay p with
  | .pass p => { s with passed := s.passed ++ [p] }
  | .error r => { s with errors := s.errors ++ [r] }
  | .nothing => s

/-- One step. `none`: it cannot happen in this state. -/
def step (k : Kind α) (s : State α) : Ev α → Option (State α)
  -- sending fails without effect if the receiving end is gone, and waits if the channel is full
  | .command c =>
    if s.holder = .nobody then some s
    else if s.queue.length < capacity then some { s with queue := s.queue ++ [c] } else none
  -- `cla/ecla/ws_client.rs:84-90`, `routing/erouting/ws_client.rs:56-62`
  | .serve ok =>
    if s.phase = .idle then
      if ok then some { s with phase := .connected s.conns, conns := s.conns + 1 }
      else some { s with results := s.results ++ [.unconnected] }
    else none
  -- `cla/ecla/ws_client.rs:92-107`, `routing/erouting/ws_client.rs:64-66`
  | .begin =>
    match s.phase with
    | .connected c =>
      match k.registration with
      | none => some (s.start c)
      | some r =>
        if s.holder = .nobody then some { s with phase := .idle, results := s.results ++ [.unregistered] }
        else if s.queue.length < capacity then some (({ s with queue := s.queue ++ [.send r] } : State α).start c) else none
    | _ => none
  -- `cla/ecla/ws_client.rs:108-120`, `routing/erouting/ws_client.rs:67-79`
  | .write ok =>
    match s.holder, s.queue with
    | .writer c, .send p :: q => some { s with queue := q, taken := s.taken ++ [(c, p, ok)] }
    | .writer _, .close :: _ => some { s with queue := [], holder := .nobody }
    | _, _ => none
  -- `cla/ecla/ws_client.rs:127-135`, `routing/erouting/ws_client.rs:84-93`: the `unwrap` of the text panics
  | .message m =>
    match s.phase with
    | .serving _ =>
      match m with
      | .broken => some s
      | .binary => some { s with phase := .idle, errors := [], results := s.results ++ [.panicked] }
      | .text none => some s
      | .text (some p) => some (s.receive k p)
    | _ => none
  -- `cla/ecla/ws_client.rs:175`, `routing/erouting/ws_client.rs:104`: the reading half of `select`
  | .lost =>
    match s.phase with
    | .serving _ => some s.return
    | _ => none
  -- `cla/ecla/ws_client.rs:175`, `routing/erouting/ws_client.rs:104`: the writing half of `select`
  | .finish =>
    match s.phase with
    | .serving c => if s.holder = .writer c then none else some s.return
    | _ => none

/-- A run. -/
def run (k : Kind α) (s : State α) : List (Ev α) → Option (State α)
  | [] => some s
  | e :: es => (step k s e).bind fun s => run k s es

end Dtn.ModuleClient
