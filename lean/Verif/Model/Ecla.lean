import Verif.Model.AList
import Verif.Model.Bundle
/-! Model of the external convergence layers: `cla/ecla/processing.rs`, `cla/ecla/tcp.rs`, `cla/ecla/ws.rs` and
`cla/external.rs`. Every step is what one task does between two acquisitions of the lock of `MODULE_MAP` or `PEER_MAP`. -/

namespace Dtn.Ecla

/-- The connectors, `cla/ecla/ws.rs:114-116` and `cla/ecla/tcp.rs:107-109`. -/
inductive Layer where
  | websocket
  | tcp
deriving DecidableEq, Repr

/-- The key of a connection: the remote address for TCP (`cla/ecla/tcp.rs:34`), a running number for web sockets
(`cla/ecla/ws.rs:31`). The two never collide, since a printed socket address contains a colon. -/
inductive Addr where
  | remote (addr : String)
  | number (n : Nat)
deriving DecidableEq, Repr

/-- The connector an address belongs to. -/
def Addr.layer : Addr → Layer
  | .remote _ => .tcp
  | .number _ => .websocket

/-- `Module` with `ModuleState`, `cla/ecla/processing.rs:35-52`. Names are UTF-8 byte strings. -/
structure Module where
  active : Bool
  name : Bytes
  layer : Layer
  beacon : Bool
deriving DecidableEq, Repr

/-- The service block of a received beacon: not decodable (`cla/ecla/processing.rs:210` panics), decodable but
`convert_services` panics (line 218), or fine. -/
inductive Block where
  | undecodable
  | unconvertible
  | fine
deriving DecidableEq, Repr

/-- Packets received from a module, `cla/ecla/mod.rs:52-114`. `data` carries the bundle its bytes decode to, if any;
`other` is a `Registered` or `Error` packet, or text that is no packet; `binary` is a web socket message that is not
UTF-8. -/
inductive Packet where
  | register (name : Bytes) (beacon : Bool) (port : Option Nat)
  | beacon (eid : EID) (addr : String) (block : Block)
  | data (bundle : Option Bundle)
  | other
  | binary
deriving DecidableEq, Repr

/-- Packets sent to a module, `cla/ecla/mod.rs:52-114`. The contents of `Registered` and `Beacon` are left out. -/
inductive Out where
  | registered
  | beacon
  | invalidName
  | alreadyRegistered
  | data (dest : String) (bundle : Bundle)
deriving DecidableEq, Repr

/-- Where a connection task is in `handle_connection`: before `cla/ecla/tcp.rs:33`, before 40, reading packets, before
70, before 72 and, inside `handle_disconnect`, before `cla/ecla/processing.rs:252` and before 258; before
`cla/ecla/ws.rs:96`, ended, or stopped by a panic. -/
inductive Phase where
  | accepted
  | entered
  | serving
  | stopped
  | leaving
  | half
  | left
  | gone
  | crashed
deriving DecidableEq, Repr

/-- One connection: its task, the channel of `cla/ecla/tcp.rs:29` and the packets taken from it. -/
structure Conn where
  addr : Addr
  phase : Phase := .accepted
  queue : List Out := []
  written : List Out := []
deriving DecidableEq, Repr

/-- The global state: both `PEER_MAP`s (the connection an entry belongs to and whether its close sender is still there,
`cla/ecla/mod.rs:119-122`), `MODULE_MAP`, the names in `CLAS` (`lib.rs:37`), the keys of `CONNECTORS_MAP`, all
connections so far, `ID_COUNTER`, the external CLAs ever created, whether the mutex of `MODULE_MAP` (`poisoned`) or that
of the web sockets' `PEER_MAP` (`wsPoisoned`) is poisoned by a panic, and whether `announcer` runs. `results`, `received` and `encounters` log what transfers returned, the bundles
given to the bundle processing and the peers added. Simplification: the poisoning of `CONNECTORS_MAP` and of the TCP
`PEER_MAP` is not tracked: it only happens together with that of `MODULE_MAP`, which every function that uses them locks
too. -/
structure State where
  peers : AList Addr (Nat × Bool) := []
  modules : AList Addr Module := []
  clas : List Bytes := []
  connectors : List Layer := []
  conns : List Conn := []
  nextId : Nat := 0
  created : List Bytes := []
  poisoned : Bool := false
  wsPoisoned : Bool := false
  announcing : Bool := true
  results : List (Bytes × Option Bool) := []
  received : List (Addr × Bundle) := []
  encounters : List (EID × String) := []
deriving DecidableEq, Repr

/-- `ECLA_NAME_MAX_LEN`, `cla/ecla/processing.rs:22`. -/
def nameMaxLen : Nat := 64

/-- The capacity of a connection's channel, `cla/ecla/tcp.rs:29` and `cla/ecla/ws.rs:33`. -/
def capacity : Nat := 100

/-- Put a packet into a channel unless it is full (`try_send`). -/
def Conn.offer (k : Conn) (p : Out) : Conn :=
  if k.queue.length < capacity then { k with queue := k.queue ++ [p] } else k

/-- `send_packet`, `cla/ecla/tcp.rs:111-128` and `cla/ecla/ws.rs:118-128`. The result is not used by any caller. -/
def State.send (s : State) (a : Addr) (p : Out) : State :=
  match AList.get? s.peers a with
  | none => s
  | some (c, _) => { s with conns := s.conns.modify c fun k => k.offer p }

/-- Set the phase of connection `c`. -/
def State.setPhase (s : State) (c : Nat) (p : Phase) : State :=
  { s with conns := s.conns.modify c fun k => { k with phase := p } }

/-- A panic of connection task `c`. -/
def State.crash (s : State) (c : Nat) : State := s.setPhase c .crashed

/-- `close`, `cla/ecla/tcp.rs:130-137` and `cla/ecla/ws.rs:130-137`, called by task `c` while it holds `MODULE_MAP`. The
second call for the same entry finds no sender and panics. -/
def State.close (s : State) (c : Nat) (a : Addr) : State :=
  match AList.get? s.peers a with
  | none => s
  | some (d, true) => { s with peers := AList.insert s.peers a (d, false) }
  | some (_, false) => { s.crash c with poisoned := true }

/-- The registration of a module, `cla/ecla/processing.rs:129-186`. -/
def State.register (s : State) (c : Nat) (a : Addr) (m : Module) (name : Bytes) : State :=
  if name = [] ∨ name.length > nameMaxLen then (s.send a .invalidName).close c a
  else if name ∉ s.clas then
    let s := { s with
      modules := AList.insert s.modules a { m with name := name, active := true }
      clas := s.clas ++ [name]
      created := s.created ++ [name] }
    let s := s.send a .registered
    if m.beacon then s.send a .beacon else s
  else (s.send a .alreadyRegistered).close c a

/-- `handle_packet`, `cla/ecla/processing.rs:108-231`, called by task `c` for address `a`. The lock of `MODULE_MAP` is
held from beginning to end. -/
def State.handlePacket (s : State) (c : Nat) (a : Addr) (p : Packet) : State :=
  if s.poisoned then s.crash c
  else
    match AList.get? s.modules a with
    | none => s
    | some m =>
      if a.layer ∉ s.connectors then s
      else if m.active then
        match p with
        | .data (some b) => { s with received := s.received ++ [(a, b)] }
        | .beacon eid addr .fine => { s with encounters := s.encounters ++ [(eid, addr)] }
        | .beacon _ _ _ => { s.crash c with poisoned := true }
        | _ => s
      else
        match p with
        | .register name _ _ => s.register c a m name
        | _ => s

/-- The steps of `handle_connection` other than reading packets: `cla/ecla/tcp.rs:33-40` and 70-73, `cla/ecla/ws.rs:36-43`
and 95-96, with `handle_connect` (`cla/ecla/processing.rs:235-245`) and the two halves of `handle_disconnect` (lines
252-256 and 258). The TCP connector removes the peer before it calls `handle_disconnect` and calls it only if the peer
was there; the web socket connector removes the peer after it. -/
def State.proceed (s : State) (c : Nat) : Option State :=
  match s.conns[c]? with
  | none => none
  | some k =>
    match k.phase with
    | .accepted =>
      if s.wsPoisoned ∧ k.addr.layer = .websocket then some (s.crash c)
      else some { s.setPhase c .entered with peers := AList.insert s.peers k.addr (c, true) }
    | .entered =>
      if s.poisoned then some (s.crash c)
      else some { s.setPhase c .serving with
        modules := AList.insert s.modules k.addr { active := false, name := [], layer := k.addr.layer, beacon := true } }
    | .stopped =>
      match k.addr.layer with
      | .websocket => some (s.setPhase c .leaving)
      | .tcp =>
        if AList.contains s.peers k.addr then
          some { s.setPhase c .leaving with peers := AList.erase s.peers k.addr }
        else some (s.setPhase c .gone)
    | .leaving =>
      if s.poisoned then some (s.crash c)
      else
        match AList.get? s.modules k.addr with
        | some m =>
          if m.active then some { s.setPhase c .half with clas := s.clas.filter fun n => n ≠ m.name }
          else some (s.setPhase c .half)
        | none => some (s.setPhase c .half)
    | .half =>
      if s.poisoned then some (s.crash c)
      else some { s.setPhase c (match k.addr.layer with | .tcp => .gone | .websocket => .left) with
        modules := AList.erase s.modules k.addr }
    | .left =>
      if s.wsPoisoned then some (s.crash c)
      else some { s.setPhase c .gone with peers := AList.erase s.peers k.addr }
    | .serving | .gone | .crashed => none

/-- The loops of `scheduled_submission`, `cla/ecla/processing.rs:271-287`, and `announcer`, lines 90-103, over the entries of
`MODULE_MAP`: send to every chosen module whose connector exists. The flag tells whether there was one; `none` is a panic
of `send_packet` at a poisoned `PEER_MAP`. -/
def sendAll (choose : Module → Bool) (p : Out) (s : State) (r : Option Bool) : List (Addr × Module) → State × Option Bool
  | [] => (s, r)
  | (a, m) :: ms =>
    if choose m ∧ m.layer ∈ s.connectors then
      if s.wsPoisoned ∧ m.layer = .websocket then ({ s with poisoned := true }, none)
      else sendAll choose p (s.send a p) (some true) ms
    else sendAll choose p s r ms

/-- `scheduled_submission`, `cla/ecla/processing.rs:262-290`. `none`: a panic. The bundle is `none` if the bytes do not
decode to one. -/
def State.submit (s : State) (name : Bytes) (dest : String) (bundle : Option Bundle) : State × Option Bool :=
  if s.poisoned then (s, none)
  else
    match bundle with
    | none => (s, some false)
    | some b => sendAll (fun m => decide (m.name = name)) (.data dest b) s (some false) s.modules

/-- One round of `announcer`, `cla/ecla/processing.rs:90-103`; a panic ends it. -/
def State.announce (s : State) : State :=
  if s.poisoned then { s with announcing := false }
  else
    let r := sendAll (fun m => m.beacon) .beacon s (some false) s.modules
    { r.1 with announcing := r.2.isSome }

/-- What can happen. -/
inductive Ev where
  | acceptTcp (addr : String)
  | acceptWs
  | proceed (c : Nat)
  | packet (c : Nat) (p : Packet)
  | stop (c : Nat)
  | write (c : Nat)
  | submit (name : Bytes) (dest : String) (bundle : Option Bundle)
  | announce
deriving DecidableEq, Repr

/-- One step. `none`: it cannot happen in this state. -/
def step (s : State) : Ev → Option State
  -- `cla/ecla/tcp.rs:101-103`
  | .acceptTcp addr => some { s with conns := s.conns ++ [{ addr := .remote addr }] }
  -- `cla/ecla/ws.rs:29-31`
  | .acceptWs => some { s with conns := s.conns ++ [{ addr := .number s.nextId }], nextId := s.nextId + 1 }
  | .proceed c => s.proceed c
  -- `cla/ecla/tcp.rs:53-56` and `cla/ecla/ws.rs:48-75`; line 66 panics for binary data while it holds `PEER_MAP`
  | .packet c p =>
    match s.conns[c]? with
    | none => none
    | some k =>
      if k.phase = .serving then
        if k.addr.layer = .websocket ∧ s.wsPoisoned then some (s.crash c)
        else if p = .binary then
          if k.addr.layer = .websocket then some { s.crash c with wsPoisoned := true } else none
        else some (s.handlePacket c k.addr p)
      else none
  -- `cla/ecla/tcp.rs:68` and `cla/ecla/ws.rs:88-92`: the remote side, the channel or `close` ends the connection
  | .stop c =>
    match s.conns[c]? with
    | none => none
    | some k => if k.phase = .serving then some (s.setPhase c .stopped) else none
  -- `cla/ecla/tcp.rs:58-64` and `cla/ecla/ws.rs:78-84`
  | .write c =>
    match s.conns[c]? with
    | none => none
    | some k =>
      match k.queue with
      | [] => none
      | p :: q => some { s with conns := s.conns.set c { k with queue := q, written := k.written ++ [p] } }
  -- `cla/external.rs:37-50`: a transfer for a CLA that was created for some module
  | .submit name dest bundle =>
    if name ∈ s.created then
      let r := s.submit name dest bundle
      some { r.1 with results := r.1.results ++ [(name, r.2)] }
    else none
  | .announce => if s.announcing then some s.announce else none

/-- A run. -/
def run (s : State) : List Ev → Option State
  | [] => some s
  | e :: es => (step s e).bind fun s => run s es

/-- The state at the start: the configured CLAs (`dtnd/daemon.rs`) and the connectors of `start_ecla`,
`cla/ecla/processing.rs:301-315`. -/
def start (clas : List Bytes) (tcp : Bool) : State :=
  { clas := clas, connectors := if tcp then [.websocket, .tcp] else [.websocket] }

end Dtn.Ecla
