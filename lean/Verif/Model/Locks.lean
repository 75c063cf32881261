import Verif.Model.EclaLocks
/-! The locks taken by the calls of the daemon, in program order. All of them are mutexes that are not reentrant
(`parking_lot::Mutex`, `std::sync::Mutex` in `routing/erouting` and `cla/ecla`, `tokio::sync::Mutex` in `cla/tcp` and for
websocket sessions). A guard bound by `let` or used in the scrutinee of `if let`, `for` or `match` lives until the end of
the block or statement; a guard in the condition of an `if`, and in any other expression, only for that expression; the
right-hand side of an assignment is evaluated before its left-hand side. -/

namespace Dtn.Locks

/-- `CONFIG`, `DTNCORE`, `PEERS`, `STATS`, `SENDERTASK`, `STORE`, `CLAS` (`lib.rs:34-42`), `CONNECTION` and `RESPONSES`
(`routing/erouting/processing.rs:28-33`), `MTCP_CONNECTIONS` (`cla/mtcp.rs:26-29`), `TCP_CONNECTIONS`
(`cla/tcp/mod.rs:58-60`), the state of a websocket session (`dtnd/ws.rs:60`), `MODULE_MAP`, `CONNECTORS_MAP` and the two
`PEER_MAP`s of external convergence layers (`Model/EclaLocks.lean`). -/
inductive Lock where
  | config
  | core
  | peers
  | stats
  | senderTask
  | store
  | clas
  | connection
  | responses
  | mtcp
  | tcpcl
  | session (n : Nat)
  | modules
  | connectors
  | tcpPeers
  | wsPeers
deriving DecidableEq, Repr

/-- Take or give back a lock. -/
inductive Act where
  | acq (l : Lock)
  | rel (l : Lock)
deriving DecidableEq, Repr

/-- A lock held while something else is done. -/
def inside (l : Lock) (body : List Act) : List Act := .acq l :: body ++ [.rel l]

/-- A lock taken for one expression. -/
def brief (l : Lock) : List Act := inside l []

/-- Locks taken one after the other. -/
def briefs (ls : List Lock) : List Act := ls.flatMap brief

/-- The locks of external convergence layers among those of the daemon. -/
def ofEcla : EclaLocks.Lock → Lock
  | .modules => .modules
  | .connectors => .connectors
  | .tcpPeers => .tcpPeers
  | .wsPeers => .wsPeers
  | .clas => .clas
  | .config => .config
  | .core => .core
  | .peers => .peers

/-- The same for what is done with them. -/
def ofEclaAct : EclaLocks.Act → Act
  | .acq l => .acq (ofEcla l)
  | .rel l => .rel (ofEcla l)

/-- What a handler does with the application agent of an endpoint while it holds `DTNCORE`. -/
inductive Handed where
  /-- nothing that needs another lock -/
  | kept
  /-- `store_remove_if_singleton_bundle`, `core/application_agent.rs:50,60` -/
  | removed
deriving DecidableEq, Repr

/-- The store is used if the bundle is taken out of it. -/
def Handed.acts : Handed → List Act
  | .kept => []
  | .removed => brief .store

/-- A peer in the table: static peers are valid without looking at the configuration, `core/peer.rs:131-134`. -/
inductive Kind where
  | static
  | dynamic
deriving DecidableEq, Repr

/-- `still_valid`, `core/peer.rs:128-152`: the timeout and whether the custom one is used, lines 135 and 136. -/
def Kind.stillValid : Kind → List Act
  | .static => []
  | .dynamic => brief .config ++ brief .config

/-- What a function of `core/processing.rs` does with locks between two points at which it holds none. -/
inductive Piece where
  /-- one of the accesses that last for one expression: `STORE`, `CONFIG`, `DTNCORE`, `STATS`, `PEERS`, `CLAS` and
  `SENDERTASK`, here any lock -/
  | one (l : Lock)
  /-- the end of `local_delivery`, lines 502-506: the application agent and the statistics under `DTNCORE` -/
  | deliver (h : Handed)
deriving DecidableEq, Repr

/-- The locks of such a piece. -/
def Piece.acts : Piece → List Act
  | .one l => brief l
  | .deliver h => inside .core (h.acts ++ brief .stats)

/-- The control flow of `core/processing.rs` is not followed: a call is any sequence of pieces. -/
def pieces (ps : List Piece) : List Act := ps.flatMap Piece.acts

/-- The calls made by the tasks of the daemon. Where control flow decides which locks are taken, the parameter says which
way it went; a list of locks stands for accesses one after the other, in any number and order. -/
inductive Call where
  /-- functions that take one lock at a time: the status pages `httpd.rs:249-311` apart from the verbose list,
  `web_peers` and `web_bundles` (`httpd.rs:180-247`), `insert`, `send`, `register`, `unregister`, `delete`, `download`,
  `push_post`, the routing and peer commands, `require_localhost` (`httpd.rs:66-90`), neighbour discovery
  (`ipnd/neighbour_discovery.rs`), the listeners and senders of `cla/`, `lib.rs:44-275`, the heartbeat and end of sessions
  without subscriptions, `routing/erouting/processing.rs` -/
  | plain (ls : List Lock)
  /-- `/`, `httpd.rs:138-172`: the configuration is held while the context is built and rendered -/
  | indexPage
  /-- `/status/bundles/verbose`, `httpd.rs:291-293` with `core/mod.rs:100-102` -/
  | verbosePage
  /-- `/endpoint`, `/endpoint/hex`, `httpd.rs:614-690`, for a request by path -/
  | fetch (h : Handed)
  /-- a message, delivery, heartbeat or the end of websocket session `n`: `DTNCORE` (with the bundles popped by
  `fetch_new_bundles`, `ws.rs:446-471`) and `CONFIG` are taken under the lock of the session, `ws.rs:75-79,97,117-121,
  136-142,186-310` -/
  | websocket (n : Nat) (ps : List (Option (List Handed)))
  /-- any function of `core/processing.rs` -/
  | processing (ps : List Piece)
  /-- `sender_for_bundle` of the flooding, epidemic, spray and static agents: the peers are walked, and `first_cla`
  (`core/peer.rs:158-172`) looks at the convergence layers for every entry; `routing/flooding.rs:27-40`,
  `epidemic.rs:84-110`, `sprayandwait.rs:135-160`, `static_routing.rs:136-150` -/
  | route (before : List Lock) (lookups : Nat)
  /-- one round of the janitor, `dtnd/janitor.rs:6-18`: `process_peers` (`core/mod.rs:120-142`) for the given peers, then
  `process_bundles` (lines 144-185) and the notifications -/
  | janitor (ks : List Kind) (ps : List Piece)
  /-- `start_dtnd`, `dtnd/daemon.rs:66-164`, and `start_convergencylayers`, lines 57-64, for the given number of static
  peers and endpoints; the lists are the accesses around them -/
  | startup (before : List Lock) (statics : Nat) (between : List Lock) (endpoints : Nat) (after : List Lock)
  /-- the operations of the external convergence layers -/
  | ecla (c : EclaLocks.Call)
deriving DecidableEq, Repr

/-- What is done under the lock of a websocket session: the configuration, or `DTNCORE` with some bundles. -/
def sessionAct : Option (List Handed) → List Act
  | none => brief .config
  | some hs => inside .core (hs.flatMap Handed.acts)

/-- The locks a call takes. -/
def Call.acts : Call → List Act
  | .plain ls => briefs ls
  -- lines 149-153 (the digest reads the store, `cla_names` the layers), 154-166
  | .indexPage =>
    briefs [.config, .config, .config, .store, .clas] ++ inside .config (brief .peers ++ inside .core (brief .store))
  | .verbosePage => inside .core (brief .store)
  | .fetch h => brief .config ++ inside .core h.acts
  | .websocket n ps => inside (.session n) (ps.flatMap sessionAct)
  | .processing ps => pieces ps
  | .route before n => briefs before ++ inside .peers (briefs (List.replicate n .clas))
  | .janitor ks ps => inside .peers (ks.flatMap Kind.stillValid) ++ pieces ps
  | .startup before statics between endpoints after =>
    briefs before ++ inside .config (briefs (List.replicate statics .peers)) ++ briefs between ++
      inside .config (briefs (List.replicate endpoints .core)) ++ brief .clas ++ briefs after
  | .ecla c => c.acts.map ofEclaAct

/-- A thread: the locks it holds and what it still does. -/
structure Thread where
  held : List Lock
  rest : List Act
deriving DecidableEq, Repr

/-- One step of a thread. A lock is available if no thread holds it. Simplified: everything that is not a lock (sockets,
channels, timers) is taken to be ready. -/
def stepThread (ts : List Thread) (t : Thread) : Option Thread :=
  match t.rest with
  | [] => none
  | .acq l :: r => if ts.any fun u => u.held.contains l then none else some { held := l :: t.held, rest := r }
  | .rel l :: r => some { held := t.held.erase l, rest := r }

/-- Thread `i` does its next step. -/
def step (ts : List Thread) (i : Nat) : Option (List Thread) :=
  match ts[i]? with
  | none => none
  | some t => (stepThread ts t).map fun t' => ts.set i t'

/-- The threads after a schedule. -/
def run (ts : List Thread) : List Nat → Option (List Thread)
  | [] => some ts
  | i :: is => (step ts i).bind fun ts => run ts is

/-- The threads of some calls, before they begin. -/
def begin (cs : List Call) : List Thread := cs.map fun c => { held := [], rest := c.acts }

end Dtn.Locks
