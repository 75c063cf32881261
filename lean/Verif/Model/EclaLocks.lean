import Verif.Model.Ecla
/-! The locks taken by `cla/ecla/processing.rs`, `cla/ecla/tcp.rs` and `cla/ecla/ws.rs`, in program order. -/

namespace Dtn.EclaLocks

/-- `MODULE_MAP`, `CONNECTORS_MAP` (`cla/ecla/processing.rs:27-32`), the two `PEER_MAP`s (`cla/ecla/tcp.rs:22`,
`cla/ecla/ws.rs:22`) and the daemon's `CLAS`, `CONFIG`, `DTNCORE` and `PEERS` (`lib.rs:34-42`). -/
inductive Lock where
  | modules
  | connectors
  | tcpPeers
  | wsPeers
  | clas
  | config
  | core
  | peers
deriving DecidableEq, Repr

/-- Take or give back a lock. -/
inductive Act where
  | acq (l : Lock)
  | rel (l : Lock)
deriving DecidableEq, Repr

/-- A lock taken for one expression. -/
def brief (l : Lock) : List Act := [.acq l, .rel l]

/-- The `PEER_MAP` of a connector. -/
def peerMap : Ecla.Layer → Lock
  | .tcp => .tcpPeers
  | .websocket => .wsPeers

/-- `generate_beacon`, `cla/ecla/processing.rs:55-82`. -/
def beacon : List Act := brief .config ++ brief .clas ++ brief .core

/-- What happens inside `handle_packet` after the connector check. -/
inductive Case where
  | ignored
  | invalidName
  | registered
  | nameTaken
  | data
  | beacon
deriving DecidableEq, Repr

/-- `cla/ecla/processing.rs:126-230`. -/
def Case.acts (l : Ecla.Layer) : Case → List Act
  | .ignored | .data => []
  -- lines 135-147
  | .invalidName => .acq .connectors :: brief (peerMap l) ++ brief (peerMap l) ++ [.rel .connectors]
  -- lines 135-174
  | .registered =>
    .acq .connectors :: brief .clas ++ brief .clas ++ brief .config ++ brief .config ++ brief (peerMap l) ++
      EclaLocks.beacon ++ brief (peerMap l) ++ [.rel .connectors]
  -- lines 135-137 and 175-185
  | .nameTaken => .acq .connectors :: brief .clas ++ brief (peerMap l) ++ brief (peerMap l) ++ [.rel .connectors]
  -- lines 206-227
  | .beacon => brief .peers ++ brief .core

/-- The calls that take these locks. -/
inductive Call where
  /-- `handle_packet`, `cla/ecla/processing.rs:108-231`, of a module in the table -/
  | packet (l : Ecla.Layer) (c : Case)
  /-- `handle_packet` of a module that is not in the table, lines 109-115 -/
  | unknown
  /-- `handle_connection` up to line 40 of `cla/ecla/tcp.rs` (43 of `cla/ecla/ws.rs`) with `handle_connect` -/
  | connect (l : Ecla.Layer)
  /-- `handle_connection` from line 70 of `cla/ecla/tcp.rs` (95 of `cla/ecla/ws.rs`) with `handle_disconnect` -/
  | disconnect (l : Ecla.Layer) (active : Bool)
  /-- one round of `announcer`, `cla/ecla/processing.rs:90-103`, for the given modules -/
  | announce (ls : List Ecla.Layer)
  /-- `scheduled_submission`, `cla/ecla/processing.rs:262-290`, to the given modules; the locals are dropped in reverse
  order -/
  | submit (ls : List Ecla.Layer)
deriving DecidableEq, Repr

/-- `handle_disconnect`, `cla/ecla/processing.rs:249-259`: the first guard lives until line 256. -/
def disconnectActs (active : Bool) : List Act :=
  .acq .modules :: (if active then brief .clas else []) ++ [.rel .modules] ++ brief .modules

/-- The locks a call takes. -/
def Call.acts : Call → List Act
  | .packet l c => .acq .modules :: brief .connectors ++ c.acts l ++ [.rel .modules]
  | .unknown => brief .modules
  | .connect l => brief (peerMap l) ++ brief .modules
  | .disconnect .tcp active => brief .tcpPeers ++ disconnectActs active
  | .disconnect .websocket active => disconnectActs active ++ brief .wsPeers
  | .announce ls =>
    .acq .modules ::
      ls.flatMap (fun l => .acq .connectors :: EclaLocks.beacon ++ brief (peerMap l) ++ [.rel .connectors]) ++
      [.rel .modules]
  | .submit ls =>
    .acq .connectors :: .acq .modules :: ls.flatMap (fun l => brief (peerMap l)) ++ [.rel .modules, .rel .connectors]

/-- A thread: the locks it holds and what it still does. -/
structure Thread where
  held : List Lock
  rest : List Act
deriving DecidableEq, Repr

/-- One step of a thread. A lock is available if no thread holds it (`std::sync::Mutex` is not reentrant). -/
def stepThread (ts : List Thread) (t : Thread) : Option Thread :=
  match t.rest with
  | [] => none
  | .acq l :: r => if ts.any fun u => u.held.contains l then none else some { held := l :: t.held, rest := r }
  | .rel l :: r => some { held := t.held.erase l, rest := r }

/-- Thread `i` does its next step. -/
def step (ts : List Thread) (i : Nat) : Option (List Thread) :=
  match ts[i]? with
  | none => none
  | some t => (stepThread ts t).map fun t' => ts.set i t'

/-- The threads after a schedule. -/
def run (ts : List Thread) : List Nat → Option (List Thread)
  | [] => some ts
  | i :: is => (step ts i).bind fun ts => run ts is

/-- The threads of some calls, before they begin. -/
def begin (cs : List Call) : List Thread := cs.map fun c => { held := [], rest := c.acts }

end Dtn.EclaLocks
