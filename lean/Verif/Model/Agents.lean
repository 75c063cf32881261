import Verif.Model.MemStore
/-! Model of `core/application_agent.rs` and the endpoint registry of `core/mod.rs`. -/

namespace Dtn

/-- `SimpleApplicationAgent`, `core/application_agent.rs:28-33`. The delivery channel is a name for the websocket session
that owns its other end. -/
structure AppAgent where
  eid : EID
  queue : List Bundle := []
  delivery : Option Nat := none
deriving DecidableEq, Repr

namespace AppAgent

/-- `SimpleApplicationAgent::with`, `core/application_agent.rs:79-85`. -/
def «with» (eid : EID) : AppAgent := { eid, queue := [], delivery := none }

/-- `push`, `core/application_agent.rs:39-56`, without the removal from the store (line 50). `room` is the outcome of
`try_send`. The second component says to which channel the bundle was handed; in that case the caller goes on to
`store_remove_if_singleton_bundle`. -/
def push (a : AppAgent) (b : Bundle) (room : Bool) : AppAgent × Option Nat :=
  match a.delivery with
  | some ch => if !room then ({ a with queue := a.queue ++ [b] }, none) else (a, some ch)
  | none => ({ a with queue := a.queue ++ [b] }, none)

/-- `pop`, `core/application_agent.rs:57-63`, without the removal from the store (line 60). -/
def pop (a : AppAgent) : AppAgent × Option Bundle :=
  match a.queue with
  | [] => (a, none)
  | b :: bs => ({ a with queue := bs }, some b)

/-- `set_delivery_addr`, `core/application_agent.rs:65-67`. -/
def setDelivery (a : AppAgent) (ch : Nat) : AppAgent := { a with delivery := some ch }

/-- `clear_delivery_addr`, `core/application_agent.rs:69-71`. -/
def clearDelivery (a : AppAgent) : AppAgent := { a with delivery := none }

end AppAgent

/-- `store_remove_if_singleton_bundle`, `lib.rs:194-201`; an error is only logged. -/
def MemStore.removeIfSingleton (s : MemStore) (b : Bundle) : MemStore :=
  if !b.primary.destination.isNonSingleton then (s.remove b.id).1 else s

/-- `DtnCore.endpoints`, `core/mod.rs:55`. -/
abbrev Registry := List AppAgent

namespace Registry

/-- `is_in_endpoints`, `core/mod.rs:103-110`. -/
def has (r : Registry) (eid : EID) : Bool := r.any fun a => eid = a.eid

/-- `get_endpoint`, `core/mod.rs:114-116`. -/
def find (r : Registry) (eid : EID) : Option AppAgent := List.find? (fun a => eid = a.eid) r

/-- `register_application_agent`, `core/mod.rs:76-83`. -/
def register (r : Registry) (a : AppAgent) : Registry := if r.has a.eid then r else r ++ [a]

/-- `unregister_application_agent`, `core/mod.rs:84-90`: the first agent with that endpoint id. -/
def unregister (r : Registry) (eid : EID) : Registry := r.eraseP fun a => a.eid = eid

/-- Using the reference returned by `get_endpoint_mut`, `core/mod.rs:111-113`: the first agent with that endpoint id is
changed. -/
def modify (f : AppAgent → AppAgent) (eid : EID) : Registry → Registry
  | [] => []
  | a :: r => if eid = a.eid then f a :: r else a :: modify f eid r

/-- `eids`, `core/mod.rs:91-93`, before printing. -/
def eids (r : Registry) : List EID := r.map AppAgent.eid

end Registry

/-- The application side of a node: endpoints and store, and what clients were given so far (newest last). -/
structure Apps where
  store : MemStore
  agents : Registry := []
  /-- bundles taken out by `pop`, with the endpoint -/
  popped : List (EID × Bundle) := []
  /-- bundles handed to a delivery channel, with endpoint and channel -/
  pushed : List (EID × Nat × Bundle) := []
deriving DecidableEq, Repr

namespace Apps

/-- What clients and the core do with application agents. -/
inductive Op where
  /-- `/register`, `httpd.rs:550-580` and `daemon.rs:132-143` -/
  | register (eid : EID)
  /-- `/unregister`, `httpd.rs:582-605` -/
  | unregister (eid : EID)
  /-- the last lines of `local_delivery`, `core/processing.rs:502-506`; `room` is the outcome of `try_send` -/
  | deliver (eid : EID) (b : Bundle) (room : Bool)
  /-- `/endpoint`, `httpd.rs:614-690`, and `ws.rs:451-452` -/
  | pop (eid : EID)
  /-- `/subscribe` on a websocket, `ws.rs:264-265,292-295` -/
  | subscribe (eid : EID) (ch : Nat)
  /-- `/unsubscribe` and the end of a session, `ws.rs:138-139,242-243` -/
  | unsubscribe (eid : EID)
deriving DecidableEq, Repr

/-- Effect of one call, made under the lock of `DTNCORE`. -/
def step (s : Apps) : Op → Apps
  | .register eid => { s with agents := Registry.register s.agents (AppAgent.with eid) }
  | .unregister eid => { s with agents := Registry.unregister s.agents eid }
  | .deliver eid b room =>
    match Registry.find s.agents eid with
    | none => s
    | some a =>
      let s := { s with agents := Registry.modify (fun a => (a.push b room).1) eid s.agents }
      match (a.push b room).2 with
      | some ch => { s with pushed := s.pushed ++ [(eid, ch, b)], store := s.store.removeIfSingleton b }
      | none => s
  | .pop eid =>
    match Registry.find s.agents eid with
    | none => s
    | some a =>
      let s := { s with agents := Registry.modify (fun a => a.pop.1) eid s.agents }
      match a.pop.2 with
      | some b => { s with popped := s.popped ++ [(eid, b)], store := s.store.removeIfSingleton b }
      | none => s
  | .subscribe eid ch => { s with agents := Registry.modify (fun a => a.setDelivery ch) eid s.agents }
  | .unsubscribe eid => { s with agents := Registry.modify AppAgent.clearDelivery eid s.agents }

/-- Effect of a history of calls. -/
def run (s : Apps) (ops : List Op) : Apps := ops.foldl step s

end Apps
end Dtn
