import Verif.Model.Routing.Epidemic
/-! The common shape of the routing agents: a task that handles commands one after the other. -/

namespace Dtn.Routing

/-- What a routing agent does with each command (`RoutingCmd`, `routing/mod.rs:53-59`). `none` is a panic, which ends
the task. -/
structure Agent (σ : Type) where
  request : σ → List Peer → List Cla → Pack → Option (σ × Answer)
  notify : σ → Notification → σ

/-- The agent's task: its state (`none` once the task has ended) and the log of commands and answers. -/
structure Task (σ : Type) where
  core : Option σ
  log : List (Cmd × Option Answer) := []
deriving DecidableEq, Repr

/-- One round of the command loop (`routing/sprayandwait.rs:199-215`, `routing/flooding.rs:25-48`,
`routing/sink.rs:21-35`). Commands sent to an ended task are lost. -/
def Task.step {σ : Type} (ag : Agent σ) (t : Task σ) (cmd : Cmd) : Task σ :=
  match t.core, cmd with
  | some c, .senderForBundle peers running bp =>
    match ag.request c peers running bp with
    | none => { core := none, log := t.log ++ [(cmd, none)] }
    | some (c, a) => { core := some c, log := t.log ++ [(cmd, some a)] }
  | some c, .notify n => { core := some (ag.notify c n), log := t.log ++ [(cmd, none)] }
  | some _, .shutdown => { core := none, log := t.log ++ [(cmd, none)] }
  | _, _ => { t with log := t.log ++ [(cmd, none)] }

/-- A history of commands. -/
def Task.run {σ : Type} (ag : Agent σ) (t : Task σ) (cmds : List Cmd) : Task σ := cmds.foldl (Task.step ag) t

/-- `routing/flooding.rs:27-38`: all peers with a usable convergence layer. -/
def floodingAnswer (peers : List Peer) (running : List Cla) : Answer :=
  { clas := peers.filterMap fun p => p.firstCla running, delete := false }

/-- `routing/flooding.rs:25-48`. -/
def flooding : Agent Unit where
  request := fun c peers running _ => some (c, floodingAnswer peers running)
  notify := fun c _ => c

/-- `routing/sink.rs:21-35`. -/
def sink : Agent Unit where
  request := fun c _ _ _ => some (c, { clas := [], delete := false })
  notify := fun c _ => c

end Dtn.Routing
