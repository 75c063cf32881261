import Verif.Model.Processing
/-!
Model of `dtnd/cron.rs` and `dtnd/janitor.rs`: the task that runs the janitor again and again, on a node that does everything
else at the same time.

Simplifications: the timer may fire at any time, so the interval between two runs is left out, but not that a run begins only
when the one before has ended. The router is told of dropped peers in `Peers.process` (C29) and not here. A run ends when all
tasks it has started have ended; the code waits for the calls of `forward` (`core/mod.rs:185`), which wait for their
transfers (`core/processing.rs:427`), and what is left of a transfer then is the end of its task.
-/

namespace Dtn.Cron
open Proc

/-- Where the task of `spawn_janitor` (`dtnd/janitor.rs:20-25`) stands: the loop of `spawn_timer`, `dtnd/cron.rs:12-16`. -/
inductive Phase where
  /-- `task.tick().await` -/
  | waiting
  /-- `f().await`: what is left to do in this task, `none` if nothing but waiting for the tasks it has started (`join_all`,
  `core/mod.rs:185`), and those tasks -/
  | round (main : Option Prog) (started : List Prog)
  /-- the task has panicked: nothing starts it again -/
  | stopped

/-- A node, with the task that runs the janitor and all other tasks. -/
structure Sys where
  node : Node
  phase : Phase
  others : List Prog

/-- `process_peers`, `core/mod.rs:120-141`, called in `dtnd/janitor.rs:7`: peers that have not been seen in a while are taken out
of the table. -/
def dropPeers (pc : PeerCfg) (n : Node) : Node := { n with peers := (n.peers.process pc (n.clock / 1000)).1 }

/-- A way to run a node: the settings for neighbours, and the tasks that handle calls, which depend on the store that is
configured (`core/store/mod.rs:88-96`). -/
structure Setup where
  peers : PeerCfg
  task : Call → Prog

/-- With the store in memory. -/
def Setup.mem (pc : PeerCfg) : Setup := ⟨pc, Call.prog⟩

/-- What the janitor does: the loop of `spawn_timer` (`dtnd/cron.rs:12-16`) and the body `janitor` (`dtnd/janitor.rs:3-18`). A
panic in a task that was spawned ends this task only (`JoinError`s are dropped in `core/mod.rs:185`); a panic in the task
itself ends the loop, and the tasks it has started go on without it. -/
inductive Own (su : Setup) : Sys → Sys → Prop where
  | tick (n : Node) (others : List Prog) :
      Own su ⟨n, .waiting, others⟩ ⟨(dropPeers su.peers n).log (.called .janitor), .round (some (su.task .janitor)) [], others⟩
  | main (n n' : Node) (p k : Prog) (new started others : List Prog) (h : TaskStep n p n' (k :: new)) :
      Own su ⟨n, .round (some p) started, others⟩ ⟨n', .round (some k) (new ++ started), others⟩
  | returned (n : Node) (ok : Bool) (started others : List Prog) :
      Own su ⟨n, .round (some (.done ok)) started, others⟩ ⟨n, .round none started, others⟩
  | panicked (n : Node) (started others : List Prog) :
      Own su ⟨n, .round (some .panic) started, others⟩ ⟨n, .stopped, started ++ others⟩
  | started (n n' : Node) (main : Option Prog) (l r : List Prog) (p : Prog) (ps others : List Prog) (h : TaskStep n p n' ps) :
      Own su ⟨n, .round main (l ++ p :: r), others⟩ ⟨n', .round main (l ++ ps ++ r), others⟩
  | ended (n : Node) (others : List Prog) : Own su ⟨n, .round none [], others⟩ ⟨n, .waiting, others⟩

/-- What happens besides: steps of other tasks, new calls, and changes made elsewhere. Nothing but the timer runs the janitor. -/
inductive Other (su : Setup) : Sys → Sys → Prop where
  | task (n n' : Node) (ph : Phase) (l r : List Prog) (p : Prog) (ps : List Prog) (h : TaskStep n p n' ps) :
      Other su ⟨n, ph, l ++ p :: r⟩ ⟨n', ph, l ++ ps ++ r⟩
  | call (n : Node) (ph : Phase) (others : List Prog) (c : Call) (h : c ≠ .janitor) :
      Other su ⟨n, ph, others⟩ ⟨n.log (.called c), ph, others ++ [su.task c]⟩
  | change (n n' : Node) (ph : Phase) (others : List Prog) (h : Outside n n') : Other su ⟨n, ph, others⟩ ⟨n', ph, others⟩

/-- One step. -/
def Step (su : Setup) (s t : Sys) : Prop := Own su s t ∨ Other su s t

/-- A node that has just been started: `spawn_janitor` has been called (`dtnd/daemon.rs:146-148`). -/
def start (cfg : Config) (clock : Nat) : Sys := ⟨Node.start cfg clock, .waiting, []⟩

/-- The executions. -/
inductive Reaches (su : Setup) : Sys → Sys → Prop where
  | refl (s : Sys) : Reaches su s s
  | step {s t u : Sys} : Reaches su s t → Step su t u → Reaches su s u

end Dtn.Cron
