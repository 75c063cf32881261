import Verif.Model.Cron
import Verif.Model.SledNode
/-! Model of `dtnd/cron.rs` and `dtnd/janitor.rs` on a node with the persistent store, which may be stopped and started again. -/

namespace Dtn.Cron
open Proc

/-- With the database as store. -/
def Setup.sled (pc : PeerCfg) : Setup := ⟨pc, OnSled.task⟩

/-- The states of a node with the database, over many lives of the process. When the process is started again, `spawn_janitor` is
called again (`dtnd/daemon.rs:146-148`), and nothing is left of the tasks of the old process; it may end after some but not all of
the writes of a call of the store (`SledStore.crashStep`), as in `OnSled.Reaches`. -/
inductive History (pc : PeerCfg) (cfg : Config) (clock : Nat) : Sys → Prop where
  | start : History pc cfg clock (start cfg clock)
  | step {s t : Sys} : History pc cfg clock s → Step (.sled pc) s t → History pc cfg clock t
  | restart {s : Sys} (now : Nat) : History pc cfg clock s → History pc cfg clock ⟨OnSled.restarted s.node now, .waiting, []⟩
  | cut {s : Sys} (now : Nat) (op : SledStore.Op) (k : Nat) (h : ∀ ws, (OnSled.db s.node).writes op = .ok ws → k < ws.length) :
      History pc cfg clock s →
      History pc cfg clock ⟨OnSled.restarted (OnSled.setDb s.node ((OnSled.db s.node).crashStep op k)) now, .waiting, []⟩

end Dtn.Cron
