import Verif.Lemmas.SledCron
import Verif.Lemmas.CronExample
import Verif.Lemmas.SledExample
/-! Executions with the janitor and the persistent store that exist. -/

namespace Dtn.Cron
open Proc Spec

/-- The same tasks, in a form that can be evaluated. -/
theorem sled_eq (pc : PeerCfg) : Setup.sled pc = ⟨pc, OnSled.taskE⟩ := by
  unfold Setup.sled
  rw [show OnSled.task = OnSled.taskE from (funext OnSled.taskE_eq).symm]

/-- A process, and the one after it. -/
theorem exists_life {pc : PeerCfg} {cfg : Config} {clock : Nat} (cs : List Pick) (now : Nat) (cs' : List Pick) (P : Sys → Sys → Bool)
    (h : ((picks ⟨pc, OnSled.taskE⟩ (start cfg clock) cs).any fun s =>
      (picks ⟨pc, OnSled.taskE⟩ ⟨OnSled.restarted s.node now, .waiting, []⟩ cs').any fun t => P s t) = true) :
    ∃ s t, History pc cfg clock s ∧ Reaches (.sled pc) ⟨OnSled.restarted s.node now, .waiting, []⟩ t ∧ P s t = true := by
  rw [← sled_eq] at h
  obtain ⟨s, hs, h⟩ := exists_state (su := .sled pc) cs _ h
  obtain ⟨t, ht, h⟩ := exists_state (su := .sled pc) cs' _ h
  exact ⟨s, t, History.start.join hs, ht, h⟩

end Dtn.Cron
