import Verif.Lemmas.ProcRemoved
import Verif.Lemmas.ProcExec
import Verif.Props.Dispatch
/-! Property C24: removed bundles stay removed. -/

namespace Dtn.Props
open Proc Spec

/-- C24 (partial). A bundle was removed and no task of the node is running. Whatever then happens, in any order: unless a bundle with the same
id is received or sent by a client, or a new status report has this id, the bundle stays removed, its metadata keep
saying that it is deleted, and the router is never asked where to send it.

Missing: tasks that were running when the bundle was removed. For these the property is false (`C24_stays_deleted_violated`). -/
theorem C24_stays_deleted_partial {cfg : Config} {clock : Nat} {n : Node} {t : Sys} {bid : String}
    (before : Reaches .any ⟨Node.start cfg clock, []⟩ ⟨n, []⟩) (removed : Removed n bid) (run : Reaches .any ⟨n, []⟩ t)
    (nothing : ∀ e ∈ newEvents n t.node, ¬ Brings bid e) :
    Removed t.node bid ∧ bid ∉ askedIds (newEvents n t.node) := by
  rcases removed_stays before (by simp) ⟨removed, by simp [askedIds]⟩ run with ⟨e, he, hb⟩ | h
  · exact (nothing e he hb).elim
  · exact ⟨h.1.removed, h.1.silent⟩

/-- A bundle is received, queued for forwarding and removed; then the janitor runs. -/
example : ∃ n t, Reaches .any ⟨Ex.start, []⟩ ⟨n, []⟩ ∧ Removed n "b" ∧ Reaches .any ⟨n, []⟩ t ∧
    (∀ e ∈ newEvents n t.node, ¬ Brings "b" e) ∧ newEvents n t.node = [.called .janitor] := by
  obtain ⟨n, t, h1, h2, h3⟩ := exists_idle (n := Ex.start)
    ([.call (.receive (Ex.bundle 5 1 0))] ++ go 60 ++ [.call (.remove "b")] ++ go 4) ([.call .janitor] ++ go 60)
    (fun n t => decide (n.store.getBundle "b" = none ∧ (n.store.getMetadata "b").any (fun p => p.has .deleted) = true ∧
      newEvents n t.node = [.called .janitor])) (by decide +kernel)
  obtain ⟨h3, h4, h5⟩ := of_decide_eq_true h3
  refine ⟨n, t, h1, ⟨h3, ?_⟩, h2, ?_, h5⟩
  · cases hp : n.store.getMetadata "b" with
    | none => rw [hp] at h4; cases h4
    | some p => rw [hp] at h4; exact ⟨p, rfl, h4⟩
  · rw [h5]; intro e he; rw [List.mem_singleton.mp he]; exact id

end Dtn.Props
