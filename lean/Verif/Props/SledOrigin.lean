import Verif.Lemmas.SledOrigin
import Verif.Lemmas.SledExample
import Verif.Props.Origin
import Verif.Props.SledNode
/-! Property C132: a node with the persistent store makes up no bundles, before and after restarts. -/

namespace Dtn.Props
open Proc Spec OnSled

/-- C132 (stored). Every bundle in the database is found under its own id, and was given to the node before, in this run of the process
or in an earlier one. -/
theorem C132_stored {cfg : Config} {clock : Nat} {s : Sys} (run : OnSled.Reaches ⟨Node.start cfg clock, []⟩ s) {bid : String}
    {b : Bundle} (stored : s.node.store.getBundle bid = some b) : b.id = bid ∧ Known s.node b :=
  (origin_always run).1.stored bid b stored

/-- C132 (delivered). Every bundle an endpoint's clients get was given to the node before, and unless two bundles with the same id and
different destinations were, it is addressed to that endpoint. -/
theorem C132_delivered {cfg : Config} {clock : Nat} {s : Sys} (run : OnSled.Reaches ⟨Node.start cfg clock, []⟩ s) {e : EID}
    {b : Bundle} (got : (∃ ch, Event.delivered e b ch ∈ s.node.events) ∨ Event.popped e b ∈ s.node.events) :
    Known s.node b ∧ (DistinctIds s.node → b.primary.destination = e) := by
  have h : MeantFor s.node e b := by
    rcases got with ⟨ch, h⟩ | h
    · exact (origin_always run).1.fine _ h
    · exact (origin_always run).1.fine _ h
  obtain ⟨h, b', h1, h2, h3⟩ := h
  exact ⟨h, fun d => h3 ▸ d b b' h h1 h2.symm⟩

/-- C132 (waiting). The same for what waits at an endpoint. -/
theorem C132_waiting {cfg : Config} {clock : Nat} {s : Sys} (run : OnSled.Reaches ⟨Node.start cfg clock, []⟩ s) {a : AppAgent}
    {b : Bundle} (agent : a ∈ s.node.agents) (waits : b ∈ a.queue) :
    Known s.node b ∧ (DistinctIds s.node → b.primary.destination = a.eid) := by
  obtain ⟨h, b', h1, h2, h3⟩ := (origin_always run).1.queues a agent b waits
  exact ⟨h, fun d => h3 ▸ d b b' h h1 h2.symm⟩

/-- C132 (sent). Every copy handed to a convergence layer is a bundle given to the node before, changed only in the hop count, age and
previous node blocks. -/
theorem C132_sent {cfg : Config} {clock : Nat} {s : Sys} (run : OnSled.Reaches ⟨Node.start cfg clock, []⟩ s) {t : Transfer}
    (sent : Event.sending t ∈ s.node.events) : Known s.node t.stored ∧ PassedOn cfg.hostEid t.out t.stored := by
  obtain ⟨h, e⟩ := origin_always run
  obtain ⟨h1, h2⟩ := h.fine _ sent
  rw [e] at h2
  exact ⟨h1, h2.passedOn⟩

/-- C132 (announced). Every bundle the router is told about was given to the node before. -/
theorem C132_announced {cfg : Config} {clock : Nat} {s : Sys} (run : OnSled.Reaches ⟨Node.start cfg clock, []⟩ s) {b : Bundle}
    (told : Event.note (.incomingBundle b) ∈ s.node.events) : Known s.node b :=
  (origin_always run).1.fine _ told

open Ex109

/-- A copy sent after a restart of a bundle received before it, and in the database. -/
example : ∃ s t, OnSled.Reaches ⟨Node.start Ex.cfg 946684800100, []⟩ s ∧ Event.sending t ∈ s.node.events ∧ t.stored.id = "b" ∧
    s.node.store.getBundle "b" ≠ none ∧ Event.called (.receive t.stored) ∈ s.node.events ∧ Event.note (.incomingBundle t.stored) ∈ s.node.events := by
  obtain ⟨s0, s, h1, h2, h3⟩ := exists_moves (n := Node.start Ex.cfg 946684800100)
    ([.call (.receive (Ex.bundle 5 1 20))] ++ going 30)
    ([.cla true, .call .janitor] ++ going 30 (some (Ex.answer false))) (fun s => ⟨restarted s.node 946684800200, []⟩)
    (fun _ t => decide (t.node.store.getBundle "b" ≠ none) && decide (Event.called (.receive (Ex.bundle 5 1 20)) ∈ t.node.events) &&
      decide (Event.note (.incomingBundle (Ex.bundle 5 1 20)) ∈ t.node.events) &&
      t.node.events.any fun e => match e with | .sending x => decide (x.stored = Ex.bundle 5 1 20) | _ => false) (by decide +kernel)
  simp only [Bool.and_eq_true, decide_eq_true_eq] at h3
  obtain ⟨e, he, hp⟩ := List.any_eq_true.mp h3.2
  cases e <;> simp at hp
  rename_i x
  exact ⟨s, x, (h1.restart 946684800200).join h2, he, by rw [hp]; decide, h3.1.1.1, by rw [hp]; exact h3.1.1.2, by rw [hp]; exact h3.1.2⟩

/-- A delivery after a restart. -/
example : ∃ s, OnSled.Reaches ⟨Node.start Ex.cfg 946684800100, []⟩ s ∧ ∃ b ch, Event.delivered (.dtn "n1" "x") b ch ∈ s.node.events ∧ b = to_ "x" := by
  obtain ⟨s0, s, h1, h2, h3⟩ := exists_moves (n := Node.start Ex.cfg 946684800100)
    ([.call (.receive Ex113.other)] ++ going 30)
    ([.register (.dtn "n1" "x"), .call (.receive (to_ "x"))] ++ going 60) (fun s => ⟨restarted s.node 946684800200, []⟩)
    (fun _ => hasDelivery (.dtn "n1" "x") fun b => decide (b = to_ "x"))
    (by decide +kernel)
  obtain ⟨b, ch, h, hb⟩ := delivery_of h3
  exact ⟨s, (h1.restart 946684800200).join h2, b, ch, h, of_decide_eq_true hb⟩

end Dtn.Props
