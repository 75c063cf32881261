import Verif.Lemmas.SledForeign
import Verif.Lemmas.SledExample
import Verif.Props.Foreign
import Verif.Props.SledNode
/-! Property C131: bundles with foreign sources, submitted to a node with the persistent store. -/

namespace Dtn.Props
open Proc Spec OnSled

/-- C131 (never sent). A bundle with a new id is submitted, its source is not anonymous and at no time registered, and nothing else
with its id comes to the node. Then the router is never told or asked about it, it is given to no application and handed to no
convergence layer, whatever else happens and however often the process is stopped and started again. -/
theorem C131_never {cfg : Config} {clock : Nat} {n : Node} {tasks : List Prog} {b : Bundle} {s : Sys}
    (before : OnSled.Reaches ⟨Node.start cfg clock, []⟩ ⟨n, tasks⟩) (fresh : ∀ e ∈ n.events, ¬ Brings b.id e)
    (named : b.primary.source ≠ .none)
    (run : SledHistory (fun m => b.primary.source ∉ m.agents.eids) ⟨n.log (.called (.send b)), tasks ++ [OnSled.task (.send b)]⟩ s)
    (alone : ∀ e ∈ newEvents (n.log (.called (.send b))) s.node, ¬ Brings b.id e) :
    ∀ e ∈ s.node.events, ¬ TakenUp b.id e :=
  (foreign_history before fresh named run alone).silent

/-- No event of these brings something with the id. -/
theorem no_brings {bid : String} {es : List Event} (h : (es.all fun e => !brings bid e) = true) : ∀ e ∈ es, ¬ Brings bid e := by
  intro e he
  exact brings_of (by simpa using List.all_eq_true.mp h e he)

/-- Such a submission, next to a reception, with a restart and a run of the janitor. -/
example : ∃ (n : Node) (tasks : List Prog) (b : Bundle) (s : Sys),
    OnSled.Reaches ⟨Node.start Ex.cfg 946684800100, []⟩ ⟨n, tasks⟩ ∧ tasks ≠ [] ∧ (∀ e ∈ n.events, ¬ Brings b.id e) ∧ b.primary.source ≠ .none ∧
    SledHistory (fun m => b.primary.source ∉ m.agents.eids) ⟨n.log (.called (.send b)), tasks ++ [OnSled.task (.send b)]⟩ s ∧
    (∀ e ∈ newEvents (n.log (.called (.send b))) s.node, ¬ Brings b.id e) ∧ s.node.store.getBundle b.id ≠ none ∧
    .called .janitor ∈ s.node.events := by
  obtain ⟨n, tasks, t, h1, h2, h3⟩ := exists_history (n := Node.start Ex.cfg 946684800100)
    ([.register (.dtn "n1" "x"), .call (.receive Ex113.other)] ++ going 4) (sledCall (.send (Ex.bundle 5 1 20)))
    (List.replicate 3 (.run 1 (some (Ex.answer false)) true "r") ++ [.restart 946684800200, .cla true, .call .janitor] ++ going 60 (some (Ex.answer false)))
    (fun _ w => decide (Ex.primary.source ∉ w.agents.eids))
    (fun s t => !s.pool.isEmpty && (s.node.events.all fun e => !brings "b" e) &&
      ((newEvents (s.node.log (.called (.send (Ex.bundle 5 1 20)))) t.node).all fun e => !brings "b" e) &&
      decide (t.node.store.getBundle "b" ≠ none) && (t.node.events.any fun e => match e with | .called .janitor => true | _ => false)) (by decide +kernel)
  simp only [Bool.and_eq_true, decide_eq_true_eq] at h3
  unfold sledCall at h2
  rw [taskE_eq] at h2
  refine ⟨n, tasks, Ex.bundle 5 1 20, t, h1, by simpa using h3.1.1.1.1, no_brings h3.1.1.1.2, by decide,
    h2.weaken fun w h => of_decide_eq_true h, no_brings h3.1.1.2, h3.1.2, ?_⟩
  obtain ⟨e, he, hp⟩ := List.any_eq_true.mp h3.2
  split at hp
  · exact he
  · cases hp

/-- C131 (not kept), if the process is not stopped in the meantime. When everything that runs has ended, such a bundle is not in the
database. Missing: a stop of the process, see `C131_left_violated`. -/
theorem C131_not_kept_partial {cfg : Config} {clock : Nat} {n m : Node} {tasks : List Prog} {b : Bundle}
    (before : OnSled.Reaches ⟨Node.start cfg clock, []⟩ ⟨n, tasks⟩) (fresh : ∀ e ∈ n.events, ¬ Brings b.id e)
    (new : n.store.getBundle b.id = none) (named : b.primary.source ≠ .none)
    (run : SledThroughout (fun m => b.primary.source ∉ m.agents.eids) ⟨n.log (.called (.send b)), tasks ++ [OnSled.task (.send b)]⟩ ⟨m, []⟩)
    (alone : ∀ e ∈ newEvents (n.log (.called (.send b))) m, ¬ Brings b.id e) : m.store.getBundle b.id = none :=
  foreign_ends before fresh new named run alone

/-- Such a submission, after a restart and next to a reception. -/
example : ∃ (n m : Node) (tasks : List Prog) (b : Bundle),
    OnSled.Reaches ⟨Node.start Ex.cfg 946684800100, []⟩ ⟨n, tasks⟩ ∧ tasks ≠ [] ∧ (∀ e ∈ n.events, ¬ Brings b.id e) ∧
    n.store.getBundle b.id = none ∧ b.primary.source ≠ .none ∧
    SledThroughout (fun m => b.primary.source ∉ m.agents.eids) ⟨n.log (.called (.send b)), tasks ++ [OnSled.task (.send b)]⟩ ⟨m, []⟩ ∧
    (∀ e ∈ newEvents (n.log (.called (.send b))) m, ¬ Brings b.id e) := by
  obtain ⟨n, tasks, m, h1, h2, h3⟩ := exists_sled (n := Node.start Ex.cfg 946684800100)
    ([.restart 946684800100, .register (.dtn "n1" "x"), .call (.receive Ex113.other)] ++ going 4) (sledCall (.send (Ex.bundle 5 1 20)))
    (List.replicate 4 (.run 1 (some (Ex.answer false)) true "r") ++ going 80 (some (Ex.answer false)))
    (fun _ w => decide (Ex.primary.source ∉ w.agents.eids))
    (fun s m => !s.pool.isEmpty && (s.node.events.all fun e => !brings "b" e) && decide (s.node.store.getBundle "b" = none) &&
      (newEvents (s.node.log (.called (.send (Ex.bundle 5 1 20)))) m).all fun e => !brings "b" e) (by decide +kernel)
  simp only [Bool.and_eq_true, decide_eq_true_eq] at h3
  unfold sledCall at h2
  rw [taskE_eq] at h2
  exact ⟨n, m, tasks, Ex.bundle 5 1 20, h1, by simpa using h3.1.1.1, no_brings h3.1.1.2, h3.1.2, by decide,
    h2.weaken fun w h => of_decide_eq_true h, no_brings h3.2⟩

/-- C131 (not kept) fails if the process is stopped between storing the bundle and looking at its source: the bundle is in the
database after the restart, when no task is left, and stays there until its lifetime ends. -/
theorem C131_left_violated : ∃ (n : Node) (b : Bundle) (m : Node),
    OnSled.Reaches ⟨Node.start Ex.cfg 946684800100, []⟩ ⟨n, []⟩ ∧ n.events = [] ∧ n.store.getBundle b.id = none ∧ b.primary.source ≠ .none ∧
    SledHistory (fun m => b.primary.source ∉ m.agents.eids) ⟨n.log (.called (.send b)), [OnSled.task (.send b)]⟩ ⟨m, []⟩ ∧
    (∀ e ∈ newEvents (n.log (.called (.send b))) m, ¬ Brings b.id e) ∧ m.store.getBundle b.id = some b := by
  obtain ⟨n, tasks, t, h1, h2, h3⟩ := exists_history (n := Node.start Ex.cfg 946684800100)
    [] (sledCall (.send (Ex.bundle 5 1 20)))
    (going 3 ++ [.restart 946684800200, .cla true, .call .janitor] ++ going 60 (some (Ex.answer false)))
    (fun _ w => decide (Ex.primary.source ∉ w.agents.eids))
    (fun s t => s.pool.isEmpty && s.node.events.isEmpty && decide (s.node.store.getBundle "b" = none) &&
      ((newEvents (s.node.log (.called (.send (Ex.bundle 5 1 20)))) t.node).all fun e => !brings "b" e) && t.pool.isEmpty &&
      decide (t.node.store.getBundle "b" = some (Ex.bundle 5 1 20))) (by decide +kernel)
  simp only [Bool.and_eq_true, decide_eq_true_eq, List.isEmpty_iff] at h3
  unfold sledCall at h2
  rw [taskE_eq] at h2
  obtain ⟨⟨⟨⟨⟨k1, k2⟩, k3⟩, k4⟩, k5⟩, k6⟩ := h3
  subst k1
  obtain ⟨m, pool⟩ := t
  simp only at k5
  subst k5
  exact ⟨n, Ex.bundle 5 1 20, m, h1, k2, k3, by decide, h2.weaken fun w h => of_decide_eq_true h, no_brings k4, k6⟩

end Dtn.Props
