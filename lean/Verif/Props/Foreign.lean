import Verif.Lemmas.Foreign
import Verif.Lemmas.CarriedExample
/-! Property C13, for bundles submitted while the node does other things. -/

namespace Dtn.Props
open Proc Spec

/-- C13 (whatever else happens). A bundle with a new id is submitted while other calls may be running, its source is not anonymous and
at no time registered, and nothing else with its id comes to the node. Then the router is never told or asked about it, it is given to
no application and handed to no convergence layer, and when everything that runs has ended it is not in the store. -/
theorem C13_foreign_always {cfg : Config} {clock : Nat} {n : Node} {tasks : List Prog} {b : Bundle} {s : Sys}
    (before : Reaches .any ⟨Node.start cfg clock, []⟩ ⟨n, tasks⟩) (fresh : ∀ e ∈ n.events, ¬ Brings b.id e)
    (named : b.primary.source ≠ .none)
    (run : Throughout .any (fun m => b.primary.source ∉ m.agents.eids) ⟨n.log (.called (.send b)), tasks ++ [(Call.send b).prog]⟩ s)
    (alone : ∀ e ∈ newEvents (n.log (.called (.send b))) s.node, ¬ Brings b.id e) :
    (∀ e ∈ s.node.events, ¬ TakenUp b.id e) ∧ (s.pool = [] → s.node.store.getBundle b.id = none) := by
  obtain ⟨h1, -, h3⟩ := foreign_always before fresh named run alone
  refine ⟨h1.silent, fun hp => Classical.byContradiction fun h => ?_⟩
  obtain ⟨p, hm, -⟩ := h3 h
  rw [hp] at hm
  cases hm

/-- Does the event bring something with this id? -/
def brings (bid : String) (e : Event) : Bool :=
  match e with
  | .called (.receive b) => b.id == bid
  | .called (.send b) => b.id == bid
  | .report r => r.report.id == bid
  | _ => false

theorem brings_of {bid : String} {e : Event} (h : brings bid e = false) : ¬ Brings bid e := by
  intro hb
  unfold brings at h
  unfold Brings at hb
  split at hb <;> simp_all

/-- Such a submission, next to a reception. -/
example : ∃ (n m : Node) (tasks : List Prog) (b : Bundle),
    Reaches .any ⟨Node.start Ex.cfg 946684800100, []⟩ ⟨n, tasks⟩ ∧ tasks ≠ [] ∧ (∀ e ∈ n.events, ¬ Brings b.id e) ∧ b.primary.source ≠ .none ∧
    Throughout .any (fun m => b.primary.source ∉ m.agents.eids) ⟨n.log (.called (.send b)), tasks ++ [(Call.send b).prog]⟩ ⟨m, []⟩ ∧
    (∀ e ∈ newEvents (n.log (.called (.send b))) m, ¬ Brings b.id e) := by
  obtain ⟨n, tasks, m, h1, h2, h3⟩ := exists_throughout (n := Node.start Ex.cfg 946684800100)
    ([.register (.dtn "n1" "x"), .call (.receive Ex113.other)] ++ go 4) (Ex113.calling (.send (Ex.bundle 5 1 20)))
    (List.replicate 4 (.run 1 (some (Ex.answer false)) true "r") ++ go 80 (some (Ex.answer false)))
    (fun _ w => decide (Ex.primary.source ∉ w.agents.eids))
    (fun s m => !s.pool.isEmpty && (s.node.events.all fun e => !brings "b" e) &&
      (newEvents (s.node.log (.called (.send (Ex.bundle 5 1 20)))) m).all fun e => !brings "b" e) (by decide +kernel)
  simp only [Bool.and_eq_true] at h3
  refine ⟨n, m, tasks, Ex.bundle 5 1 20, h1, by simpa using h3.1.1, ?_, by decide, h2.weaken fun w h => of_decide_eq_true h, ?_⟩
  · intro e he
    exact brings_of (bid := "b") (by simpa using List.all_eq_true.mp h3.1.2 e he)
  · intro e he
    exact brings_of (bid := "b") (by simpa using List.all_eq_true.mp h3.2 e he)

end Dtn.Props
