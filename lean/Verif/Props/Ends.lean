import Verif.Lemmas.ProcEnds
import Verif.Lemmas.ProcExample
import Verif.Lemmas.ProcRemoved
/-! C114: every call comes to an end. -/

namespace Dtn.Props
open Spec Proc

/-- C114 (nothing blocks). As long as a call has not ended, one of the tasks it has led to can make a step, whatever the other
tasks do, and even if they never make a step again. -/
theorem C114_never_blocked {cfg : Config} {clock : Nat} {n : Node} {tasks : List Prog} {c : Call} {s : Followed}
    (before : Reaches .any ⟨Node.start cfg clock, []⟩ ⟨n, tasks⟩)
    (run : Follows ⟨n.log (.called c), tasks, [c.prog], []⟩ s) (left : s.own ≠ []) : ∃ t, OwnStep s t :=
  (served_follows (served_call c (served_reaches before)) run).steps left

/-- C114 (every call ends). However many other calls are made and whatever else happens, a call comes to an end, if its tasks
are not neglected for ever. -/
theorem C114_every_call_ends {cfg : Config} {clock : Nat} {n : Node} {tasks : List Prog} {c : Call} {f : Nat → Followed}
    (before : Reaches .any ⟨Node.start cfg clock, []⟩ ⟨n, tasks⟩)
    (begins : f 0 = ⟨n.log (.called c), tasks, [c.prog], []⟩) (run : FairRun f) : ∃ i, (f i).own = [] := by
  have served : ∀ i, Served (f i) := by
    intro i
    induction i with
    | zero => rw [begins]; exact served_call c (served_reaches before)
    | succ i ih =>
      rcases run.steps i with h | h
      · exact ih.own h
      · exact ih.other h
  have same : ∀ {s t : Followed}, OtherStep s t → t.own = s.own := by intro s t h; cases h <;> rfl
  have less : ∀ {s t : Followed}, OwnStep s t → Less t.own s.own := by intro s t h; cases h with | mk a b l r p n n' ps h => exact less_step h l r
  have : ∀ (l : List Prog) i, (f i).own = l → ∃ i, (f i).own = [] := by
    intro l
    induction l using less_wf.induction with
    | h l ih =>
      intro i hi
      by_cases hl : (f i).own = []
      · exact ⟨i, hl⟩
      obtain ⟨j, hij, hj⟩ := run.fair i ((served i).steps hl)
      -- the first step of these tasks from here on
      obtain ⟨k, rfl⟩ := Nat.exists_eq_add_of_le hij
      clear hij
      induction k generalizing i with
      | zero => exact ih _ (by rw [← hi]; exact less hj) (i + 1) rfl
      | succ k ihk =>
        rcases run.steps i with h | h
        · exact ih _ (by rw [← hi]; exact less h) (i + 1) rfl
        · have hs := same h
          exact ihk (i + 1) (by rw [hs, hi]) (by rw [hs]; exact hl) (by rw [show i + 1 + k = i + (k + 1) by omega]; exact hj)
  exact this _ 0 rfl

/-- Such executions exist, from every state and for every call. -/
example {cfg : Config} {clock : Nat} {n : Node} {tasks : List Prog} (c : Call) (_ : Reaches .any ⟨Node.start cfg clock, []⟩ ⟨n, tasks⟩) :
    ∃ f : Nat → Followed, f 0 = ⟨n.log (.called c), tasks, [c.prog], []⟩ ∧ FairRun f := by
  classical
  let next : Followed → Followed := fun s => if h : ∃ t, OwnStep s t then h.choose else s
  refine ⟨fun i => next^[i] ⟨n.log (.called c), tasks, [c.prog], []⟩, rfl, fun i => ?_, fun i h => ⟨i, Nat.le_refl _, ?_⟩⟩
  · rw [Function.iterate_succ_apply']
    generalize next^[i] ⟨n.log (.called c), tasks, [c.prog], []⟩ = s
    by_cases h : ∃ t, OwnStep s t
    · left
      have : next s = h.choose := dif_pos h
      rw [this]; exact h.choose_spec
    · right
      have : next s = s := dif_neg h
      rw [this]
      exact .change s.node s.node s.before s.own s.after (.clock _ s.node.clock)
  · rw [Function.iterate_succ_apply']
    have : next (next^[i] ⟨n.log (.called c), tasks, [c.prog], []⟩) = h.choose := dif_pos h
    rw [this]; exact h.choose_spec

/-- C114 (no endless work). Without further calls, a node is busy only for finitely many steps, in whatever order its tasks
make them. -/
theorem C114_no_endless_work {f : Nat → Sys} : ¬ ∀ i, Step tasksOnly (f i) (f (i + 1)) := by
  intro h
  have : ∀ (l : List Prog) i, (f i).pool = l → False := by
    intro l
    induction l using less_wf.induction with
    | h l ih =>
      intro i hi
      exact ih _ (by rw [← hi]; exact step_less (h i)) (i + 1) rfl
  exact this _ 0 rfl

/-- C114 (rest). From every state, a node comes to rest if there are no further calls: as long as tasks are left, one can make
a step, and sooner or later none is left. -/
theorem C114_rest {cfg : Config} {clock : Nat} {n : Node} {tasks : List Prog} (before : Reaches .any ⟨Node.start cfg clock, []⟩ ⟨n, tasks⟩) :
    (∀ s, Reaches tasksOnly ⟨n, tasks⟩ s → s.pool ≠ [] → ∃ t, Step tasksOnly s t) ∧ ∃ m, Reaches tasksOnly ⟨n, tasks⟩ ⟨m, []⟩ := by
  have steps : ∀ s, Reaches tasksOnly ⟨n, tasks⟩ s → s.pool ≠ [] → ∃ t, Step tasksOnly s t := by
    intro s hs hp
    obtain ⟨m, pool⟩ := s
    obtain ⟨t, ht⟩ := (served_reaches (before.join (tasksOnly_any hs))).steps hp
    cases ht with
    | mk a b l r p _ n' ps h => exact ⟨_, .task l r p _ n' ps h⟩
  refine ⟨steps, ?_⟩
  have : ∀ (l : List Prog) s, Reaches tasksOnly ⟨n, tasks⟩ s → s.pool = l → ∃ m, Reaches tasksOnly ⟨n, tasks⟩ ⟨m, []⟩ := by
    intro l
    induction l using less_wf.induction with
    | h l ih =>
      intro s hs hl
      by_cases hp : s.pool = []
      · obtain ⟨m, pool⟩ := s
        cases hp
        exact ⟨m, hs⟩
      · obtain ⟨t, ht⟩ := steps s hs hp
        exact ih _ (by rw [← hl]; exact step_less ht) t (hs.step ht) rfl
  exact this _ _ (.refl _) rfl

/-- Is there a task that has to wait? -/
def exWaiting (s : Sys) : Bool := s.pool.any fun p => match p with | .wait c _ => !c s.node | _ => false

/-- A node with three tasks, one of which waits for another. -/
example : ∃ (n : Node) (tasks : List Prog), Reaches .any ⟨Node.start Ex.cfg 946684800100, []⟩ ⟨n, tasks⟩ ∧ tasks.length = 3 ∧
    ∃ p ∈ tasks, ¬ ∃ n' ps, TaskStep n p n' ps := by
  obtain ⟨t, h1, h2⟩ := exists_run (n := Node.start Ex.cfg 946684800100)
    (.call (.receive (Ex.bundle 5 1 0)) :: (go 21 (some (Ex.answer false)) ++ [.call .janitor])) (fun s => s.pool.length == 3 && exWaiting s) (by decide +kernel)
  simp only [Bool.and_eq_true, beq_iff_eq] at h2
  refine ⟨t.node, t.pool, h1, h2.1, ?_⟩
  obtain ⟨p, hp, h⟩ := List.any_eq_true.mp h2.2
  refine ⟨p, hp, ?_⟩
  rintro ⟨n', ps, st⟩
  cases st <;> simp_all

end Dtn.Props
