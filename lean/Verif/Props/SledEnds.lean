import Verif.Lemmas.SledEnds
import Verif.Lemmas.SledHistory
import Verif.Lemmas.SledExample
import Verif.Props.Ends
/-! C138: every call comes to an end, with the persistent store. -/

namespace Dtn.Props
open Spec Proc

/-- C138 (nothing blocks). As long as a call has not ended, one of the tasks it has led to can make a step, whatever the other
tasks do, and even if they never make a step again; however often the process was stopped before. -/
theorem C138_never_blocked {cfg : Config} {clock : Nat} {n : Node} {tasks : List Prog} {c : Call} {s : Followed}
    (before : OnSled.Reaches ⟨Node.start cfg clock, []⟩ ⟨n, tasks⟩)
    (run : SledFollows ⟨n.log (.called c), tasks, [OnSled.task c], []⟩ s) (left : s.own ≠ []) : ∃ t, OwnStep s t := by
  obtain ⟨dead, h⟩ := OnSled.served_reaches before
  exact OnSled.own_dead ((OnSled.served_follows (OnSled.served_call c h) (OnSled.follows_dead dead run)).steps left)

/-- C138 (every call ends). However many other calls are made and whatever else happens, a call comes to an end, if its tasks
are not neglected for ever and the process is not stopped. -/
theorem C138_every_call_ends {cfg : Config} {clock : Nat} {n : Node} {tasks : List Prog} {c : Call} {f : Nat → Followed}
    (before : OnSled.Reaches ⟨Node.start cfg clock, []⟩ ⟨n, tasks⟩)
    (begins : f 0 = ⟨n.log (.called c), tasks, [OnSled.task c], []⟩) (run : SledFairRun f) : ∃ i, (f i).own = [] := by
  have reach : ∀ i, SledFollows ⟨n.log (.called c), tasks, [OnSled.task c], []⟩ (f i) := by
    intro i
    induction i with
    | zero => rw [begins]; exact .refl _
    | succ i ih =>
      rcases run.steps i with h | h
      · exact ih.own h
      · exact ih.other h
  have same : ∀ {s t : Followed}, SledOtherStep s t → t.own = s.own := by intro s t h; cases h <;> rfl
  have less : ∀ {s t : Followed}, OwnStep s t → Less t.own s.own := by intro s t h; cases h with | mk a b l r p n n' ps h => exact less_step h l r
  have : ∀ (l : List Prog) i, (f i).own = l → ∃ i, (f i).own = [] := by
    intro l
    induction l using less_wf.induction with
    | h l ih =>
      intro i hi
      by_cases hl : (f i).own = []
      · exact ⟨i, hl⟩
      obtain ⟨j, hij, hj⟩ := run.fair i (C138_never_blocked before (reach i) hl)
      obtain ⟨k, rfl⟩ := Nat.exists_eq_add_of_le hij
      clear hij
      induction k generalizing i with
      | zero => exact ih _ (by rw [← hi]; exact less hj) (i + 1) rfl
      | succ k ihk =>
        rcases run.steps i with h | h
        · exact ih _ (by rw [← hi]; exact less h) (i + 1) rfl
        · have hs := same h
          exact ihk (i + 1) (by rw [hs, hi]) (by rw [hs]; exact hl) (by rw [show i + 1 + k = i + (k + 1) by omega]; exact hj)
  exact this _ 0 rfl

/-- Such executions exist, from every state and for every call. -/
example {cfg : Config} {clock : Nat} {n : Node} {tasks : List Prog} (c : Call) (_ : OnSled.Reaches ⟨Node.start cfg clock, []⟩ ⟨n, tasks⟩) :
    ∃ f : Nat → Followed, f 0 = ⟨n.log (.called c), tasks, [OnSled.task c], []⟩ ∧ SledFairRun f := by
  classical
  let next : Followed → Followed := fun s => if h : ∃ t, OwnStep s t then h.choose else s
  refine ⟨fun i => next^[i] ⟨n.log (.called c), tasks, [OnSled.task c], []⟩, rfl, fun i => ?_, fun i h => ⟨i, Nat.le_refl _, ?_⟩⟩
  · rw [Function.iterate_succ_apply']
    generalize next^[i] ⟨n.log (.called c), tasks, [OnSled.task c], []⟩ = s
    by_cases h : ∃ t, OwnStep s t
    · left
      have : next s = h.choose := dif_pos h
      rw [this]; exact h.choose_spec
    · right
      have : next s = s := dif_neg h
      rw [this]
      exact .change s.node s.node s.before s.own s.after (.clock _ s.node.clock)
  · rw [Function.iterate_succ_apply']
    have : next (next^[i] ⟨n.log (.called c), tasks, [OnSled.task c], []⟩) = h.choose := dif_pos h
    rw [this]; exact h.choose_spec

/-- C138 (rest). From every state, also after restarts, a node comes to rest if there are no further calls: as long as tasks are left,
one can make a step, and in whatever order they make them, none is left after finitely many. -/
theorem C138_rest {cfg : Config} {clock : Nat} {n : Node} {tasks : List Prog} (before : OnSled.Reaches ⟨Node.start cfg clock, []⟩ ⟨n, tasks⟩) :
    (∀ s, Reaches tasksOnly ⟨n, tasks⟩ s → s.pool ≠ [] → ∃ t, Step tasksOnly s t) ∧ (∃ m, Reaches tasksOnly ⟨n, tasks⟩ ⟨m, []⟩) ∧
    ∀ f : Nat → Sys, ¬ ∀ i, Step tasksOnly (f i) (f (i + 1)) := by
  have steps : ∀ s, Reaches tasksOnly ⟨n, tasks⟩ s → s.pool ≠ [] → ∃ t, Step tasksOnly s t := by
    intro s hs hp
    have on : OnSled.Reaches ⟨Node.start cfg clock, []⟩ s := by
      clear hp
      induction hs with
      | refl => exact before
      | step _ st ih =>
        cases st with
        | task l r p n n' ps h => exact ih.step (.task l r p n n' ps h)
        | call _ _ _ h => exact h.elim
        | change _ _ _ h => exact h.elim
    obtain ⟨m, pool⟩ := s
    obtain ⟨dead, h⟩ := OnSled.served_reaches on
    obtain ⟨t, ht⟩ := h.steps hp
    cases ht with
    | mk a b l r p _ n' ps h => exact ⟨_, .task l r p _ n' ps h⟩
  refine ⟨steps, ?_, fun f => C114_no_endless_work⟩
  have : ∀ (l : List Prog) s, Reaches tasksOnly ⟨n, tasks⟩ s → s.pool = l → ∃ m, Reaches tasksOnly ⟨n, tasks⟩ ⟨m, []⟩ := by
    intro l
    induction l using less_wf.induction with
    | h l ih =>
      intro s hs hl
      by_cases hp : s.pool = []
      · obtain ⟨m, pool⟩ := s
        cases hp
        exact ⟨m, hs⟩
      · obtain ⟨t, ht⟩ := steps s hs hp
        exact ih _ (by rw [← hl]; exact step_less ht) t (hs.step ht) rfl
  exact this _ _ (.refl _) rfl

/-- A node that was stopped during a transfer, and that now has two tasks, one of which waits for the other. -/
example : ∃ (n : Node) (tasks : List Prog), OnSled.Reaches ⟨Node.start Ex.cfg 946684800100, []⟩ ⟨n, tasks⟩ ∧ tasks.length = 2 ∧
    ∃ p ∈ tasks, ¬ ∃ n' ps, TaskStep n p n' ps := by
  obtain ⟨s, t, h1, h2, h3⟩ := OnSled.exists_moves (n := Node.start Ex.cfg 946684800100)
    (.call (.receive (Ex.bundle 5 1 20)) :: OnSled.going 24 (some (Ex.answer false)))
    ([.restart 946684800200, .call .janitor] ++ OnSled.going 20 (some (Ex.answer false))) (fun s => s)
    (fun s t => exWaiting s && t.pool.length == 2 && exWaiting t) (by decide +kernel)
  simp only [Bool.and_eq_true, beq_iff_eq] at h3
  refine ⟨t.node, t.pool, h1.join h2, h3.1.2, ?_⟩
  obtain ⟨p, hp, h⟩ := List.any_eq_true.mp h3.2
  refine ⟨p, hp, ?_⟩
  rintro ⟨n', ps, st⟩
  cases st <;> simp_all

end Dtn.Props
