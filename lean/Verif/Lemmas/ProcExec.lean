import Verif.Model.Processing
/-! A scheduler, to show that certain executions exist. -/

namespace Dtn.Proc
open Routing (Notification Answer)

/-- One decision of the scheduler. -/
inductive Choice where
  /-- let task `i` make a step, with these answers to its questions -/
  | run (i : Nat) (a : Option Answer) (b : Bool) (s : String)
  /-- let the first task that is not waiting make a step, if there is one -/
  | next (a : Option Answer) (b : Bool) (s : String)
  | call (c : Call)
  | clock (t : Nat)
  | register (eid : EID)
  | cla (b : Bool)

/-- One step of a task. -/
def stepTask (n : Node) (a : Option Answer) (b : Bool) (s : String) : Prog → Option (Node × List Prog)
  | .done _ => some (n, [])
  | .panic => some (n, [])
  | .act f k => some (f n, [k n])
  | .route bp k => some (n.log (.asked bp a), [k a])
  | .choose k => some (n, [k b])
  | .fresh k => some (n, [k s])
  | .spawn t k => some (n, [k, t])
  | .wait c k => if c n then some (n, [k]) else none

theorem stepTask_sound {n n' : Node} {a b s} {p : Prog} {ps : List Prog} (h : stepTask n a b s p = some (n', ps)) :
    TaskStep n p n' ps := by
  cases p <;> simp only [stepTask, Option.some.injEq, Prod.mk.injEq] at h
  · obtain ⟨rfl, rfl⟩ := h; constructor
  · obtain ⟨rfl, rfl⟩ := h; constructor
  · obtain ⟨rfl, rfl⟩ := h; constructor
  · obtain ⟨rfl, rfl⟩ := h; constructor
  · obtain ⟨rfl, rfl⟩ := h; constructor
  · obtain ⟨rfl, rfl⟩ := h; constructor
  · obtain ⟨rfl, rfl⟩ := h; constructor
  · split at h
    · simp only [Option.some.injEq, Prod.mk.injEq] at h
      obtain ⟨rfl, rfl⟩ := h; constructor; assumption
    · cases h

/-- Task `i` makes a step. -/
def runTask (s : Sys) (a : Option Answer) (b : Bool) (str : String) (i : Nat) : Option Sys :=
  match s.pool[i]? with
  | none => none
  | some p =>
    match stepTask s.node a b str p with
    | none => none
    | some (n', ps) => some ⟨n', s.pool.take i ++ ps ++ s.pool.drop (i + 1)⟩

theorem runTask_sound {w : World} {s t : Sys} {a b str i} (h : runTask s a b str i = some t) : Step w s t := by
  obtain ⟨n, pool⟩ := s
  simp only [runTask] at h
  cases hp : pool[i]? with
  | none => rw [hp] at h; cases h
  | some p =>
    rw [hp] at h
    dsimp only at h
    cases hs : stepTask n a b str p with
    | none => rw [hs] at h; cases h
    | some r =>
      obtain ⟨n', ps⟩ := r
      rw [hs] at h
      simp only [Option.some.injEq] at h
      subst h
      have hsplit : pool = pool.take i ++ p :: pool.drop (i + 1) := by
        obtain ⟨hi, hpi⟩ := List.getElem?_eq_some_iff.mp hp
        rw [← hpi, ← List.drop_eq_getElem_cons hi, List.take_append_drop]
      have := Step.task (w := w) (pool.take i) (pool.drop (i + 1)) p n n' ps (stepTask_sound hs)
      rw [← hsplit] at this
      exact this

/-- One step of the system. -/
def exec1 (s : Sys) : Choice → Option Sys
  | .run i a b str => runTask s a b str i
  | .next a b str => some (((List.range s.pool.length).findSome? (runTask s a b str)).getD s)
  | .call c => some ⟨s.node.log (.called c), s.pool ++ [c.prog]⟩
  | .clock t => some ⟨{ s.node with clock := t }, s.pool⟩
  | .register eid => some ⟨{ s.node with agents := Registry.register s.node.agents (AppAgent.with eid) }, s.pool⟩
  | .cla b => some ⟨{ s.node with claActive := b }, s.pool⟩

theorem exec1_sound {s0 s t : Sys} {c : Choice} (h0 : Reaches .any s0 s) (h : exec1 s c = some t) :
    Reaches .any s0 t := by
  obtain ⟨n, pool⟩ := s
  cases c with
  | call c => simp only [exec1, Option.some.injEq] at h; subst h; exact h0.step (.call _ _ _ trivial)
  | clock t => simp only [exec1, Option.some.injEq] at h; subst h; exact h0.step (.change _ _ _ (.clock _ _))
  | register e => simp only [exec1, Option.some.injEq] at h; subst h; exact h0.step (.change _ _ _ (.register _ _))
  | cla b => simp only [exec1, Option.some.injEq] at h; subst h; exact h0.step (.change _ _ _ (.cla _ _))
  | run i a b str => exact h0.step (runTask_sound h)
  | next a b str =>
    simp only [exec1, Option.some.injEq] at h
    subst h
    cases hf : (List.range pool.length).findSome? (runTask ⟨n, pool⟩ a b str) with
    | none => exact h0
    | some t =>
      obtain ⟨i, -, hi⟩ := List.exists_of_findSome?_eq_some hf
      exact h0.step (runTask_sound hi)

/-- A whole schedule. -/
def exec : Sys → List Choice → Option Sys
  | s, [] => some s
  | s, c :: cs =>
    match exec1 s c with
    | none => none
    | some t => exec t cs

theorem exec_sound {s0 s t : Sys} {cs : List Choice} (h0 : Reaches .any s0 s) (h : exec s cs = some t) :
    Reaches .any s0 t := by
  induction cs generalizing s with
  | nil => simp only [exec, Option.some.injEq] at h; subst h; exact h0
  | cons c cs ih =>
    unfold exec at h
    cases h1 : exec1 s c with
    | none => rw [h1] at h; cases h
    | some u => rw [h1] at h; exact ih (exec1_sound h0 h1) h

/-- An execution with a property exists. -/
theorem exists_run {n : Node} (cs : List Choice) (P : Sys → Bool) (h : (exec ⟨n, []⟩ cs).any P = true) :
    ∃ t, Reaches .any ⟨n, []⟩ t ∧ P t = true := by
  cases he : exec ⟨n, []⟩ cs with
  | none => rw [he] at h; cases h
  | some t => rw [he] at h; exact ⟨t, exec_sound (.refl _) he, h⟩

/-- An execution with a property exists that passes through a state without running tasks. -/
theorem exists_idle {n : Node} (cs cs' : List Choice) (P : Node → Sys → Bool)
    (h : (exec ⟨n, []⟩ cs).any (fun s => s.pool.isEmpty && (exec s cs').any (P s.node)) = true) :
    ∃ m t, Reaches .any ⟨n, []⟩ ⟨m, []⟩ ∧ Reaches .any ⟨m, []⟩ t ∧ P m t = true := by
  cases he : exec ⟨n, []⟩ cs with
  | none => rw [he] at h; cases h
  | some s =>
    rw [he] at h
    obtain ⟨m, pool⟩ := s
    simp only [Option.any_some, Bool.and_eq_true, List.isEmpty_iff] at h
    obtain ⟨rfl, h⟩ := h
    cases hf : exec ⟨m, []⟩ cs' with
    | none => rw [hf] at h; cases h
    | some t => rw [hf] at h; exact ⟨m, t, exec_sound (.refl _) he, exec_sound (.refl _) hf, h⟩

/-- Run for `k` steps, or until nothing is left to do, with these answers. -/
def go (k : Nat) (a : Option Answer := none) (b : Bool := true) (s : String := "r") : List Choice :=
  List.replicate k (.next a b s)

/-- Let the first task that is not waiting make a step, `k` times. -/
def runQuiet : Nat → Option Answer → Bool → String → Sys → Sys
  | 0, _, _, _, s => s
  | k + 1, a, b, str, s => runQuiet k a b str (((List.range s.pool.length).findSome? (runTask s a b str)).getD s)

theorem runQuiet_sound {k : Nat} {a b str} {s0 s : Sys} (h0 : Reaches .quiet s0 s) :
    Reaches .quiet s0 (runQuiet k a b str s) := by
  induction k generalizing s with
  | zero => exact h0
  | succ k ih =>
    refine ih ?_
    cases hf : (List.range s.pool.length).findSome? (runTask s a b str) with
    | none => exact h0
    | some t =>
      obtain ⟨i, -, hi⟩ := List.exists_of_findSome?_eq_some hf
      exact h0.step (runTask_sound hi)

/-- A task that has the node for itself can end with a property. -/
theorem exists_quiet_from (n : Node) (p : Prog) (k : Nat) (a : Option Answer) (b : Bool) (str : String) (P : Node → Bool)
    (h : (P (runQuiet k a b str ⟨n, [p]⟩).node && (runQuiet k a b str ⟨n, [p]⟩).pool.isEmpty) = true) :
    ∃ m, Reaches .quiet ⟨n, [p]⟩ ⟨m, []⟩ ∧ P m = true := by
  simp only [Bool.and_eq_true] at h
  have := runQuiet_sound (k := k) (a := a) (b := b) (str := str) (.refl (⟨n, [p]⟩ : Sys))
  have hp : (runQuiet k a b str ⟨n, [p]⟩).pool = [] := by simpa using h.2
  have hP := h.1
  generalize runQuiet k a b str ⟨n, [p]⟩ = r at this hp hP
  obtain ⟨m, pool⟩ := r
  simp only at hp
  subst hp
  exact ⟨m, this, hP⟩

/-- Has the only task aborted? -/
def aborted : List Prog → Bool
  | [.panic] => true
  | _ => false

/-- A task that has the node for itself can abort. -/
theorem exists_quiet_panic (n : Node) (p : Prog) (k : Nat) (a : Option Answer) (b : Bool) (str : String)
    (h : aborted (runQuiet k a b str ⟨n, [p]⟩).pool = true) : ∃ m, Reaches .quiet ⟨n, [p]⟩ ⟨m, [.panic]⟩ := by
  have := runQuiet_sound (k := k) (a := a) (b := b) (str := str) (.refl (⟨n, [p]⟩ : Sys))
  have hp : (runQuiet k a b str ⟨n, [p]⟩).pool = [.panic] := by
    unfold aborted at h
    split at h
    · assumption
    · cases h
  generalize runQuiet k a b str ⟨n, [p]⟩ = r at this hp
  obtain ⟨m, pool⟩ := r
  simp only at hp
  subst hp
  exact ⟨m, this⟩

/-- An execution with a property exists in which, at some point, a task has the node for itself and ends. -/
theorem exists_quiet {n : Node} (cs : List Choice) (p : Node → Prog) (k : Nat) (a : Option Answer) (b : Bool) (str : String)
    (P : Node → Node → Bool)
    (h : (exec ⟨n, []⟩ cs).any (fun s =>
      P s.node (runQuiet k a b str ⟨s.node, [p s.node]⟩).node && (runQuiet k a b str ⟨s.node, [p s.node]⟩).pool.isEmpty) = true) :
    ∃ n1 ps m, Reaches .any ⟨n, []⟩ ⟨n1, ps⟩ ∧ Reaches .quiet ⟨n1, [p n1]⟩ ⟨m, []⟩ ∧ P n1 m = true := by
  cases he : exec ⟨n, []⟩ cs with
  | none => rw [he] at h; cases h
  | some t =>
    rw [he] at h
    simp only [Option.any_some, Bool.and_eq_true] at h
    obtain ⟨n1, ps⟩ := t
    obtain ⟨m, hm, hp⟩ := exists_quiet_from n1 (p n1) k a b str (P n1) (by simpa using h)
    exact ⟨n1, ps, m, exec_sound (.refl _) he, hm, hp⟩

/-- An execution with a property exists in which, from some point on, the running tasks come to an end. -/
theorem exists_rest {n : Node} (cs : List Choice) (k : Nat) (a : Option Answer) (b : Bool) (str : String)
    (P : Node → Node → Bool)
    (h : (exec ⟨n, []⟩ cs).any (fun s => P s.node (runQuiet k a b str s).node && (runQuiet k a b str s).pool.isEmpty) = true) :
    ∃ n1 ps m, Reaches .any ⟨n, []⟩ ⟨n1, ps⟩ ∧ Reaches .quiet ⟨n1, ps⟩ ⟨m, []⟩ ∧ P n1 m = true := by
  cases he : exec ⟨n, []⟩ cs with
  | none => rw [he] at h; cases h
  | some t =>
    rw [he] at h
    simp only [Option.any_some, Bool.and_eq_true] at h
    have := runQuiet_sound (k := k) (a := a) (b := b) (str := str) (.refl t)
    obtain ⟨n1, ps⟩ := t
    refine ⟨n1, ps, (runQuiet k a b str ⟨n1, ps⟩).node, exec_sound (.refl _) he, ?_, h.1⟩
    have hp : (runQuiet k a b str ⟨n1, ps⟩).pool = [] := by simpa using h.2
    generalize runQuiet k a b str ⟨n1, ps⟩ = r at this hp
    obtain ⟨m, pool⟩ := r
    simp only at hp
    subst hp
    exact this

end Dtn.Proc
