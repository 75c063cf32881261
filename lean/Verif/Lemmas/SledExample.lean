import Verif.Lemmas.SledResume
import Verif.Lemmas.CarriedExample
/-! A scheduler for a node with the persistent store, to show that certain executions exist. -/

namespace Dtn.OnSled
open Proc Spec
open Routing (Answer)

/-- A merge that the kernel can evaluate. -/
def mergeFor (le : Pack → Pack → Bool) : Nat → List Pack → List Pack → List Pack
  | 0, l, r => l ++ r
  | _ + 1, [], r => r
  | _ + 1, l, [] => l
  | k + 1, x :: l, y :: r => if le x y then x :: mergeFor le k l (y :: r) else y :: mergeFor le k (x :: l) r

theorem mergeFor_eq (le : Pack → Pack → Bool) (k : Nat) : ∀ l r : List Pack, l.length + r.length ≤ k → mergeFor le k l r = List.merge l r le := by
  induction k with
  | zero =>
    intro l r h
    cases l <;> cases r <;> simp at h
    simp [mergeFor]
  | succ k ih =>
    intro l r h
    match l, r, h with
    | [], r, _ => simp [mergeFor]
    | x :: l, [], _ => simp [mergeFor]
    | x :: l, y :: r, h =>
      simp only [List.length_cons] at h
      rw [List.cons_merge_cons]
      unfold mergeFor
      rw [ih _ _ (by simp; omega), ih _ _ (by simp; omega)]

/-- A sort that the kernel can evaluate. -/
def sortFor (le : Pack → Pack → Bool) : Nat → List Pack → List Pack
  | 0, l => l
  | _ + 1, [] => []
  | _ + 1, [a] => [a]
  | k + 1, a :: b :: l => mergeFor le (l.length + 2) (sortFor le k ((a :: b :: l).take ((l.length + 3) / 2)))
      (sortFor le k ((a :: b :: l).drop ((l.length + 3) / 2)))

theorem sortFor_eq (le : Pack → Pack → Bool) (k : Nat) : ∀ l : List Pack, l.length ≤ k → sortFor le k l = l.mergeSort le := by
  induction k with
  | zero => intro l h; cases l with
    | nil => simp [sortFor]
    | cons => simp at h
  | succ k ih =>
    intro l h
    match l, h with
    | [], _ => simp [sortFor]
    | [a], _ => simp [sortFor]
    | a :: b :: l, h =>
      unfold sortFor List.mergeSort
      simp only [List.length_cons] at h
      rw [ih _ (by simp; omega), ih _ (by simp; omega), mergeFor_eq _ _ _ _ (by simp only [List.length_mergeSort, List.length_take, List.length_drop, List.length_cons]; omega)]
      simp [List.MergeSort.Internal.splitInTwo]

/-- `processBundles` with the other sort. -/
def processBundlesE : Prog :=
  .read fun n =>
    sweep ((db n).packs.filter fun bp => !bp.has .deleted) <|
    .read fun n =>
      if !n.claActive then .done true
      else .read fun n =>
        collect (db n).forwarding [] fun packs =>
          .read fun n => forwardAll n.cfg.parallel (sortFor (fun a b => decide (a.creationTime ≤ b.creationTime)) packs.length packs)

/-- `task` with the other sort. -/
def taskE : Call → Prog
  | .janitor => processBundlesE
  | c => task c

theorem taskE_eq (c : Call) : taskE c = task c := by
  cases c <;> try rfl
  simp only [taskE, task, processBundlesE, processBundles, sortFor_eq _ _ _ (Nat.le_refl _)]

/-- One decision of the scheduler. -/
inductive Move where
  | run (i : Nat) (a : Option Answer) (b : Bool) (s : String)
  | next (a : Option Answer) (b : Bool) (s : String)
  | call (c : Call)
  | clock (t : Nat)
  | register (eid : EID)
  | cla (b : Bool)
  | restart (t : Nat)
  | cut (t : Nat) (op : SledStore.Op) (k : Nat)

theorem runTask_step {s t : Sys} {a b str i} (h : runTask s a b str i = some t) : Step s t := by
  obtain ⟨n, pool⟩ := s
  simp only [runTask] at h
  cases hp : pool[i]? with
  | none => rw [hp] at h; cases h
  | some p =>
    rw [hp] at h
    dsimp only at h
    cases hs : stepTask n a b str p with
    | none => rw [hs] at h; cases h
    | some r =>
      obtain ⟨n', ps⟩ := r
      rw [hs] at h
      simp only [Option.some.injEq] at h
      subst h
      have hsplit : pool = pool.take i ++ p :: pool.drop (i + 1) := by
        obtain ⟨hi, hpi⟩ := List.getElem?_eq_some_iff.mp hp
        rw [← hpi, ← List.drop_eq_getElem_cons hi, List.take_append_drop]
      have := Step.task (pool.take i) (pool.drop (i + 1)) p n n' ps (stepTask_sound hs)
      rw [← hsplit] at this
      exact this

/-- One step. -/
def move (s : Sys) : Move → Option Sys
  | .run i a b str => runTask s a b str i
  | .next a b str => some (((List.range s.pool.length).findSome? (runTask s a b str)).getD s)
  | .call c => some ⟨s.node.log (.called c), s.pool ++ [taskE c]⟩
  | .clock t => some ⟨{ s.node with clock := t }, s.pool⟩
  | .register eid => some ⟨{ s.node with agents := Registry.register s.node.agents (AppAgent.with eid) }, s.pool⟩
  | .cla b => some ⟨{ s.node with claActive := b }, s.pool⟩
  | .restart t => some ⟨restarted s.node t, []⟩
  | .cut t op k =>
    match (db s.node).writes op with
    | .ok ws => if k < ws.length then some ⟨restarted (setDb s.node ((db s.node).crashStep op k)) t, []⟩ else none
    | _ => none

/-- Does the process go on? -/
def Move.alive : Move → Bool
  | .restart _ | .cut _ _ _ => false
  | _ => true

theorem move_step {s t : Sys} {c : Move} (hc : c.alive = true) (h : move s c = some t) : t = s ∨ Step s t := by
  obtain ⟨n, pool⟩ := s
  cases c with
  | restart | cut => cases hc
  | call c => simp only [move, taskE_eq, Option.some.injEq] at h; subst h; exact .inr (.call _ _ _)
  | clock t => simp only [move, Option.some.injEq] at h; subst h; exact .inr (.change _ _ _ (.clock _ _))
  | register e => simp only [move, Option.some.injEq] at h; subst h; exact .inr (.change _ _ _ (.register _ _))
  | cla b => simp only [move, Option.some.injEq] at h; subst h; exact .inr (.change _ _ _ (.cla _ _))
  | run i a b str => exact .inr (runTask_step h)
  | next a b str =>
    simp only [move, Option.some.injEq] at h
    subst h
    cases hf : (List.range pool.length).findSome? (runTask ⟨n, pool⟩ a b str) with
    | none => exact .inl rfl
    | some t =>
      obtain ⟨i, -, hi⟩ := List.exists_of_findSome?_eq_some hf
      exact .inr (runTask_step hi)

theorem move_sound {s0 s t : Sys} {c : Move} (h0 : Reaches s0 s) (h : move s c = some t) : Reaches s0 t := by
  have live : c.alive = true → Reaches s0 t := fun hc => by
    rcases move_step hc h with rfl | hs
    · exact h0
    · exact h0.step hs
  cases c with
  | restart t => simp only [move, Option.some.injEq] at h; subst h; exact h0.restart t
  | cut t op k =>
    unfold move at h
    dsimp only at h
    cases hw : (db s.node).writes op with
    | err | panic => rw [hw] at h; cases h
    | ok ws =>
      rw [hw] at h
      dsimp only at h
      split at h
      · rename_i hk
        cases h
        exact h0.cut t op k fun ws' hw' => by rw [hw] at hw'; cases hw'; exact hk
      · cases h
  | _ => exact live rfl

/-- A whole schedule. -/
def moves : Sys → List Move → Option Sys
  | s, [] => some s
  | s, c :: cs =>
    match move s c with
    | none => none
    | some t => moves t cs

theorem moves_sound {s0 s t : Sys} {cs : List Move} (h0 : Reaches s0 s) (h : moves s cs = some t) : Reaches s0 t := by
  induction cs generalizing s with
  | nil => simp only [moves, Option.some.injEq] at h; subst h; exact h0
  | cons c cs ih =>
    unfold moves at h
    cases h1 : move s c with
    | none => rw [h1] at h; cases h
    | some u => rw [h1] at h; exact ih (move_sound h0 h1) h

/-- Two parts of an execution with a property exist. -/
theorem exists_moves {n : Node} (cs cs' : List Move) (f : Sys → Sys) (P : Sys → Sys → Bool)
    (h : (moves ⟨n, []⟩ cs).any (fun s => (moves (f s) cs').any (P s)) = true) :
    ∃ s t, Reaches ⟨n, []⟩ s ∧ Reaches (f s) t ∧ P s t = true := by
  cases he : moves ⟨n, []⟩ cs with
  | none => rw [he] at h; cases h
  | some s =>
    rw [he] at h
    dsimp only [Option.any_some] at h
    cases hf : moves (f s) cs' with
    | none => rw [hf] at h; cases h
    | some t =>
      rw [hf] at h
      exact ⟨s, t, moves_sound (.refl _) he, moves_sound (.refl _) hf, h⟩

/-- A schedule that checks a condition in every state. -/
def movesAll (I : Node → Bool) : Sys → List Move → Option Sys
  | s, [] => if I s.node then some s else none
  | s, c :: cs => if I s.node && c.alive then
      match move s c with
      | none => none
      | some t => movesAll I t cs
    else none

theorem movesAll_sound {I : Node → Bool} {s0 s t : Sys} {cs : List Move}
    (h0 : I s.node = true → SledThroughout (fun m => I m = true) s0 s)
    (h : movesAll I s cs = some t) : SledThroughout (fun m => I m = true) s0 t := by
  induction cs generalizing s with
  | nil =>
    unfold movesAll at h
    split at h
    · rename_i hi; cases h; exact h0 hi
    · cases h
  | cons c cs ih =>
    unfold movesAll at h
    split at h
    · rename_i hi
      simp only [Bool.and_eq_true] at hi
      split at h
      · cases h
      · rename_i u hu
        refine ih (fun hu' => ?_) h
        rcases move_step hi.2 hu with rfl | hs
        · exact h0 hi.1
        · exact (h0 hi.1).step hs hu'
    · cases h

/-- An execution exists in which, from some point on, a condition holds in every state until the node comes to rest. -/
theorem exists_sled {n : Node} (cs : List Move) (f : Sys → Sys) (cs' : List Move) (I : Node → Node → Bool) (P : Sys → Node → Bool)
    (h : (moves ⟨n, []⟩ cs).any (fun s => (movesAll (I s.node) (f s) cs').any fun t => t.pool.isEmpty && P s t.node) = true) :
    ∃ n1 tasks m, Reaches ⟨n, []⟩ ⟨n1, tasks⟩ ∧ SledThroughout (fun w => I n1 w = true) (f ⟨n1, tasks⟩) ⟨m, []⟩ ∧ P ⟨n1, tasks⟩ m = true := by
  cases he : moves ⟨n, []⟩ cs with
  | none => rw [he] at h; cases h
  | some s =>
    rw [he] at h
    obtain ⟨n1, tasks⟩ := s
    dsimp only [Option.any_some] at h
    cases hf : movesAll (I n1) (f ⟨n1, tasks⟩) cs' with
    | none => rw [hf] at h; cases h
    | some t =>
      rw [hf] at h
      obtain ⟨m, pool⟩ := t
      simp only [Option.any_some, Bool.and_eq_true, List.isEmpty_iff] at h
      obtain ⟨rfl, h⟩ := h
      exact ⟨n1, tasks, m, moves_sound (.refl _) he, movesAll_sound (fun hi => .refl hi) hf, h⟩

/-- A schedule with restarts that checks a condition in every state. -/
def movesEver (I : Node → Bool) : Sys → List Move → Option Sys
  | s, [] => if I s.node then some s else none
  | s, c :: cs => if I s.node then
      match move s c with
      | none => none
      | some t => movesEver I t cs
    else none

theorem move_history {I : Node → Prop} {s0 s t : Sys} {c : Move} (h0 : SledHistory I s0 s) (h : move s c = some t) (i : I t.node) :
    SledHistory I s0 t := by
  have live : c.alive = true → SledHistory I s0 t := fun hc => by
    rcases move_step hc h with rfl | hs
    · exact h0
    · exact h0.step hs i
  cases c with
  | restart t => simp only [move, Option.some.injEq] at h; subst h; exact h0.restart t i
  | cut t op k =>
    unfold move at h
    dsimp only at h
    cases hw : (db s.node).writes op with
    | err | panic => rw [hw] at h; cases h
    | ok ws =>
      rw [hw] at h
      dsimp only at h
      split at h
      · rename_i hk
        cases h
        exact h0.cut t op k (fun ws' hw' => by rw [hw] at hw'; cases hw'; exact hk) i
      · cases h
  | _ => exact live rfl

theorem movesEver_sound {I : Node → Bool} {s0 s t : Sys} {cs : List Move}
    (h0 : I s.node = true → SledHistory (fun m => I m = true) s0 s)
    (h : movesEver I s cs = some t) : SledHistory (fun m => I m = true) s0 t := by
  induction cs generalizing s with
  | nil =>
    unfold movesEver at h
    split at h
    · rename_i hi; cases h; exact h0 hi
    · cases h
  | cons c cs ih =>
    unfold movesEver at h
    split at h
    · rename_i hi
      split at h
      · cases h
      · rename_i u hu
        exact ih (fun hu' => move_history (h0 hi) hu hu') h
    · cases h

/-- An execution with restarts exists in which, from some point on, a condition holds in every state. -/
theorem exists_history {n : Node} (cs : List Move) (f : Sys → Sys) (cs' : List Move) (I : Node → Node → Bool) (P : Sys → Sys → Bool)
    (h : (moves ⟨n, []⟩ cs).any (fun s => (movesEver (I s.node) (f s) cs').any fun t => P s t) = true) :
    ∃ n1 tasks t, Reaches ⟨n, []⟩ ⟨n1, tasks⟩ ∧ SledHistory (fun w => I n1 w = true) (f ⟨n1, tasks⟩) t ∧ P ⟨n1, tasks⟩ t = true := by
  cases he : moves ⟨n, []⟩ cs with
  | none => rw [he] at h; cases h
  | some s =>
    rw [he] at h
    obtain ⟨n1, tasks⟩ := s
    dsimp only [Option.any_some] at h
    cases hf : movesEver (I n1) (f ⟨n1, tasks⟩) cs' with
    | none => rw [hf] at h; cases h
    | some t =>
      rw [hf] at h
      exact ⟨n1, tasks, t, moves_sound (.refl _) he, movesEver_sound (fun hi => .refl hi) hf, h⟩

theorem _root_.Dtn.Spec.SledHistory.weaken {I J : Node → Prop} {s t : Sys} (h : SledHistory I s t) (hw : ∀ m, I m → J m) :
    SledHistory J s t := by
  induction h with
  | refl i => exact .refl (hw _ i)
  | step _ hs i ih => exact ih.step hs (hw _ i)
  | restart c _ i ih => exact ih.restart c (hw _ i)
  | cut c op k hk _ i ih => exact ih.cut c op k hk (hw _ i)

theorem _root_.Dtn.Spec.SledThroughout.weaken {I J : Node → Prop} {s t : Sys} (h : SledThroughout I s t) (hw : ∀ m, I m → J m) :
    SledThroughout J s t := h.add fun _ _ => hw _

/-- Run for `k` steps, or until nothing is left to do, with these answers. -/
def going (k : Nat) (a : Option Answer := none) : List Move := List.replicate k (.next a true "r")

end Dtn.OnSled
