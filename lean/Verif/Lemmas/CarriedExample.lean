import Verif.Lemmas.ProcWill
import Verif.Lemmas.ProcExample
/-! Example executions in which a condition holds throughout. -/

namespace Dtn.Proc
open Spec

/-- A schedule that checks a condition in every state. -/
def execAll (I : Node → Bool) : Sys → List Choice → Option Sys
  | s, [] => if I s.node then some s else none
  | s, c :: cs => if I s.node then
      match exec1 s c with
      | none => none
      | some t => execAll I t cs
    else none

theorem exec1_step {s t : Sys} {c : Choice} (h : exec1 s c = some t) : t = s ∨ Step .any s t := by
  obtain ⟨n, pool⟩ := s
  cases c with
  | call c => simp only [exec1, Option.some.injEq] at h; subst h; exact .inr (.call _ _ _ trivial)
  | clock t => simp only [exec1, Option.some.injEq] at h; subst h; exact .inr (.change _ _ _ (.clock _ _))
  | register e => simp only [exec1, Option.some.injEq] at h; subst h; exact .inr (.change _ _ _ (.register _ _))
  | cla b => simp only [exec1, Option.some.injEq] at h; subst h; exact .inr (.change _ _ _ (.cla _ _))
  | run i a b str => exact .inr (runTask_sound h)
  | next a b str =>
    simp only [exec1, Option.some.injEq] at h
    subst h
    cases hf : (List.range pool.length).findSome? (runTask ⟨n, pool⟩ a b str) with
    | none => exact .inl rfl
    | some t =>
      obtain ⟨i, -, hi⟩ := List.exists_of_findSome?_eq_some hf
      exact .inr (runTask_sound hi)

theorem execAll_sound {I : Node → Bool} {s0 s t : Sys} {cs : List Choice} (h0 : I s.node = true → Throughout .any (fun m => I m = true) s0 s)
    (h : execAll I s cs = some t) : Throughout .any (fun m => I m = true) s0 t := by
  induction cs generalizing s with
  | nil =>
    unfold execAll at h
    split at h
    · rename_i hi; cases h; exact h0 hi
    · cases h
  | cons c cs ih =>
    unfold execAll at h
    split at h
    · rename_i hi
      split at h
      · cases h
      · rename_i u hu
        refine ih (fun hu' => ?_) h
        rcases exec1_step hu with rfl | hs
        · exact h0 hi
        · exact (h0 hi).step hs hu'
    · cases h

/-- An execution exists in which, from some point on, a condition holds in every state until the node comes to rest. -/
theorem exists_throughout {n : Node} (cs : List Choice) (f : Sys → Sys) (cs' : List Choice) (I : Node → Node → Bool) (P : Sys → Node → Bool)
    (h : (exec ⟨n, []⟩ cs).any (fun s => (execAll (I s.node) (f s) cs').any fun t => t.pool.isEmpty && P s t.node) = true) :
    ∃ n1 tasks m, Reaches .any ⟨n, []⟩ ⟨n1, tasks⟩ ∧ Throughout .any (fun w => I n1 w = true) (f ⟨n1, tasks⟩) ⟨m, []⟩ ∧ P ⟨n1, tasks⟩ m = true := by
  cases he : exec ⟨n, []⟩ cs with
  | none => rw [he] at h; cases h
  | some s =>
    rw [he] at h
    obtain ⟨n1, tasks⟩ := s
    dsimp only [Option.any_some] at h
    cases hf : execAll (I n1) (f ⟨n1, tasks⟩) cs' with
    | none => rw [hf] at h; cases h
    | some t =>
      rw [hf] at h
      obtain ⟨m, pool⟩ := t
      simp only [Option.any_some, Bool.and_eq_true, List.isEmpty_iff] at h
      obtain ⟨rfl, h⟩ := h
      exact ⟨n1, tasks, m, exec_sound (.refl _) he, execAll_sound (fun hi => .refl hi) hf, h⟩

/-- The same, with an end at any moment. -/
theorem exists_throughout' {n : Node} (cs : List Choice) (f : Sys → Sys) (cs' : List Choice) (I : Node → Node → Bool) (P : Sys → Sys → Bool)
    (h : (exec ⟨n, []⟩ cs).any (fun s => (execAll (I s.node) (f s) cs').any fun t => P s t) = true) :
    ∃ s t, Reaches .any ⟨n, []⟩ s ∧ Throughout .any (fun w => I s.node w = true) (f s) t ∧ P s t = true := by
  cases he : exec ⟨n, []⟩ cs with
  | none => rw [he] at h; cases h
  | some s =>
    rw [he] at h
    dsimp only [Option.any_some] at h
    cases hf : execAll (I s.node) (f s) cs' with
    | none => rw [hf] at h; cases h
    | some t =>
      rw [hf] at h
      exact ⟨s, t, exec_sound (.refl _) he, execAll_sound (fun hi => .refl hi) hf, h⟩

namespace Ex113
open Ex

/-- Another bundle. -/
def other : Bundle := { Ex.bundle 5 1 20 with primary := { Ex.primary with bid := "c" } }

/-- The state after a call. -/
def calling (c : Call) (s : Sys) : Sys := ⟨s.node.log (.called c), s.pool ++ [c.prog]⟩

/-- A test for `Undisturbed`. -/
def undisturbed (b : Bundle) (n m : Node) : Bool :=
  ((newEvents n m).all fun e => match e with | .removed bid _ => decide (bid ≠ b.id) | _ => true) &&
  ((m.store.getBundle b.id).all fun b' => decide (b' = b)) &&
  decide (m.dtnNow < b.primary.creationTime + b.primary.lifetime) &&
  ((m.store.getMetadata b.id).all fun p => decide (p.receivedTime ≤ m.clock) &&
    (bundleAge b).all fun age => decide (age + (m.clock - p.receivedTime) < b.primary.lifetime))

theorem undisturbed_of {b : Bundle} {n m : Node} (h : undisturbed b n m = true) : Undisturbed n b m := by
  unfold undisturbed at h
  simp only [Bool.and_eq_true, decide_eq_true_eq] at h
  obtain ⟨⟨⟨h1, h2⟩, h3⟩, h4⟩ := h
  refine ⟨fun c hc => ?_, fun b' hb => ?_, fun _ => h3, fun p hp => ?_⟩
  · have := List.all_eq_true.mp h1 _ hc
    simp at this
  · rw [hb] at h2; simpa using h2
  · rw [hp] at h4
    simp only [Option.all_some, Bool.and_eq_true, decide_eq_true_eq] at h4
    refine ⟨h4.1, fun age ha => ?_⟩
    have := h4.2
    rw [ha] at this
    simpa using this

theorem leave : CanLeave (Ex.bundle 5 1 20) where
  lifetime := by decide
  hops := ⟨by unfold AtMostOne; decide, by
    intro l c h
    have : hopCount (Ex.bundle 5 1 20) = some (5, 1) := by decide
    rw [this] at h; cases h; decide⟩
  previous := fun _ => by decide
  age := by unfold AtMostOne; decide

/-- Was the router asked about this bundle, and did it name the neighbour? -/
def asked (n m : Node) (bid : String) : Bool :=
  (newEvents n m).any fun e => match e with | .asked bp (some x) => decide (bp.id = bid ∧ Ex.sender ∈ x.clas) | _ => false

theorem asked_of {n m : Node} {bid : String} (h : asked n m bid = true) :
    ∃ bp x, .asked bp (some x) ∈ newEvents n m ∧ bp.id = bid ∧ Ex.sender ∈ x.clas := by
  obtain ⟨e, he, hp⟩ := List.any_eq_true.mp h
  split at hp
  · exact ⟨_, _, he, of_decide_eq_true hp⟩
  · cases hp

end Ex113
end Dtn.Proc
