import Verif.Lemmas.RouterRestarts
import Verif.Spec.SprayNetwork
import Mathlib.Data.List.Basic
import Mathlib.Data.List.Nodup
/-! Copies of a bundle in a network of spray and wait nodes. -/

namespace Dtn.Proc
open Spec Routing

/-- A bundle with this id has come in. -/
def isReceiveId (bid : String) : Event → Bool
  | .called (.receive b) => decide (b.id = bid)
  | _ => false

theorem W_taken (bid : String) :
    ({ ev := fun e => one (isAcceptedId bid) e - one (isReceiveId bid) e
       strict := True } : Weights).OK := by
  constructor <;> intros
  all_goals wsolve [isAcceptedId, isReceiveId]

theorem taken_either {cfg : Config} {clock : Nat} {s : Sys} (run : EitherStore cfg clock s) {b : Bundle}
    (h : .accepted b ∈ s.node.events) : ∃ b', .called (.receive b') ∈ s.node.events ∧ b'.id = b.id := by
  have key : s.node.events.countP (isAcceptedId b.id) ≤ s.node.events.countP (isReceiveId b.id) := by
    rcases run with run | run
    · have a := (W_taken b.id).always trivial run (by simp)
      simp only [Weights.total, sum_sub, sum_one] at a
      omega
    · have a := OnSled.Enough.always ⟨W_taken b.id, by simp [one, isAcceptedId, isReceiveId]; intro b'; split <;> omega⟩ trivial run (by simp)
      simp only [Weights.total, sum_sub, sum_one] at a
      omega
  have h1 : 0 < s.node.events.countP (isAcceptedId b.id) := List.countP_pos_iff.mpr ⟨_, h, by simp [isAcceptedId]⟩
  obtain ⟨e, he, hp⟩ := List.countP_pos_iff.mp (Nat.lt_of_lt_of_le h1 key)
  unfold isReceiveId at hp
  split at hp
  · exact ⟨_, he, of_decide_eq_true hp⟩
  · cases hp

/-- The other nodes for which copies were handed over. -/
def relaysAt (bid d : String) (events : List Event) : List String :=
  events.filterMap fun e => match e with
    | .sending t => if t.stored.id = bid ∧ t.to.nextHop.node.getD "" ≠ d then some (t.to.nextHop.node.getD "") else none
    | _ => none

theorem relaysAt_length (bid d : String) (events : List Event) :
    (relaysAt bid d events).length = events.countP (isSendingElsewhere bid d) := by
  induction events with
  | nil => rfl
  | cons e l ih =>
    unfold relaysAt at ih ⊢
    rw [List.filterMap_cons, List.countP_cons]
    cases e <;> try (simpa [isSendingElsewhere] using ih)
    rename_i t
    by_cases h : t.stored.id = bid ∧ t.to.nextHop.node.getD "" ≠ d
    · simp only [if_pos h, List.length_cons, isSendingElsewhere, decide_eq_true h.1, decide_eq_true h.2, Bool.and_self]
      simpa using ih
    · have : isSendingElsewhere bid d (.sending t) = false := by
        simp only [isSendingElsewhere, Bool.and_eq_false_iff, decide_eq_false_iff_not]
        by_cases h1 : t.stored.id = bid
        · exact .inr fun h2 => h ⟨h1, h2⟩
        · exact .inl h1
      simp only [if_neg h, this]
      simpa using ih

theorem failures_split (p : SprayPlace) (bid d : String) :
    p.failures bid = p.events.countP (isFailedTo bid d) + p.events.countP (isFailedElsewhere bid d) := by
  unfold SprayPlace.failures
  induction p.events with
  | nil => rfl
  | cons e l ih =>
    rw [List.countP_cons, List.countP_cons, List.countP_cons, ih]
    have : (if isFailureOf bid e = true then 1 else 0) =
        (if isFailedTo bid d e = true then 1 else 0) + if isFailedElsewhere bid d e = true then 1 else 0 := by
      cases e with
      | note x =>
        cases x with
        | sendingFailed i n => by_cases h : i = bid <;> by_cases h2 : n = d <;> simp [isFailureOf, isFailedTo, isFailedElsewhere, h, h2]
        | _ => rfl
      | _ => rfl
    omega

/-- Each of these names is among those for which copies were handed over somewhere. -/
theorem names_le {α : Type} {names : List String} (nodup : names.Nodup) {l : List α} {f : α → List String}
    (sub : ∀ n ∈ names, ∃ a ∈ l, n ∈ f a) : names.length ≤ (l.map fun a => (f a).length).sum := by
  have h : names ⊆ (l.map f).flatten := fun n hn => by
    obtain ⟨a, ha, h⟩ := sub n hn
    exact List.mem_flatten.mpr ⟨_, List.mem_map.mpr ⟨a, ha, rfl⟩, h⟩
  have := (List.subperm_of_subset nodup h).length_le
  rw [List.length_flatten, List.map_map] at this
  exact this

theorem sum_one_node {α : Type} [DecidableEq α] {f : α → Nat} {l : List α} (nodup : l.Nodup) (a : α) (h : ∀ x ∈ l, x ≠ a → f x = 0) :
    (l.map f).sum ≤ f a := by
  induction l with
  | nil => simp
  | cons b l ih =>
    rw [List.map_cons, List.sum_cons]
    rw [List.nodup_cons] at nodup
    by_cases hb : b = a
    · subst hb
      have : (l.map f).sum = 0 := by
        apply List.sum_eq_zero
        intro x hx
        obtain ⟨y, hy, rfl⟩ := List.mem_map.mp hx
        exact h y (List.mem_cons_of_mem _ hy) fun e => nodup.1 (e ▸ hy)
      omega
    · have := ih nodup.2 fun x hx => h x (List.mem_cons_of_mem _ hx)
      have := h b List.mem_cons_self hb
      omega

end Dtn.Proc
