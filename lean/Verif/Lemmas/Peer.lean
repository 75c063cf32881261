import Verif.Lemmas.AList
import Verif.Spec.Routing
/-! Lemmas about peers. -/

namespace Dtn
open Spec

namespace Peer

theorem firstClaIn_eq_none (p : Peer) (running : List Cla) (l : List (String × Option Nat)) :
    p.firstClaIn running l = none ↔ ∀ x ∈ l, ∀ c ∈ running, ¬ (c.name = x.1 ∧ c.accepting = true) := by
  induction l with
  | nil => simp [firstClaIn]
  | cons x l ih =>
    obtain ⟨name, port⟩ := x
    unfold firstClaIn
    cases hf : running.find? (fun c => c.name = name && c.accepting) with
    | none =>
      rw [List.find?_eq_none] at hf
      simp only [ih, List.forall_mem_cons]
      constructor
      · intro h
        refine ⟨fun c hc => ?_, h⟩
        have := hf c hc
        simpa using this
      · intro h; exact h.2
    | some c =>
      have h1 := List.find?_some hf
      have h2 := List.mem_of_find?_eq_some hf
      simp only [reduceCtorEq, false_iff]
      intro h
      exact h (name, port) (by simp) c h2 (by simpa using h1)

theorem firstCla_isSome_iff (p : Peer) (running : List Cla) : (p.firstCla running).isSome ↔ Usable running p := by
  unfold Usable
  have h := firstClaIn_eq_none p running p.claList
  change p.firstCla running = none ↔ _ at h
  cases hf : p.firstCla running with
  | none =>
    rw [hf] at h
    simp only [Option.isSome_none, Bool.false_eq_true, false_iff]
    rintro ⟨x, hx, c, hc, h1⟩
    exact h.1 rfl x hx c hc h1
  | some s =>
    rw [hf] at h
    simp only [Option.isSome_some, true_iff]
    apply Classical.byContradiction
    intro hno
    have := h.2 (fun x hx c hc h1 => hno ⟨x, hx, c, hc, h1⟩)
    cases this

theorem firstClaIn_spec (p : Peer) (running : List Cla) (l : List (String × Option Nat)) (s : Sender)
    (h : p.firstClaIn running l = some s) :
    s.nextHop = p.eid ∧ ∃ pre x post, l = pre ++ x :: post ∧
      (∀ y ∈ pre, ∀ c ∈ running, ¬ (c.name = y.1 ∧ c.accepting = true)) ∧
      s.tx ∈ running ∧ s.tx.name = x.1 ∧ s.tx.accepting = true ∧
      s.claName = x.1 ∧ s.dest = p.addr.print ++ ":" ++ toString (x.2.getD s.tx.port) := by
  induction l with
  | nil => simp [firstClaIn] at h
  | cons x l ih =>
    obtain ⟨name, port⟩ := x
    unfold firstClaIn at h
    cases hf : running.find? (fun c => c.name = name && c.accepting) with
    | none =>
      rw [hf] at h
      obtain ⟨h1, pre, x, post, rfl, h2, h3⟩ := ih h
      refine ⟨h1, (name, port) :: pre, x, post, rfl, ?_, h3⟩
      intro y hy c hc
      rcases List.mem_cons.1 hy with rfl | hy
      · rw [List.find?_eq_none] at hf
        simpa using hf c hc
      · exact h2 y hy c hc
    | some c =>
      rw [hf] at h
      have h1 := List.find?_some hf
      have h2 := List.mem_of_find?_eq_some hf
      simp only [Bool.and_eq_true, decide_eq_true_eq] at h1
      injection h with h
      subst h
      refine ⟨rfl, [], (name, port), l, rfl, by simp, h2, h1.1, h1.2, ?_, rfl⟩
      simp [sender, h1.1]

theorem firstCla_sendsTo {p : Peer} {running : List Cla} {s : Sender} (h : p.firstCla running = some s) :
    SendsTo running p s := by
  obtain ⟨h1, pre, x, post, h2, _, h3⟩ := firstClaIn_spec p running _ s h
  exact ⟨h1, x, by rw [h2]; simp, h3⟩

theorem firstCla_nextHop {p : Peer} {running : List Cla} {s : Sender} (h : p.firstCla running = some s) :
    s.nextHop = p.eid := (firstCla_sendsTo h).1

end Peer
end Dtn
