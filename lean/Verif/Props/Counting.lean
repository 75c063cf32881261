import Verif.Lemmas.ProcWeights
import Verif.Lemmas.ProcExample
/-!
Bundle processing: statistics and numbers of events, in every execution of a node since its start: any calls, any
interleaving of all tasks, any answers of the router, any outcome of transfers.
-/

namespace Dtn.Props
open Proc Routing Spec

/-- C10. When no task is running, the statistics count every reception exactly once, as a new bundle or as a
duplicate. -/
theorem C10_reception_statistics {cfg : Config} {clock : Nat} {s : Sys}
    (run : Reaches .any ⟨Node.start cfg clock, []⟩ s) (idle : s.pool = []) :
    s.node.stats.incoming = s.node.events.countP isAccepted ∧
    s.node.stats.dups = s.node.events.countP isDuplicate ∧
    s.node.stats.incoming + s.node.stats.dups = s.node.events.countP isReceive := by
  have a1 := (W_incoming 1).ended run idle (by simp)
  have a2 := (W_incoming (-1)).ended run idle (by simp)
  have b1 := (W_dups 1).ended run idle (by simp)
  have b2 := (W_dups (-1)).ended run idle (by simp)
  have c1 := (W_receive 1).ended run idle (by simp)
  have c2 := (W_receive (-1)).ended run idle (by simp)
  simp only [Weights.total, sum_mul, sum_sub, sum_add, sum_one] at a1 a2 b1 b2 c1 c2
  omega

example : ∃ s, Reaches .any ⟨Ex.start, []⟩ s ∧ s.pool = [] ∧ s.node.events.countP isAccepted = 1 ∧
    s.node.events.countP isDuplicate = 2 := by
  obtain ⟨s, hs, hp⟩ := exists_run (n := Ex.start)
    (List.replicate 3 (.call (.receive (Ex.bundle 5 1 0))) ++ go 60 (some (Ex.answer false)))
    (fun s => s.pool.isEmpty && decide (s.node.events.countP isAccepted = 1 ∧ s.node.events.countP isDuplicate = 2))
    (by decide +kernel)
  simp only [Bool.and_eq_true, List.isEmpty_iff, decide_eq_true_eq] at hp
  exact ⟨s, hs, hp.1, hp.2⟩

/-- C23 (first part). When no task is running, the statistics agree with the outcomes of all transfers, and every
transfer that was started has an outcome. -/
theorem C23_transfer_statistics {cfg : Config} {clock : Nat} {s : Sys}
    (run : Reaches .any ⟨Node.start cfg clock, []⟩ s) (idle : s.pool = []) :
    s.node.stats.outgoing = s.node.events.countP (isOutcome true) ∧
    s.node.stats.failed = s.node.events.countP (isOutcome false) ∧
    s.node.stats.outgoing + s.node.stats.failed = s.node.events.countP isSending := by
  have a1 := (W_outgoing 1).ended run idle (by simp)
  have a2 := (W_outgoing (-1)).ended run idle (by simp)
  have b1 := (W_failed 1).ended run idle (by simp)
  have b2 := (W_failed (-1)).ended run idle (by simp)
  have c1 := (W_sending 1).ended run idle (by simp)
  have c2 := (W_sending (-1)).ended run idle (by simp)
  simp only [Weights.total, sum_mul, sum_sub, sum_one] at a1 a2 b1 b2 c1 c2
  omega

/-- C23 (second part). When no task is running, for each bundle and each neighbour the router was told of exactly as many
successes and failures as there were. Partial: the neighbours in the router's answers must have a node name; otherwise it
is false (`C23_unnamed_violated`). -/
theorem C23_router_told_partial {cfg : Config} {clock : Nat} {s : Sys}
    (run : Reaches .any ⟨Node.start cfg clock, []⟩ s) (idle : s.pool = [])
    (names : ∀ bp a, Event.asked bp (some a) ∈ s.node.events → ∀ c ∈ a.clas, c.nextHop.node ≠ none)
    (ok : Bool) (bid node : String) :
    s.node.events.countP (isTold ok bid node) = s.node.events.countP (isOutcomeFor ok bid node) := by
  have a1 := (W_told 1 ok bid node).ended run idle names
  have a2 := (W_told (-1) ok bid node).ended run idle names
  simp only [Weights.total, sum_mul, sum_sub, sum_one] at a1 a2
  omega

example : ∃ s, Reaches .any ⟨Ex.start, []⟩ s ∧ s.pool = [] ∧
    (∀ bp a, Event.asked bp (some a) ∈ s.node.events → ∀ c ∈ a.clas, c.nextHop.node ≠ none) ∧
    s.node.events.countP (isOutcomeFor true "b" "n3") = 1 ∧ s.node.events.countP (isOutcomeFor false "b" "n3") = 1 := by
  obtain ⟨s, hs, hp⟩ := exists_run (n := Ex.start)
    (.call (.receive (Ex.bundle 5 1 0)) :: (go 40 (some (Ex.answer false)) ++ [.call .janitor] ++
      go 60 (some (Ex.answer false)) false))
    (fun s => s.pool.isEmpty && (s.node.events.all fun e => match e with
        | .asked _ (some a) => a.clas.all fun c => decide (c.nextHop.node ≠ none)
        | _ => true) && decide
      (s.node.events.countP (isOutcomeFor true "b" "n3") = 1 ∧ s.node.events.countP (isOutcomeFor false "b" "n3") = 1))
    (by decide +kernel)
  simp only [Bool.and_eq_true, List.isEmpty_iff, decide_eq_true_eq] at hp
  refine ⟨s, hs, hp.1.1, ?_, hp.2⟩
  intro bp a h c hc
  have := List.all_eq_true.mp hp.1.2 _ h
  have := List.all_eq_true.mp this c hc
  simpa using this

/-- C23 is false for a neighbour without a node name: the transfer task panics before it tells the router. -/
theorem C23_unnamed_violated : ∃ s, Reaches .any ⟨Ex.start, []⟩ s ∧ s.pool = [] ∧
    s.node.events.countP (isOutcome true) = 1 ∧ ∀ ok bid node, s.node.events.countP (isTold ok bid node) = 0 := by
  obtain ⟨s, hs, hp⟩ := exists_run (n := Ex.start)
    (.call (.receive (Ex.bundle 5 1 0)) :: go 60 (some ⟨[{ Ex.sender with nextHop := .none }], false⟩))
    (fun s => s.pool.isEmpty && decide (s.node.events.countP (isOutcome true) = 1) && (s.node.events.all fun e => match e with
        | .note (.sendingSucceeded ..) => false
        | .note (.sendingFailed ..) => false
        | _ => true)) (by decide +kernel)
  simp only [Bool.and_eq_true, List.isEmpty_iff, decide_eq_true_eq] at hp
  refine ⟨s, hs, hp.1.1, hp.1.2, fun ok bid node => ?_⟩
  rw [List.countP_eq_zero]
  intro e he
  have := List.all_eq_true.mp hp.2 e he
  unfold isTold
  split <;> simp_all

/-- C20 (second part). At any time there is at most one status report per event: one of reception per new bundle and one
per unknown block of it that asks for it, one of forwarding per answer of the router, one of delivery per dispatch, and
one of deletion per dispatch, answer of the router, new bundle and bundle submitted. -/
theorem C20_one_report_per_event {cfg : Config} {clock : Nat} {s : Sys}
    (run : Reaches .any ⟨Node.start cfg clock, []⟩ s) (bid : String) :
    s.node.events.countP (isReception false bid) ≤ s.node.events.countP (isAcceptedId bid) ∧
    s.node.events.countP (isReception true bid) ≤ (s.node.events.map (reportingOf bid)).sum ∧
    s.node.events.countP (isReport .forwarded bid) ≤ s.node.events.countP (isAskedId bid) ∧
    s.node.events.countP (isReport .delivered bid) ≤ s.node.events.countP (isIncomingId bid) ∧
    s.node.events.countP (isReport .deleted bid) ≤ s.node.events.countP (isIncomingId bid) +
      s.node.events.countP (isAskedId bid) + s.node.events.countP (isAcceptedId bid) +
      s.node.events.countP (isSentId bid) := by
  have a := (W_reception bid).always trivial run (by simp)
  have b := (W_unknown bid).always trivial run (by simp)
  have c := (W_forwarded bid).always trivial run (by simp)
  have d := (W_deliveredReport bid).always trivial run (by simp)
  have e := (W_deletedReport bid).always trivial run (by simp)
  simp only [Weights.total, sum_sub, sum_one, sum_cast] at a b c d e
  omega

example : ∃ s, Reaches .any ⟨Ex.start, []⟩ s ∧ s.node.events.countP (isReception false "b") = 1 ∧
    s.node.events.countP (isReport .forwarded "b") = 1 := by
  obtain ⟨s, hs, hp⟩ := exists_run (n := Ex.start)
    ([.call (.receive Ex.asking)] ++ go 60 (some (Ex.answer false)))
    (fun s => decide (s.node.events.countP (isReception false "b") = 1 ∧ s.node.events.countP (isReport .forwarded "b") = 1))
    (by decide +kernel)
  exact ⟨s, hs, of_decide_eq_true hp⟩

/-- C69. At any time, a bundle was announced to the router at most once, and given to an agent at most once, per
reception as a new bundle and per call that submitted it. -/
theorem C69_delivered_at_most_once {cfg : Config} {clock : Nat} {s : Sys}
    (run : Reaches .any ⟨Node.start cfg clock, []⟩ s) (bid : String) :
    s.node.events.countP (isIncomingId bid) ≤
      s.node.events.countP (isAcceptedId bid) + s.node.events.countP (isSentId bid) ∧
    s.node.events.countP (isDeliveryId bid) ≤
      s.node.events.countP (isAcceptedId bid) + s.node.events.countP (isSentId bid) := by
  have a := (W_incomingNote bid).always trivial run (by simp)
  have b := (W_delivery bid).always trivial run (by simp)
  simp only [Weights.total, sum_sub, sum_one] at a b
  omega

example : ∃ s, Reaches .any ⟨Ex.start, []⟩ s ∧ s.node.events.countP (isDeliveryId "b") = 1 ∧
    s.node.events.countP (isReceive) = 2 := by
  obtain ⟨s, hs, hp⟩ := exists_run (n := Ex.start)
    ([.register (.dtn "n3" "x"), .call (.receive Ex.asking), .call (.receive Ex.asking)] ++ go 90 (some (Ex.answer false)))
    (fun s => decide (s.node.events.countP (isDeliveryId "b") = 1 ∧ s.node.events.countP (isReceive) = 2))
    (by decide +kernel)
  exact ⟨s, hs, of_decide_eq_true hp⟩

/-- C70. At any time, a bundle was handed to a convergence layer for a recipient at most as often as the router named
that recipient for it. -/
theorem C70_sent_only_where_the_router_said {cfg : Config} {clock : Nat} {s : Sys}
    (run : Reaches .any ⟨Node.start cfg clock, []⟩ s) (bid : String) (to_ : Sender) :
    s.node.events.countP (isSendingTo bid to_) ≤ (s.node.events.map (named bid to_)).sum := by
  have a := (W_sendingTo bid to_).always trivial run (by simp)
  simp only [Weights.total, sum_sub, sum_one, sum_cast] at a
  omega

example : ∃ s, Reaches .any ⟨Ex.start, []⟩ s ∧ s.node.events.countP (isSendingTo "b" Ex.sender) = 1 ∧
    (s.node.events.map (named "b" Ex.sender)).sum = 1 := by
  obtain ⟨s, hs, hp⟩ := exists_run (n := Ex.start)
    ([.call (.receive (Ex.bundle 5 1 0))] ++ go 60 (some (Ex.answer false)))
    (fun s => decide (s.node.events.countP (isSendingTo "b" Ex.sender) = 1 ∧
      (s.node.events.map (named "b" Ex.sender)).sum = 1)) (by decide +kernel)
  exact ⟨s, hs, of_decide_eq_true hp⟩

/-- C71. When no task is running, the delivery statistic is the number of times a bundle was given to an agent. -/
theorem C71_delivery_statistic {cfg : Config} {clock : Nat} {s : Sys}
    (run : Reaches .any ⟨Node.start cfg clock, []⟩ s) (idle : s.pool = []) :
    s.node.stats.delivered = s.node.events.countP isDelivery := by
  have a1 := (W_delivered 1).ended run idle (by simp)
  have a2 := (W_delivered (-1)).ended run idle (by simp)
  simp only [Weights.total, sum_mul, sum_one] at a1 a2
  omega

example : ∃ s, Reaches .any ⟨Ex.start, []⟩ s ∧ s.pool = [] ∧ s.node.stats.delivered = 1 := by
  obtain ⟨s, hs, hp⟩ := exists_run (n := Ex.start)
    ([.register (.dtn "n3" "x"), .call (.receive Ex.asking), .call (.receive Ex.asking)] ++ go 90 (some (Ex.answer false)))
    (fun s => s.pool.isEmpty && decide (s.node.stats.delivered = 1)) (by decide +kernel)
  simp only [Bool.and_eq_true, List.isEmpty_iff, decide_eq_true_eq] at hp
  exact ⟨s, hs, hp.1, hp.2⟩

end Dtn.Props
