import Verif.Lemmas.SledCount
import Verif.Lemmas.SledExample
import Verif.Props.SledGiven
/-!
C135: numbers of events and statistics of a node with the persistent store, in every history: any calls, any interleaving of all tasks,
any answers of the router, any outcome of transfers, and stops of the process at any point.
-/

namespace Dtn.Props
open Proc Routing Spec OnSled

/-- Both ways of saying that a bundle was taken as new. -/
theorem accepted_once {cfg : Config} {clock : Nat} {s : Sys} (run : OnSled.Reaches ⟨Node.start cfg clock, []⟩ s) (bid : String) :
    s.node.events.countP (isAcceptedId bid) ≤ 1 := by
  have h := (between run (.refl _)).1.once bid
  rw [← List.countP_eq_length_filter] at h
  exact h

/-- C135 (announcements and deliveries). With the persistent store, a bundle is announced to the router at most once and given to an agent
at most once for having been received, however often it is received and the process is stopped, and once per call that submitted it. -/
theorem C135_given_once {cfg : Config} {clock : Nat} {s : Sys} (run : OnSled.Reaches ⟨Node.start cfg clock, []⟩ s) (bid : String) :
    s.node.events.countP (isIncomingId bid) ≤ 1 + s.node.events.countP (isSentId bid) ∧
    s.node.events.countP (isDeliveryId bid) ≤ 1 + s.node.events.countP (isSentId bid) := by
  have o := accepted_once run bid
  have a := Enough.always ⟨W_incomingNote bid, by simp [one, isIncomingId, isAcceptedId, isSentId]⟩ trivial run (by simp)
  have b := Enough.always ⟨W_delivery bid, by simp [one, isDeliveryId, isIncomingId]⟩ trivial run (by simp)
  simp only [Weights.total, sum_sub, sum_one] at a b
  omega

/-- A bundle is received, given to its application, and received again after a restart. -/
example : ∃ s, OnSled.Reaches ⟨Node.start Ex.cfg 946684800100, []⟩ s ∧ s.node.events.countP (isDeliveryId "b") = 1 ∧
    s.node.events.countP isReceive = 2 := by
  obtain ⟨s, t, h1, h2, hp⟩ := exists_moves (n := Node.start Ex.cfg 946684800100)
    ([.register (.dtn "n3" "x"), .call (.receive (Ex.bundle 5 1 20))] ++ going 60)
    ([.restart 946684800200, .register (.dtn "n3" "x"), .call (.receive (Ex.bundle 5 1 20))] ++ going 60) (fun s => s)
    (fun _ t => decide (t.node.events.countP (isDeliveryId "b") = 1) && decide (t.node.events.countP isReceive = 2)) (by decide +kernel)
  simp only [Bool.and_eq_true, decide_eq_true_eq] at hp
  exact ⟨t, h1.join h2, hp.1, hp.2⟩

/-- C135 (status reports). With the persistent store, there is at most one status report per event, whatever stops of the process there
are: one of the reception of a bundle, and one per unknown block of it that asks for it; one of forwarding per answer of the router; one
of delivery, and one more per call that submitted the bundle; and one of deletion per dispatch, answer of the router, new bundle and
bundle submitted. -/
theorem C135_one_report_per_event {cfg : Config} {clock : Nat} {s : Sys} (run : OnSled.Reaches ⟨Node.start cfg clock, []⟩ s)
    (bid : String) :
    s.node.events.countP (isReception false bid) ≤ 1 ∧
    s.node.events.countP (isReception true bid) ≤ (s.node.events.map (reportingOf bid)).sum ∧
    s.node.events.countP (isReport .forwarded bid) ≤ s.node.events.countP (isAskedId bid) ∧
    s.node.events.countP (isReport .delivered bid) ≤ 1 + s.node.events.countP (isSentId bid) ∧
    s.node.events.countP (isReport .deleted bid) ≤ 2 + s.node.events.countP (isAskedId bid) +
      2 * s.node.events.countP (isSentId bid) := by
  have o := accepted_once run bid
  have g := (C135_given_once run bid).1
  have a := Enough.always ⟨W_reception bid, by simp [one, isReception, isAcceptedId]⟩ trivial run (by simp)
  have b := Enough.always ⟨W_unknown bid, by simp [one, isReception, reportingOf]⟩ trivial run (by simp)
  have c := Enough.always ⟨W_forwarded bid, by simp [one, isReport, isAskedId]⟩ trivial run (by simp)
  have d := Enough.always ⟨W_deliveredReport bid, by simp [one, isReport, isIncomingId]⟩ trivial run (by simp)
  have e := Enough.always ⟨W_deletedReport bid, by simp [one, isReport, isAskedId, isIncomingId, isAcceptedId, isSentId]⟩
    trivial run (by simp)
  simp only [Weights.total, sum_sub, sum_one, sum_cast] at a b c d e
  omega

/-- A bundle that asks for reports is received, the process is restarted, and it is received again. -/
example : ∃ s, OnSled.Reaches ⟨Node.start Ex.cfg 946684800100, []⟩ s ∧ s.node.events.countP (isReception false "b") = 1 ∧
    s.node.events.countP (isReport .forwarded "b") = 1 ∧ s.node.events.countP isReceive = 2 := by
  obtain ⟨s, t, h1, h2, hp⟩ := exists_moves (n := Node.start Ex.cfg 946684800100)
    ([.call (.receive Ex.asking)] ++ going 60 (some (Ex.answer false)))
    ([.restart 946684800200, .call (.receive Ex.asking)] ++ going 60) (fun s => s)
    (fun _ t => decide (t.node.events.countP (isReception false "b") = 1) && decide (t.node.events.countP (isReport .forwarded "b") = 1) &&
      decide (t.node.events.countP isReceive = 2)) (by decide +kernel)
  simp only [Bool.and_eq_true, decide_eq_true_eq] at hp
  exact ⟨t, h1.join h2, hp.1.1, hp.1.2, hp.2⟩

/-- C135 (transfers). With the persistent store, a bundle was handed to a convergence layer for a recipient at most as often as the router
named that recipient for it, whatever stops of the process there are. -/
theorem C135_sent_only_where_the_router_said {cfg : Config} {clock : Nat} {s : Sys}
    (run : OnSled.Reaches ⟨Node.start cfg clock, []⟩ s) (bid : String) (to_ : Sender) :
    s.node.events.countP (isSendingTo bid to_) ≤ (s.node.events.map (named bid to_)).sum := by
  have a := Enough.always ⟨W_sendingTo bid to_, by simp [one, isSendingTo, named]⟩ trivial run (by simp)
  simp only [Weights.total, sum_sub, sum_one, sum_cast] at a
  omega

/-- A bundle is sent once before and once after a restart. -/
example : ∃ s, OnSled.Reaches ⟨Node.start Ex.cfg 946684800100, []⟩ s ∧ s.node.events.countP (isSendingTo "b" Ex.sender) = 2 ∧
    (s.node.events.map (named "b" Ex.sender)).sum = 2 := by
  obtain ⟨s, t, h1, h2, hp⟩ := exists_moves (n := Node.start Ex.cfg 946684800100)
    ([.call (.receive (Ex.bundle 5 1 20))] ++ going 60 (some (Ex.answer false)))
    ([.restart 946684800200, .cla true, .call .janitor] ++ going 60 (some (Ex.answer false))) (fun s => s)
    (fun _ t => decide (t.node.events.countP (isSendingTo "b" Ex.sender) = 2) &&
      decide ((t.node.events.map (named "b" Ex.sender)).sum = 2)) (by decide +kernel)
  simp only [Bool.and_eq_true, decide_eq_true_eq] at hp
  exact ⟨t, h1.join h2, hp.1, hp.2⟩

/-- The history of a session. -/
theorem session_events {cfg : Config} {clock : Nat} {n m : Node} {I : Node → Prop}
    (before : OnSled.Reaches ⟨Node.start cfg clock, []⟩ ⟨n, []⟩) (session : SledThroughout I ⟨n, []⟩ ⟨m, []⟩) :
    m.events = n.events ++ newEvents n m :=
  newEvents_of_prefix (between before session.reaches).2.1.base.past

/-- C135 (statistics). A session is a run without a stop of the process, from the start or a restart of the node, or any other time when no
task is running, until no task is running. In a session the statistics count the bundles taken as new, the duplicates, and the
outcomes of transfers, and every transfer that was started has an outcome. Each reception is counted at most once, and each delivery
exactly once. Partial: a reception may be counted not at all (`C135_uncounted_violated`). -/
theorem C135_statistics_partial {cfg : Config} {clock : Nat} {n m : Node}
    (before : OnSled.Reaches ⟨Node.start cfg clock, []⟩ ⟨n, []⟩) (session : SledThroughout (fun _ => True) ⟨n, []⟩ ⟨m, []⟩) :
    m.stats.incoming = n.stats.incoming + (newEvents n m).countP isAccepted ∧
    m.stats.dups = n.stats.dups + (newEvents n m).countP isDuplicate ∧
    m.stats.incoming + m.stats.dups ≤ n.stats.incoming + n.stats.dups + (newEvents n m).countP isReceive ∧
    m.stats.outgoing = n.stats.outgoing + (newEvents n m).countP (isOutcome true) ∧
    m.stats.failed = n.stats.failed + (newEvents n m).countP (isOutcome false) ∧
    m.stats.outgoing + m.stats.failed = n.stats.outgoing + n.stats.failed + (newEvents n m).countP isSending ∧
    m.stats.delivered = n.stats.delivered + (newEvents n m).countP isDelivery := by
  have he := session_events before session
  have a1 := Enough.ended ⟨W_incoming 1, by simp [one, isAccepted]⟩ before session (by simp)
  have a2 := Enough.ended ⟨W_incoming (-1), by simp [one, isAccepted]⟩ before session (by simp)
  have b1 := Enough.ended ⟨W_dups 1, by simp [one, isDuplicate]⟩ before session (by simp)
  have b2 := Enough.ended ⟨W_dups (-1), by simp [one, isDuplicate]⟩ before session (by simp)
  have c1 := Enough.ended ⟨W_receive 1, by simp [one, isDuplicate, isAccepted, isReceive]⟩ before session (by simp)
  have d1 := Enough.ended ⟨W_outgoing 1, by simp [one, isOutcome]⟩ before session (by simp)
  have d2 := Enough.ended ⟨W_outgoing (-1), by simp [one, isOutcome]⟩ before session (by simp)
  have e1 := Enough.ended ⟨W_failed 1, by simp [one, isOutcome]⟩ before session (by simp)
  have e2 := Enough.ended ⟨W_failed (-1), by simp [one, isOutcome]⟩ before session (by simp)
  have f1 := Enough.ended ⟨W_sending 1, by simp [one, isOutcome, isSending]⟩ before session (by simp)
  have f2 := Enough.ended ⟨W_sending (-1), by simp [one, isOutcome, isSending]⟩ before session (by simp)
  have g1 := Enough.ended ⟨W_delivered 1, by simp [one, isDelivery]⟩ before session (by simp)
  have g2 := Enough.ended ⟨W_delivered (-1), by simp [one, isDelivery]⟩ before session (by simp)
  simp only [Weights.total, sum_mul, sum_sub, sum_add, sum_one, he, List.countP_append] at a1 a2 b1 b2 c1 d1 d2 e1 e2 f1 f2 g1 g2
  omega

/-- After a restart, a bundle is taken as new and two others are duplicates; a transfer succeeds and two fail. -/
example : ∃ n m, OnSled.Reaches ⟨Node.start Ex.cfg 946684800100, []⟩ ⟨n, []⟩ ∧ SledThroughout (fun _ => True) ⟨n, []⟩ ⟨m, []⟩ ∧
    n.events ≠ [] ∧ n.stats = {} ∧ m.stats.incoming = 1 ∧ m.stats.dups = 2 ∧ m.stats.outgoing = 1 ∧ m.stats.failed = 2 := by
  obtain ⟨n, tasks, m, h1, h2, h3⟩ := exists_sled (n := Node.start Ex.cfg 946684800100)
    ([.call (.receive earlier)] ++ going 40 ++ [.restart 946684800200]) (fun s => ⟨s.node, []⟩)
    ([.call (.receive (Ex.bundle 5 1 20))] ++ going 50 (some (Ex.answer false)) ++ [.cla true, .call (.receive (Ex.bundle 5 1 20)),
      .call (.receive earlier)] ++ going 20 ++ [.call .janitor] ++ List.replicate 60 (.next (some (Ex.answer false)) false "r"))
    (fun _ _ => true)
    (fun s m => s.pool.isEmpty && !s.node.events.isEmpty && decide (s.node.stats = {}) && decide (m.stats.incoming = 1) &&
      decide (m.stats.dups = 2) && decide (m.stats.outgoing = 1) && decide (m.stats.failed = 2)) (by decide +kernel)
  simp only [Bool.and_eq_true, decide_eq_true_eq, List.isEmpty_iff] at h3
  obtain ⟨⟨⟨⟨⟨⟨h4, h5⟩, h6⟩, h7⟩, h8⟩, h9⟩, h10⟩ := h3
  subst h4
  exact ⟨n, m, h1, h2.weaken fun _ _ => trivial, by simpa using h5, h6, h7, h8, h9, h10⟩

/-- After a restart, a bundle is given to its application. -/
example : ∃ n m, OnSled.Reaches ⟨Node.start Ex.cfg 946684800100, []⟩ ⟨n, []⟩ ∧ SledThroughout (fun _ => True) ⟨n, []⟩ ⟨m, []⟩ ∧
    n.events ≠ [] ∧ n.stats = {} ∧ m.stats.delivered = 1 := by
  obtain ⟨n, tasks, m, h1, h2, h3⟩ := exists_sled (n := Node.start Ex.cfg 946684800100)
    ([.call (.receive earlier)] ++ going 40 ++ [.restart 946684800200]) (fun s => ⟨s.node, []⟩)
    ([.register (.dtn "n3" "x"), .call (.receive (Ex.bundle 5 1 20))] ++ going 50 (some (Ex.answer false))) (fun _ _ => true)
    (fun s m => s.pool.isEmpty && !s.node.events.isEmpty && decide (s.node.stats = {}) && decide (m.stats.delivered = 1))
    (by decide +kernel)
  simp only [Bool.and_eq_true, decide_eq_true_eq, List.isEmpty_iff] at h3
  obtain ⟨⟨⟨h4, h5⟩, h6⟩, h7⟩ := h3
  subst h4
  exact ⟨n, m, h1, h2.weaken fun _ _ => trivial, by simpa using h5, h6, h7⟩

/-- C135 (what the router is told). In a session, for each bundle and each neighbour the router was told of exactly as many successes and
failures as there were. Partial: the neighbours in the router's answers must have a node name, as without a database
(`C23_unnamed_violated`). -/
theorem C135_router_told_partial {cfg : Config} {clock : Nat} {n m : Node}
    (before : OnSled.Reaches ⟨Node.start cfg clock, []⟩ ⟨n, []⟩) (session : SledThroughout (fun _ => True) ⟨n, []⟩ ⟨m, []⟩)
    (names : ∀ bp a, Event.asked bp (some a) ∈ m.events → ∀ c ∈ a.clas, c.nextHop.node ≠ none) (ok : Bool) (bid node : String) :
    (newEvents n m).countP (isTold ok bid node) = (newEvents n m).countP (isOutcomeFor ok bid node) := by
  have he := session_events before session
  have a1 := Enough.ended ⟨W_told 1 ok bid node, by simp [one, isOutcomeFor, isTold]⟩ before session names
  have a2 := Enough.ended ⟨W_told (-1) ok bid node, by simp [one, isOutcomeFor, isTold]⟩ before session names
  simp only [Weights.total, sum_mul, sum_sub, sum_one, he, List.countP_append] at a1 a2
  omega

/-- After a restart, a transfer succeeds, and the router is told. -/
example : ∃ n m, OnSled.Reaches ⟨Node.start Ex.cfg 946684800100, []⟩ ⟨n, []⟩ ∧ SledThroughout (fun _ => True) ⟨n, []⟩ ⟨m, []⟩ ∧
    (∀ bp a, Event.asked bp (some a) ∈ m.events → ∀ c ∈ a.clas, c.nextHop.node ≠ none) ∧
    (newEvents n m).countP (isOutcomeFor true "b" "n3") = 1 ∧ n.events.countP (isOutcomeFor true "b" "n3") = 1 := by
  obtain ⟨n, tasks, m, h1, h2, h3⟩ := exists_sled (n := Node.start Ex.cfg 946684800100)
    ([.call (.receive (Ex.bundle 5 1 20))] ++ going 40 (some (Ex.answer false)) ++ [.restart 946684800200]) (fun s => ⟨s.node, []⟩)
    ([.cla true, .call .janitor] ++ going 60 (some (Ex.answer false))) (fun _ _ => true)
    (fun s m => s.pool.isEmpty && (m.events.all fun e => match e with
        | .asked _ (some a) => a.clas.all fun c => decide (c.nextHop.node ≠ none)
        | _ => true) && decide ((newEvents s.node m).countP (isOutcomeFor true "b" "n3") = 1) &&
      decide (s.node.events.countP (isOutcomeFor true "b" "n3") = 1)) (by decide +kernel)
  simp only [Bool.and_eq_true, decide_eq_true_eq, List.isEmpty_iff] at h3
  obtain ⟨⟨⟨h4, h5⟩, h6⟩, h7⟩ := h3
  subst h4
  refine ⟨n, m, h1, h2.weaken fun _ _ => trivial, ?_, h6, h7⟩
  intro bp a h c hc
  have := List.all_eq_true.mp h5 _ h
  have := List.all_eq_true.mp this c hc
  simpa using this

/-- C135 (receptions) is false with the persistent store: a bundle whose id is in the database although the bundle itself was removed is
refused, and the reception is counted neither as a new bundle nor as a duplicate. -/
theorem C135_uncounted_violated : ∃ n m, OnSled.Reaches ⟨Node.start Ex.cfg 946684800100, []⟩ ⟨n, []⟩ ∧
    SledThroughout (fun _ => True) ⟨n, []⟩ ⟨m, []⟩ ∧ n.stats = {} ∧ (newEvents n m).countP isReceive = 1 ∧
    m.stats.incoming + m.stats.dups = 0 := by
  obtain ⟨n, tasks, m, h1, h2, h3⟩ := exists_sled (n := Node.start Ex.cfg 946684800100)
    ([.call (.receive earlier)] ++ going 40 ++ [.call (.remove "d")] ++ going 3 ++ [.restart 946684800200]) (fun s => ⟨s.node, []⟩)
    ([.call (.receive earlier)] ++ going 20) (fun _ _ => true)
    (fun s m => s.pool.isEmpty && decide (s.node.stats = {}) && decide ((newEvents s.node m).countP isReceive = 1) &&
      decide (m.stats.incoming + m.stats.dups = 0)) (by decide +kernel)
  simp only [Bool.and_eq_true, decide_eq_true_eq, List.isEmpty_iff] at h3
  obtain ⟨⟨⟨h4, h5⟩, h6⟩, h7⟩ := h3
  subst h4
  exact ⟨n, m, h1, h2.weaken fun _ _ => trivial, h5, h6, h7⟩

end Dtn.Props
