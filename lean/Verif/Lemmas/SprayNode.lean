import Verif.Lemmas.RouterTalk
import Verif.Lemmas.SprayFailures
import Verif.Spec.Spray
/-! A node with spray and wait routing. -/

namespace Dtn.Proc
open Routing Spec

/-- How many nodes other than `d` an answer names. -/
def namedElsewhere (bid d : String) : Event → Nat
  | .asked bp (some a) => if bp.id = bid then a.clas.countP (fun s => decide (s.nextHop.node.getD "" ≠ d)) else 0
  | _ => 0

theorem count_elsewhere (d : String) (l : List Sender) :
    (l.map fun x => if x.nextHop.node.getD "" ≠ d then (1 : Int) else 0).sum =
      l.countP (fun s => decide (s.nextHop.node.getD "" ≠ d)) := by
  induction l with
  | nil => rfl
  | cons x l ih =>
    simp only [List.map_cons, List.sum_cons, ih, List.countP_cons, decide_eq_true_eq]
    split_ifs <;> simp; omega

theorem W_sendingElsewhere (bid d : String) :
    ({ ev := fun e => one (isSendingElsewhere bid d) e - (namedElsewhere bid d e : Int)
       trans := fun t => if t.stored.id = bid ∧ t.to.nextHop.node.getD "" ≠ d then 1 else 0
       strict := True } : Weights).OK := by
  constructor <;> intros
  case askedSent bp a mk ha hmk =>
    simp only [one, isSendingElsewhere, namedElsewhere, hmk, Bool.false_eq_true, if_false]
    by_cases hb : bp.id = bid
    · simp only [hb, if_true, true_and, count_elsewhere]; omega
    · simp [hb]
  all_goals wsolve [isSendingElsewhere, namedElsewhere]

theorem W_endedElsewhere (bid d : String) :
    ({ ev := fun e => one (isOutcomeElsewhere bid d) e + one (isFailedElsewhere bid d) e - one (isSendingElsewhere bid d) e
       strict := True } : Weights).OK := by
  constructor <;> intros
  all_goals wsolve [isSendingElsewhere, isOutcomeElsewhere, isFailedElsewhere]

theorem W_announced (bid : String) :
    ({ ev := fun e => one (isAnnounced bid) e - one (isAcceptedId bid) e - one (isSentId bid) e
       disp := fun i => if i = bid then 1 else 0
       strict := True } : Weights).OK := by
  constructor <;> intros
  all_goals wsolve [isAcceptedId, isAnnounced, isSentId]

variable {cfg : Config} {clock : Nat} {s : Sys}

theorem elsewhere_le (run : Reaches .any ⟨Node.start cfg clock, []⟩ s) (bid d : String) :
    s.node.events.countP (isSendingElsewhere bid d) ≤ (s.node.events.map (namedElsewhere bid d)).sum := by
  have a := (W_sendingElsewhere bid d).always trivial run (by simp)
  simp only [Weights.total, sum_sub, sum_one, sum_cast] at a
  omega

theorem endedElsewhere_le (run : Reaches .any ⟨Node.start cfg clock, []⟩ s) (bid d : String) :
    s.node.events.countP (isOutcomeElsewhere bid d) + s.node.events.countP (isFailedElsewhere bid d) ≤
      s.node.events.countP (isSendingElsewhere bid d) := by
  have a := (W_endedElsewhere bid d).always trivial run (by simp)
  simp only [Weights.total, sum_sub, sum_add, sum_one] at a
  omega

theorem announced_le (run : Reaches .any ⟨Node.start cfg clock, []⟩ s) (bid : String) :
    s.node.events.countP (isAnnounced bid) ≤
      s.node.events.countP (isAcceptedId bid) + s.node.events.countP (isSentId bid) := by
  have a := (W_announced bid).always trivial run (by simp)
  simp only [Weights.total, sum_sub, sum_one] at a
  omega

theorem elsewhere_talk (bid d : String) (events : List Event) :
    ((events.filterMap nodeTalk).map (namedElsewhere bid d)).sum = (events.map (namedElsewhere bid d)).sum := by
  induction events with
  | nil => rfl
  | cons e l ih =>
    cases e <;> simp only [List.filterMap_cons, nodeTalk, List.map_cons, List.sum_cons, ih] <;> try (simp [namedElsewhere]; done)
    rename_i x
    cases x <;> simp [aboutPeers, namedElsewhere, ih]

theorem announced_talk (bid : String) (events : List Event) :
    (events.filterMap nodeTalk).countP (isAnnounced bid) = events.countP (isAnnounced bid) := by
  induction events with
  | nil => rfl
  | cons e l ih =>
    cases e <;> simp only [List.filterMap_cons, nodeTalk] <;> try (simpa [isAnnounced, List.countP_cons] using ih)
    rename_i x
    cases x <;> simp [aboutPeers, List.countP_cons, ih, isAnnounced]

theorem failed_talk (bid d : String) (events : List Event) :
    (events.filterMap nodeTalk).countP (isFailedTo bid d) = events.countP (isFailedTo bid d) ∧
    (events.filterMap nodeTalk).countP (isFailedElsewhere bid d) = events.countP (isFailedElsewhere bid d) := by
  induction events with
  | nil => exact ⟨rfl, rfl⟩
  | cons e l ih =>
    cases e <;> simp only [List.filterMap_cons, nodeTalk] <;>
      try (simpa [isFailedTo, isFailedElsewhere, List.countP_cons] using ih)
    rename_i x
    cases x <;> simp [aboutPeers, List.countP_cons, ih, isFailedTo, isFailedElsewhere]

/-- The commands of a history, as the node sees them. -/
theorem history_counts (bid d : String) (h : List (Cmd × Option Answer)) :
    (h.map Prod.fst).countP (isArrival bid) = (h.filterMap routerTalk).countP (isAnnounced bid) ∧
    (h.map Prod.fst).countP (isFailure bid) =
      (h.filterMap routerTalk).countP (isFailedTo bid d) + (h.filterMap routerTalk).countP (isFailedElsewhere bid d) := by
  induction h with
  | nil => exact ⟨rfl, rfl⟩
  | cons x h ih =>
    obtain ⟨c, a⟩ := x
    obtain ⟨i1, i2⟩ := ih
    cases c with
    | notify x =>
      cases x with
      | sendingFailed b n =>
        by_cases h1 : b = bid <;> by_cases h2 : n = d <;>
          simp [routerTalk, aboutPeers, isArrival, isFailure, isAnnounced, isFailedTo, isFailedElsewhere,
            h1, h2, i1, i2] <;> omega
      | _ => simp [List.countP_cons, routerTalk, aboutPeers, isArrival, isFailure, isAnnounced, isFailedTo, isFailedElsewhere, i1, i2]
    | _ => simp [List.filterMap_cons, routerTalk, isArrival, isFailure, isAnnounced, isFailedTo, isFailedElsewhere, i1, i2]

/-- Only answers that do not ask for deletion name nodes other than the destination. -/
theorem elsewhere_relays (bid d : String) (h : List (Cmd × Option Answer))
    (direct : ∀ ps r bp a, (.senderForBundle ps r bp, some a) ∈ h → bp.id = bid → a.delete = true →
      ∀ s ∈ a.clas, s.nextHop.node.getD "" = d) :
    ((h.filterMap routerTalk).map (namedElsewhere bid d)).sum ≤ (relays bid h).length := by
  induction h with
  | nil => simp [relays]
  | cons x h ih =>
    have ih := ih fun ps r bp a hm => direct ps r bp a (List.mem_cons_of_mem _ hm)
    obtain ⟨c, a⟩ := x
    have hrel : relays bid ((c, a) :: h) = relaysOf bid (c, a) ++ relays bid h := rfl
    rw [hrel, List.length_append]
    cases c with
    | senderForBundle ps r bp =>
      cases a with
      | none => simp [routerTalk, namedElsewhere, relaysOf]; exact ih
      | some a =>
        simp only [List.filterMap_cons, routerTalk, List.map_cons, List.sum_cons, namedElsewhere, relaysOf]
        by_cases hb : bp.id = bid
        · cases hd : a.delete with
          | false =>
            simp only [hb, if_true, and_self, List.length_map]
            have := List.countP_le_length (p := fun s : Sender => decide (s.nextHop.node.getD "" ≠ d)) (l := a.clas)
            omega
          | true =>
            have : a.clas.countP (fun s => decide (s.nextHop.node.getD "" ≠ d)) = 0 := by
              rw [List.countP_eq_zero]
              intro s hs
              simpa using direct ps r bp a List.mem_cons_self hb hd s hs
            simp only [hb, if_true, this, Bool.true_eq_false, and_false, if_false, List.length_nil]
            omega
        · simp [hb, ih]
    | notify x =>
      simp only [List.filterMap_cons, routerTalk]
      split
      · rename_i heq; simp only [relaysOf, List.length_nil, Nat.zero_add]; exact ih
      · rename_i e heq
        split at heq
        · cases heq
        · cases heq; simp only [List.map_cons, List.sum_cons, namedElsewhere, relaysOf, List.length_nil]; omega
    | command => simpa [List.filterMap_cons, routerTalk, relaysOf] using ih
    | shutdown => simpa [List.filterMap_cons, routerTalk, relaysOf] using ih

/-- Any part of what a node says is heard by the router after a part of the commands. -/
theorem talk_prefix {α β : Type} (f : α → Option β) : ∀ (h : List α) (T : List β), T <+: h.filterMap f →
    ∃ k, (h.take k).filterMap f = T := by
  intro h
  induction h with
  | nil => intro T hT; simp only [List.filterMap_nil, List.prefix_nil] at hT; exact ⟨0, by simp [hT]⟩
  | cons x h ih =>
    intro T hT
    rw [List.filterMap_cons] at hT
    split at hT
    · rename_i hx
      obtain ⟨k, hk⟩ := ih T hT
      exact ⟨k + 1, by rw [List.take_succ_cons, List.filterMap_cons, hx]; exact hk⟩
    · rename_i y hx
      rcases List.prefix_cons_iff.mp hT with rfl | ⟨T', rfl, h'⟩
      · exact ⟨0, by simp⟩
      · obtain ⟨k, hk⟩ := ih T' h'
        exact ⟨k + 1, by rw [List.take_succ_cons, List.filterMap_cons, hx]; simp [hk]⟩

theorem log_take {σ : Type} (ag : Agent σ) (t : Routing.Task σ) (ht : t.log = []) (cmds : List Cmd) (k : Nat) :
    (t.run ag (cmds.take k)).log = (t.run ag cmds).log.take k := by
  have grow : ∀ (cmds : List Cmd) (t : Routing.Task σ), t.log <+: (t.run ag cmds).log := by
    intro cmds
    induction cmds with
    | nil => intro t; exact List.prefix_rfl
    | cons c cmds ih =>
      intro t
      obtain ⟨a, ha⟩ := Task.log_step ag t c
      have := ih (t.step ag c)
      rw [ha] at this
      exact (List.prefix_append _ _).trans this
  have h1 : (t.run ag (cmds.take k)).log <+: (t.run ag cmds).log := by
    have := grow (cmds.drop k) (t.run ag (cmds.take k))
    rwa [← Task.run_append, List.take_append_drop] at this
  have h2 : (t.run ag (cmds.take k)).log.length = (cmds.take k).length := by
    have := congrArg List.length (Task.log_run ag t (cmds.take k))
    simpa [ht] using this
  have h3 : (t.run ag cmds).log.length = cmds.length := by
    have := congrArg List.length (Task.log_run ag t cmds)
    simpa [ht] using this
  rw [List.prefix_iff_eq_take.mp h1, h2, List.length_take]
  by_cases hk : k ≤ cmds.length
  · rw [Nat.min_eq_left hk]
  · rw [Nat.min_eq_right (by omega), List.take_of_length_le (by omega), List.take_of_length_le (by omega)]

/-- What the answers of a router of this kind name, in terms of what the node says. -/
theorem spray_bound {l : Nat} {localNode : String} {cmds : List Cmd} {events : List Event} {bid d : String}
    (router : TalksTo ((sprayStart l localNode).run spray cmds).log events)
    (direct : ∀ ps r bp a, (.senderForBundle ps r bp, some a) ∈ ((sprayStart l localNode).run spray cmds).log → bp.id = bid →
      a.delete = true → ∀ s ∈ a.clas, s.nextHop.node.getD "" = d) {E : List Event} (hE : E <+: events) :
    (E.map (namedElsewhere bid d)).sum ≤ E.countP (isAnnounced bid) * (copyBudget l localNode bid - 1) +
      (E.countP (isFailedTo bid d) + E.countP (isFailedElsewhere bid d)) := by
  have hT : E.filterMap nodeTalk <+: ((sprayStart l localNode).run spray cmds).log.filterMap routerTalk := by
    rw [router]; exact hE.filterMap _
  obtain ⟨k, hk⟩ := talk_prefix routerTalk _ _ hT
  rw [← log_take spray _ rfl] at hk
  have h2 := (Spray.Spent.run l localNode bid (cmds.take k)).2
  have h3 := Task.log_run spray (sprayStart l localNode) (cmds.take k)
  have h4 : (sprayStart l localNode).log = [] := rfl
  rw [h4] at h3
  simp only [List.map_nil, List.nil_append] at h3
  obtain ⟨h5, h6⟩ := history_counts bid d ((sprayStart l localNode).run spray (cmds.take k)).log
  have h7 := elsewhere_relays bid d ((sprayStart l localNode).run spray (cmds.take k)).log (by
    intro ps r bp a hm
    rw [log_take spray _ rfl] at hm
    exact direct ps r bp a (List.mem_of_mem_take hm))
  rw [h3] at h5 h6
  rw [hk] at h5 h6 h7
  rw [announced_talk] at h5
  obtain ⟨f1, f2⟩ := failed_talk bid d E
  rw [f1, f2] at h6
  rw [elsewhere_talk] at h7
  rw [h5, h6] at h2
  exact h7.trans h2

/-- Copies for other nodes appear with an answer that names them. -/
theorem elsewhere_zero (run : Reaches .any ⟨Node.start cfg clock, []⟩ s) {bid d : String}
    (bound : ∀ E, E <+: s.node.events → (E.map (namedElsewhere bid d)).sum ≤ E.countP (isFailedElsewhere bid d)) :
    s.node.events.countP (isSendingElsewhere bid d) = 0 := by
  have zero : (s.node.events.map (namedElsewhere bid d)).sum = 0 := by
    refine ask_induct (P := fun n => (n.events.map (namedElsewhere bid d)).sum = 0) run (by simp) (by simp [Node.start]) ?_ ?_
    · intro u v es _ _ _ h he hno
      rw [he, List.map_append, List.sum_append, h, Nat.zero_add]
      apply List.sum_eq_zero
      intro y hy
      obtain ⟨e, hm, rfl⟩ := List.mem_map.mp hy
      cases e <;> first | rfl | exact absurd hm (hno _ _)
    · intro u v bp a hu hv hvs h he
      have h1 := elsewhere_le hu bid d
      have h2 := endedElsewhere_le hu bid d
      have h3 := bound v.node.events (base_between hv hvs).past
      have h4 : v.node.events.countP (isFailedElsewhere bid d) = u.node.events.countP (isFailedElsewhere bid d) := by
        rw [he]; simp [isFailedElsewhere]
      omega
  have := elsewhere_le run bid d
  omega

end Dtn.Proc
