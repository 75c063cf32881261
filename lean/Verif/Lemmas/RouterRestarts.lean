import Verif.Lemmas.SprayStored
/-! A node and its router over restarts. -/

namespace Dtn.Proc
open Spec Routing

variable {cfg : Config} {clock : Nat} {s : Sys}

theorem sendingFor_either (run : EitherStore cfg clock s) (bid node : String) :
    s.node.events.countP (isSendingFor bid node) ≤ (s.node.events.map (namedFor bid node)).sum := by
  rcases run with run | run
  · exact sendingFor_le run bid node
  · have a := OnSled.Enough.always ⟨W_sendingFor bid node, by simp [one, isSendingFor, namedFor]⟩ trivial run (by simp)
    simp only [Weights.total, sum_sub, sum_one, sum_cast] at a
    omega

theorem ended_either (run : EitherStore cfg clock s) (bid node : String) :
    s.node.events.countP (isOutcomeFor true bid node) + s.node.events.countP (isTold false bid node) ≤
      s.node.events.countP (isSendingFor bid node) := by
  rcases run with run | run
  · exact ended_le run bid node
  · have a := OnSled.Enough.always ⟨W_ended bid node, by simp [one, isSendingFor, isOutcomeFor, isTold]⟩ trivial run (by simp)
    simp only [Weights.total, sum_sub, sum_add, sum_one] at a
    omega

theorem elsewhere_either (run : EitherStore cfg clock s) (bid d : String) :
    s.node.events.countP (isSendingElsewhere bid d) ≤ (s.node.events.map (namedElsewhere bid d)).sum := by
  rcases run with run | run
  · exact elsewhere_le run bid d
  · have a := OnSled.Enough.always ⟨W_sendingElsewhere bid d, by simp [one, isSendingElsewhere, namedElsewhere]⟩ trivial run (by simp)
    simp only [Weights.total, sum_sub, sum_one, sum_cast] at a
    omega

theorem endedElsewhere_either (run : EitherStore cfg clock s) (bid d : String) :
    s.node.events.countP (isOutcomeElsewhere bid d) + s.node.events.countP (isFailedElsewhere bid d) ≤
      s.node.events.countP (isSendingElsewhere bid d) := by
  rcases run with run | run
  · exact endedElsewhere_le run bid d
  · have a := OnSled.Enough.always ⟨W_endedElsewhere bid d, by simp [one, isSendingElsewhere, isOutcomeElsewhere, isFailedElsewhere]⟩
      trivial run (by simp)
    simp only [Weights.total, sum_sub, sum_add, sum_one] at a
    omega

theorem announced_either (run : EitherStore cfg clock s) (bid : String) :
    s.node.events.countP (isAnnounced bid) ≤
      s.node.events.countP (isAcceptedId bid) + s.node.events.countP (isSentId bid) := by
  rcases run with run | run
  · exact announced_le run bid
  · have a := OnSled.Enough.always ⟨W_announced bid, by simp [one, isAnnounced, isAcceptedId, isSentId]⟩ trivial run (by simp)
    simp only [Weights.total, sum_sub, sum_one] at a
    omega

/-- What a router hears is what a node says that has said just this. -/
theorem talk_self (h : List (Cmd × Option Answer)) : TalksTo h (h.filterMap routerTalk) := by
  unfold TalksTo
  induction h with
  | nil => rfl
  | cons x h ih =>
    obtain ⟨c, a⟩ := x
    cases c with
    | notify n => cases n <;> simp [routerTalk, nodeTalk, aboutPeers] <;> exact ih
    | senderForBundle ps r bp => simp [routerTalk, nodeTalk]; exact ih
    | _ => simpa [List.filterMap_cons, routerTalk] using ih

theorem epidemic_sessions (bid node : String) (sessions : List (List Cmd)) :
    (((sessions.map (Spec.answered {})).flatten.filterMap routerTalk).map (namedFor bid node)).sum ≤
      ((sessions.map (Spec.answered {})).flatten.filterMap routerTalk).countP (isTold false bid node) + sessions.length := by
  induction sessions with
  | nil => simp
  | cons cmds sessions ih =>
    have := (epidemic_bound bid node cmds {} _ (List.prefix_refl _)).1
    simp only [List.map_cons, List.flatten_cons, List.filterMap_append, List.map_append, List.sum_append, List.countP_append,
      List.length_cons]
    omega

theorem spray_sessions {l : Nat} {localNode : String} {bid d : String} (sessions : List (List Cmd))
    (direct : ∀ cmds ∈ sessions, ∀ ps r bp a, (.senderForBundle ps r bp, some a) ∈ ((sprayStart l localNode).run spray cmds).log →
      bp.id = bid → a.delete = true → ∀ s ∈ a.clas, s.nextHop.node.getD "" = d) :
    let T := (sessions.map fun cmds => ((sprayStart l localNode).run spray cmds).log).flatten.filterMap routerTalk
    (T.map (namedElsewhere bid d)).sum ≤ T.countP (isAnnounced bid) * (copyBudget l localNode bid - 1) +
      (T.countP (isFailedTo bid d) + T.countP (isFailedElsewhere bid d)) := by
  induction sessions with
  | nil => simp
  | cons cmds sessions ih =>
    have h1 := spray_bound (talk_self _) (direct cmds List.mem_cons_self) List.prefix_rfl
    have h2 := ih fun c hc => direct c (List.mem_cons_of_mem _ hc)
    dsimp only at h2 ⊢
    simp only [List.map_cons, List.flatten_cons, List.filterMap_append, List.map_append, List.sum_append, List.countP_append,
      Nat.add_mul]
    omega

end Dtn.Proc
