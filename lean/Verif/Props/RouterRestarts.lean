import Verif.Lemmas.RouterRestarts
import Verif.Lemmas.SledExample
import Verif.Props.SprayNode
import Verif.Props.RouterNode
/-! C152: routers that are started anew with their node. -/

namespace Dtn.Props
open Proc Routing Spec

/-- C152 (epidemic routing, copies). Over any number of starts, a node with epidemic routing hands a bundle to a convergence layer for a
neighbour at most once for each start, and once more for every failure it has told its router of. Partial: it is not once over all
starts (`C152_again_violated`). -/
theorem C152_epidemic_copies_partial {cfg : Config} {clock : Nat} {s : Sys} {sessions : List (List Cmd)} (run : EitherStore cfg clock s)
    (router : RoutedBy (Spec.answered {}) sessions s.node.events) (bid node : String) :
    s.node.events.countP (isSendingFor bid node) ≤ sessions.length + s.node.events.countP (isTold false bid node) := by
  have h1 := sendingFor_either run bid node
  have h2 := epidemic_sessions bid node sessions
  rw [show (sessions.map (Spec.answered {})).flatten.filterMap routerTalk = _ from router, sum_talk, told_talk] at h2
  omega

/-- C152 (epidemic routing, transfers). So a neighbour gets a bundle successfully at most once for each start. Partial as above. -/
theorem C152_epidemic_got_partial {cfg : Config} {clock : Nat} {s : Sys} {sessions : List (List Cmd)} (run : EitherStore cfg clock s)
    (router : RoutedBy (Spec.answered {}) sessions s.node.events) (bid node : String) :
    s.node.events.countP (isOutcomeFor true bid node) ≤ sessions.length := by
  have h1 := C152_epidemic_copies_partial run router bid node
  have h2 := ended_either run bid node
  omega

/-- C152 (spray and wait, copies). Over any number of starts together, a node with spray and wait routing hands a bundle for node `d` to
convergence layers for other nodes at most as often as the budget allows for each time the bundle was received as a new one or submitted,
and once more for every failure the router was told of: a restart gives no new budget. -/
theorem C152_spray_copies {cfg : Config} {clock : Nat} {s : Sys} {sessions : List (List Cmd)} {l : Nat} {localNode : String}
    (run : EitherStore cfg clock s)
    (router : RoutedBy (fun cmds => ((sprayStart l localNode).run spray cmds).log) sessions s.node.events) (bid d : String)
    (goal : ∀ bp a, .asked bp a ∈ s.node.events → bp.id = bid → bp.destination.node = some d) :
    s.node.events.countP (isSendingElsewhere bid d) ≤
      (s.node.events.countP (isAcceptedId bid) + s.node.events.countP (isSentId bid)) * (copyBudget l localNode bid - 1) +
      s.node.events.countP (isFailedTo bid d) + s.node.events.countP (isFailedElsewhere bid d) := by
  have h1 := elsewhere_either run bid d
  have h2 := spray_sessions (l := l) (localNode := localNode) (bid := bid) (d := d) sessions (by
    intro cmds hc ps r bp a hm hid hdel x hx
    obtain ⟨p, -, y, k1, k2, k3⟩ := (C35_spray_answers l localNode cmds ps r bp a hm).1 hdel
    have hask : Event.asked bp (some a) ∈ s.node.events.filterMap nodeTalk := by
      rw [← show _ = s.node.events.filterMap nodeTalk from router]
      exact List.mem_filterMap.mpr ⟨_, List.mem_flatten.mpr ⟨_, List.mem_map.mpr ⟨cmds, hc, rfl⟩, hm⟩, rfl⟩
    obtain ⟨e, he, hm'⟩ := List.mem_filterMap.mp hask
    have he' : e = .asked bp (some a) := by
      cases e <;> simp only [nodeTalk, Option.some.injEq, reduceCtorEq] at hm'
      · split at hm' <;> cases hm'
      · exact hm'
    rw [he'] at he
    have := goal bp _ he hid
    rw [k1, Option.some.injEq] at this
    rw [k3, List.mem_singleton] at hx
    subst hx
    rw [k2.1]; exact this)
  dsimp only at h2
  rw [show (sessions.map fun cmds => ((sprayStart l localNode).run spray cmds).log).flatten.filterMap routerTalk = _ from router,
    elsewhere_talk, announced_talk, (failed_talk bid d _).1, (failed_talk bid d _).2] at h2
  have h3 := Nat.mul_le_mul_right (copyBudget l localNode bid - 1) (announced_either run bid)
  omega

/-- C152 (spray and wait, transfers). So over all starts it transfers the bundle to at most that many other nodes, where only failures of
direct delivery count. -/
theorem C152_spray_transfers {cfg : Config} {clock : Nat} {s : Sys} {sessions : List (List Cmd)} {l : Nat} {localNode : String}
    (run : EitherStore cfg clock s)
    (router : RoutedBy (fun cmds => ((sprayStart l localNode).run spray cmds).log) sessions s.node.events) (bid d : String)
    (goal : ∀ bp a, .asked bp a ∈ s.node.events → bp.id = bid → bp.destination.node = some d) :
    s.node.events.countP (isOutcomeElsewhere bid d) ≤
      (s.node.events.countP (isAcceptedId bid) + s.node.events.countP (isSentId bid)) * (copyBudget l localNode bid - 1) +
      s.node.events.countP (isFailedTo bid d) := by
  have h1 := C152_spray_copies run router bid d goal
  have h2 := endedElsewhere_either run bid d
  omega

/-- C152 is false for epidemic routing: `n4` gets a bundle, and gets it again after the node was started again, although no transfer has
failed. -/
theorem C152_again_violated : ∃ s sessions, EitherStore Ex.cfg 946684800100 s ∧ RoutedBy (Spec.answered {}) sessions s.node.events ∧
    sessions.length = 2 ∧ s.node.events.countP (isTold false "b" "n4") = 0 ∧ s.node.events.countP (isOutcomeFor true "b" "n4") = 2 := by
  obtain ⟨s, s', h1, h2, hp⟩ := OnSled.exists_moves (n := Node.start Ex.cfg 946684800100)
    ([.cla true, .call (.receive (Ex.bundle 5 1 20))] ++ OnSled.going 60 (some exToN4))
    ([.restart 946684800400, .cla true, .call .janitor] ++ OnSled.going 80 (some exToN4)) (fun s => s) (fun s s' =>
      decide (([commandsOf [exNeighbour "n4"] exRunning s.node.events,
          commandsOf [exNeighbour "n4"] exRunning (s'.node.events.drop s.node.events.length)].map (Spec.answered {})).flatten.filterMap
        routerTalk = s'.node.events.filterMap nodeTalk) &&
      decide (s'.node.events.countP (isTold false "b" "n4") = 0 ∧ s'.node.events.countP (isOutcomeFor true "b" "n4") = 2))
    (by decide +kernel)
  simp only [Bool.and_eq_true, decide_eq_true_eq] at hp
  exact ⟨s', _, .inr (h1.join h2), hp.1, rfl, hp.2⟩

/-- C152 is false for epidemic routing: after the node was started again, a bundle that came from `n2` is handed back to `n2`. -/
theorem C152_back_violated : ∃ s sessions, EitherStore Ex.cfg 946684800100 s ∧ RoutedBy (Spec.answered {}) sessions s.node.events ∧
    (∃ before e after, s.node.events = before ++ e :: after ∧ SaysFrom "b" "n2" e ∧ ∀ bp a, .asked bp a ∉ before) ∧
    s.node.events.countP (isOutcomeFor true "b" "n2") = 1 := by
  obtain ⟨s, s', h1, h2, hp⟩ := OnSled.exists_moves (n := Node.start Ex.cfg 946684800100)
    ([.cla true, .call (.receive (Ex.bundle 5 1 20))] ++ OnSled.going 60 (some { clas := [], delete := false }))
    ([.restart 946684800400, .cla true, .call .janitor] ++
      OnSled.going 80 (some { clas := ((exNeighbour "n2").firstCla exRunning).toList, delete := false })) (fun s => s) (fun s s' =>
      decide (([commandsOf [exNeighbour "n2"] exRunning s.node.events,
          commandsOf [exNeighbour "n2"] exRunning (s'.node.events.drop s.node.events.length)].map (Spec.answered {})).flatten.filterMap
        routerTalk = s'.node.events.filterMap nodeTalk) &&
      decide (s'.node.events.countP (isOutcomeFor true "b" "n2") = 1) &&
      (match s'.node.events with
        | .called _ :: .accepted _ :: .note (.incomingBundle b) :: _ => decide (b.id = "b" ∧ (Spec.previousNode b).bind EID.node = some "n2")
        | _ => false))
    (by decide +kernel)
  simp only [Bool.and_eq_true, decide_eq_true_eq] at hp
  obtain ⟨⟨k1, k2⟩, k3⟩ := hp
  refine ⟨s', _, .inr (h1.join h2), k1, ?_, k2⟩
  split at k3
  · rename_i c b' b after he
    simp only [decide_eq_true_eq] at k3
    exact ⟨[_, _], _, after, he, k3, by simp⟩
  · cases k3

/-- A bundle submitted with two copies is relayed to `n4`. After a restart the router is asked for it again with `n2` as a neighbour, and
names nobody. -/
example : ∃ s sessions, EitherStore Ex.cfg 946684800100 s ∧
    RoutedBy (fun cmds => ((sprayStart 2 "dtn://n1/").run spray cmds).log) sessions s.node.events ∧ sessions.length = 2 ∧
    (∀ bp a, .asked bp a ∈ s.node.events → bp.id = "dtn://n1/a-5-0" → bp.destination.node = some "n3") ∧
    s.node.events.countP (isOutcomeElsewhere "dtn://n1/a-5-0" "n3") = 1 ∧
    (s.node.events.countP (isAcceptedId "dtn://n1/a-5-0") + s.node.events.countP (isSentId "dtn://n1/a-5-0")) *
      (copyBudget 2 "dtn://n1/" "dtn://n1/a-5-0" - 1) = 1 := by
  obtain ⟨s, s', h1, h2, hp⟩ := OnSled.exists_moves (n := Node.start Ex.cfg 946684800100)
    ([.cla true, .register (.dtn "n1" "a"), .call (.send exOwn)] ++ OnSled.going 60 (some exToN4))
    ([.restart 946684800400, .cla true, .call .janitor] ++ OnSled.going 80 (some { clas := [], delete := false })) (fun s => s)
    (fun s s' =>
      decide (([commandsOf exPeers.reverse exRunning s.node.events,
          commandsOf exPeers exRunning (s'.node.events.drop s.node.events.length)].map
          fun cmds => ((sprayStart 2 "dtn://n1/").run spray cmds).log).flatten.filterMap routerTalk = s'.node.events.filterMap nodeTalk) &&
      (s'.node.events.all fun e => match e with | .asked bp _ => decide (bp.destination.node = some "n3") | _ => true) &&
      decide (s'.node.events.countP (isOutcomeElsewhere "dtn://n1/a-5-0" "n3") = 1 ∧
        (s'.node.events.countP (isAcceptedId "dtn://n1/a-5-0") + s'.node.events.countP (isSentId "dtn://n1/a-5-0")) *
          (copyBudget 2 "dtn://n1/" "dtn://n1/a-5-0" - 1) = 1)) (by decide +kernel)
  simp only [Bool.and_eq_true, decide_eq_true_eq] at hp
  obtain ⟨⟨k1, k2⟩, k3⟩ := hp
  exact ⟨s', _, .inr (h1.join h2), k1, rfl, fun bp a h _ => of_decide_eq_true (List.all_eq_true.mp k2 _ h), k3⟩

end Dtn.Props
