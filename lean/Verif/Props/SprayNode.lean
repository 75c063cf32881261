import Verif.Lemmas.SprayNode
import Verif.Lemmas.Spreads
import Verif.Lemmas.ProcExample
import Verif.Props.Spray
import Verif.Props.SprayFailures
import Verif.Props.Spreads
/-! C150: a node with spray and wait routing. -/

namespace Dtn.Props
open Proc Routing Spec

/-- Direct delivery goes to the destination. -/
theorem direct_goal {s : Sys} {cmds : List Cmd} {l : Nat} {localNode : String}
    (router : TalksTo ((sprayStart l localNode).run spray cmds).log s.node.events) {bid d : String}
    (goal : ∀ bp a, .asked bp a ∈ s.node.events → bp.id = bid → bp.destination.node = some d) :
    ∀ ps r bp a, (.senderForBundle ps r bp, some a) ∈ ((sprayStart l localNode).run spray cmds).log → bp.id = bid →
      a.delete = true → ∀ s ∈ a.clas, s.nextHop.node.getD "" = d := by
  intro ps r bp a hm hid hdel x hx
  obtain ⟨p, -, y, k1, k2, k3⟩ := (C35_spray_answers l localNode cmds ps r bp a hm).1 hdel
  have hask : Event.asked bp (some a) ∈ s.node.events.filterMap nodeTalk := by
    rw [← router]; exact List.mem_filterMap.mpr ⟨_, hm, rfl⟩
  obtain ⟨e, he, hm'⟩ := List.mem_filterMap.mp hask
  have he' : e = .asked bp (some a) := by
    cases e <;> simp only [nodeTalk, Option.some.injEq, reduceCtorEq] at hm'
    · split at hm' <;> cases hm'
    · exact hm'
  rw [he'] at he
  have := goal bp _ he hid
  rw [k1, Option.some.injEq] at this
  rw [k3, List.mem_singleton] at hx
  subst hx
  rw [k2.1]; exact this

/-- C150 (copies). A node with spray and wait routing hands a bundle for node `d` to convergence layers for other nodes at most as
often as its budget allows: the number of copies less one for each time the bundle was received as a new one or submitted, and once
more for every failure the router was told of. Partial: the budget holds per submission and a failure of direct delivery counts as well
(`C35_second_arrival_refills_budget_violated`, `C36_failed_direct_delivery_adds_copy_violated`). -/
theorem C150_copies_partial {cfg : Config} {clock : Nat} {s : Sys} {cmds : List Cmd} {l : Nat} {localNode : String}
    (run : Reaches .any ⟨Node.start cfg clock, []⟩ s)
    (router : TalksTo ((sprayStart l localNode).run spray cmds).log s.node.events) (bid d : String)
    (goal : ∀ bp a, .asked bp a ∈ s.node.events → bp.id = bid → bp.destination.node = some d) :
    s.node.events.countP (isSendingElsewhere bid d) ≤
      (s.node.events.countP (isAcceptedId bid) + s.node.events.countP (isSentId bid)) * (copyBudget l localNode bid - 1) +
      s.node.events.countP (isFailedTo bid d) + s.node.events.countP (isFailedElsewhere bid d) := by
  have h1 := elsewhere_le run bid d
  have h2 := spray_bound router (direct_goal router goal) List.prefix_rfl
  have h3 := Nat.mul_le_mul_right (copyBudget l localNode bid - 1) (announced_le run bid)
  omega

/-- C150 (transfers). So it transfers the bundle to at most that many other nodes, where only failures of direct delivery count.
Partial as above. -/
theorem C150_transfers_partial {cfg : Config} {clock : Nat} {s : Sys} {cmds : List Cmd} {l : Nat} {localNode : String}
    (run : Reaches .any ⟨Node.start cfg clock, []⟩ s)
    (router : TalksTo ((sprayStart l localNode).run spray cmds).log s.node.events) (bid d : String)
    (goal : ∀ bp a, .asked bp a ∈ s.node.events → bp.id = bid → bp.destination.node = some d) :
    s.node.events.countP (isOutcomeElsewhere bid d) ≤
      (s.node.events.countP (isAcceptedId bid) + s.node.events.countP (isSentId bid)) * (copyBudget l localNode bid - 1) +
      s.node.events.countP (isFailedTo bid d) := by
  have h1 := C150_copies_partial run router bid d goal
  have h2 := endedElsewhere_le run bid d
  omega

/-- C150 (bundles of others). A bundle that was not created here is handed on to its destination only, as long as no transfer of it to
its destination fails. -/
theorem C150_others_bundles {cfg : Config} {clock : Nat} {s : Sys} {cmds : List Cmd} {l : Nat} {localNode : String}
    (run : Reaches .any ⟨Node.start cfg clock, []⟩ s)
    (router : TalksTo ((sprayStart l localNode).run spray cmds).log s.node.events) {bid d : String}
    (goal : ∀ bp a, .asked bp a ∈ s.node.events → bp.id = bid → bp.destination.node = some d)
    (other : startsWith bid localNode = false) (direct : s.node.events.countP (isFailedTo bid d) = 0) :
    s.node.events.countP (isSendingElsewhere bid d) = 0 := by
  refine elsewhere_zero run fun E hE => ?_
  have h1 := spray_bound router (direct_goal router goal) hE
  have h2 : copyBudget l localNode bid - 1 = 0 := by unfold copyBudget; rw [other]; rfl
  have h3 : E.countP (isFailedTo bid d) ≤ s.node.events.countP (isFailedTo bid d) := hE.sublist.countP_le
  rw [h2] at h1
  omega

/-- A bundle that is submitted on `n1`. -/
def exOwn : Bundle :=
  { Ex.bundle 5 1 20 with primary := { Ex.primary with bid := "dtn://n1/a-5-0", source := .dtn "n1" "a" } }

/-- With two copies, a bundle submitted here is relayed to `n4`, and not to `n2`. -/
example : ∃ s cmds, Reaches .any ⟨Ex.start, []⟩ s ∧ TalksTo ((sprayStart 2 "dtn://n1/").run spray cmds).log s.node.events ∧
    (∀ bp a, .asked bp a ∈ s.node.events → bp.id = "dtn://n1/a-5-0" → bp.destination.node = some "n3") ∧
    s.node.events.countP (isOutcomeElsewhere "dtn://n1/a-5-0" "n3") = 1 ∧
    s.node.events.countP (isSendingElsewhere "dtn://n1/a-5-0" "n3") = 1 ∧
    (s.node.events.countP (isAcceptedId "dtn://n1/a-5-0") + s.node.events.countP (isSentId "dtn://n1/a-5-0")) *
      (copyBudget 2 "dtn://n1/" "dtn://n1/a-5-0" - 1) = 1 := by
  obtain ⟨s, hs, hp⟩ := exists_run (n := Ex.start)
    ([.cla true, .register (.dtn "n1" "a"), .call (.send exOwn)] ++ go 60 (some exToN4))
    (fun s => decide (((sprayStart 2 "dtn://n1/").run spray (commandsOf exPeers.reverse exRunning s.node.events)).log.filterMap routerTalk =
        s.node.events.filterMap nodeTalk) &&
      (s.node.events.all fun e => match e with | .asked bp _ => decide (bp.destination.node = some "n3") | _ => true) &&
      decide (s.node.events.countP (isOutcomeElsewhere "dtn://n1/a-5-0" "n3") = 1 ∧
        s.node.events.countP (isSendingElsewhere "dtn://n1/a-5-0" "n3") = 1 ∧
        (s.node.events.countP (isAcceptedId "dtn://n1/a-5-0") + s.node.events.countP (isSentId "dtn://n1/a-5-0")) *
          (copyBudget 2 "dtn://n1/" "dtn://n1/a-5-0" - 1) = 1)) (by decide +kernel)
  simp only [Bool.and_eq_true, decide_eq_true_eq] at hp
  obtain ⟨⟨h1, h2⟩, h3, h4, h5⟩ := hp
  exact ⟨s, _, hs, h1, fun bp a h _ => of_decide_eq_true (List.all_eq_true.mp h2 _ h), h3, h4, h5⟩

/-- What the router says when it can reach the destination `n3`. -/
def exToN3 : Answer := { clas := ((exNeighbour "n3").firstCla exRunning).toList, delete := true }

/-- A bundle of another node goes to its destination `n3`, and not to `n4`. -/
example : ∃ s cmds, Reaches .any ⟨Ex.start, []⟩ s ∧ TalksTo ((sprayStart 7 "dtn://n1/").run spray cmds).log s.node.events ∧
    (∀ bp a, .asked bp a ∈ s.node.events → bp.id = "b" → bp.destination.node = some "n3") ∧
    startsWith "b" "dtn://n1/" = false ∧ s.node.events.countP (isFailedTo "b" "n3") = 0 ∧
    s.node.events.countP (isSendingFor "b" "n3") = 1 := by
  obtain ⟨s, hs, hp⟩ := exists_run (n := Ex.start)
    ([.cla true, .call (.receive (Ex.bundle 5 1 20))] ++ go 60 (some exToN3))
    (fun s => decide (((sprayStart 7 "dtn://n1/").run spray
        (commandsOf [exNeighbour "n4", exNeighbour "n3"] exRunning s.node.events)).log.filterMap routerTalk = s.node.events.filterMap nodeTalk) &&
      (s.node.events.all fun e => match e with | .asked bp _ => decide (bp.destination.node = some "n3") | _ => true) &&
      decide (s.node.events.countP (isFailedTo "b" "n3") = 0 ∧ s.node.events.countP (isSendingFor "b" "n3") = 1)) (by decide +kernel)
  simp only [Bool.and_eq_true, decide_eq_true_eq] at hp
  obtain ⟨⟨h1, h2⟩, h3, h4⟩ := hp
  exact ⟨s, _, hs, h1, fun bp a h _ => of_decide_eq_true (List.all_eq_true.mp h2 _ h), by decide, h3, h4⟩

/-- C150 is false if a transfer to the destination fails: a bundle of another node comes in, the transfer to its destination `n3` fails,
and when the node tries again, it hands the bundle to `n4`, which is neither its destination nor one of the budgeted relays: there are none. -/
theorem C150_failed_direct_violated : ∃ s cmds, Reaches .any ⟨Ex.start, []⟩ s ∧
    TalksTo ((sprayStart 7 "dtn://n1/").run spray cmds).log s.node.events ∧
    (∀ bp a, .asked bp a ∈ s.node.events → bp.id = "b" → bp.destination.node = some "n3") ∧
    startsWith "b" "dtn://n1/" = false ∧ s.node.events.countP (isAcceptedId "b") = 1 ∧ s.node.events.countP (isSentId "b") = 0 ∧
    copyBudget 7 "dtn://n1/" "b" = 1 ∧ s.node.events.countP (isOutcomeElsewhere "b" "n3") = 1 := by
  let cmds := fun events : List Event => events.filterMap fun e => match e with
    | .asked bp (some a) => some (Cmd.senderForBundle (if a = exToN3 then [exNeighbour "n3"] else [exNeighbour "n4"]) exRunning bp)
    | .note x => some (.notify x)
    | _ => none
  obtain ⟨s, hs, hp⟩ := exists_run (n := Ex.start)
    ([.cla true, .call (.receive (Ex.bundle 5 1 20))] ++ go 60 (some exToN3) false ++ [.call .janitor] ++ go 60 (some exToN4))
    (fun s => decide (((sprayStart 7 "dtn://n1/").run spray (cmds s.node.events)).log.filterMap routerTalk = s.node.events.filterMap nodeTalk) &&
      (s.node.events.all fun e => match e with | .asked bp _ => decide (bp.destination.node = some "n3") | _ => true) &&
      decide (s.node.events.countP (isAcceptedId "b") = 1 ∧ s.node.events.countP (isSentId "b") = 0 ∧
        s.node.events.countP (isOutcomeElsewhere "b" "n3") = 1)) (by decide +kernel)
  simp only [Bool.and_eq_true, decide_eq_true_eq] at hp
  obtain ⟨⟨h1, h2⟩, h3, h4, h5⟩ := hp
  exact ⟨s, _, hs, h1, fun bp a h _ => of_decide_eq_true (List.all_eq_true.mp h2 _ h), by decide, h3, h4, by decide, h5⟩

end Dtn.Props
