import Verif.Lemmas.RouterTalk
import Verif.Lemmas.Spreads
import Verif.Lemmas.ProcExample
import Verif.Props.Spreads
/-! C149: a node with epidemic routing. -/

namespace Dtn.Props
open Proc Routing Spec

/-- C149 (copies). A node with epidemic routing hands a bundle to a convergence layer for a neighbour at most once, and once more
for every failure it has told its router of. -/
theorem C149_copies {cfg : Config} {clock : Nat} {s : Sys} {cmds : List Cmd}
    (run : Reaches .any ⟨Node.start cfg clock, []⟩ s) (router : TalksTo (answered {} cmds) s.node.events) (bid node : String) :
    s.node.events.countP (isSendingFor bid node) ≤ 1 + s.node.events.countP (isTold false bid node) := by
  have h1 := sendingFor_le run bid node
  have h2 := (epidemic_bound bid node cmds {} _ (List.prefix_refl _)).1
  rw [router, sum_talk, told_talk] at h2
  omega

/-- C149 (transfers). A neighbour gets a bundle successfully at most once. -/
theorem C149_got_once {cfg : Config} {clock : Nat} {s : Sys} {cmds : List Cmd}
    (run : Reaches .any ⟨Node.start cfg clock, []⟩ s) (router : TalksTo (answered {} cmds) s.node.events) (bid node : String) :
    s.node.events.countP (isOutcomeFor true bid node) ≤ 1 := by
  have h1 := C149_copies run router bid node
  have h2 := ended_le run bid node
  omega

/-- C149 (the way back). If the first that the router hears of a bundle is that it came from a neighbour, then the bundle is never
handed to a convergence layer for this neighbour. -/
theorem C149_not_back {cfg : Config} {clock : Nat} {s : Sys} {cmds : List Cmd}
    (run : Reaches .any ⟨Node.start cfg clock, []⟩ s) (router : TalksTo (answered {} cmds) s.node.events)
    {bid node : String} (name : node ≠ "") {before after : List Event} {e : Event}
    (log : s.node.events = before ++ e :: after) (source : SaysFrom bid node e)
    (first : ∀ bp a, .asked bp a ∈ before → bp.id ≠ bid) :
    s.node.events.countP (isSendingFor bid node) = 0 := by
  obtain ⟨x, rfl⟩ : ∃ x, e = .note x := by
    cases e <;> first | exact ⟨_, rfl⟩ | exact source.elim
  have hx : nodeTalk (.note x) = some (.note x) := by
    cases x <;> first | rfl | exact source.elim
  have htalk : s.node.events.filterMap nodeTalk = before.filterMap nodeTalk ++ .note x :: after.filterMap nodeTalk := by
    rw [log, List.filterMap_append, List.filterMap_cons, hx]
  have hfirst : ∀ bp a, .asked bp a ∈ before.filterMap nodeTalk → bp.id ≠ bid := by
    intro bp a h
    obtain ⟨e, he, hm⟩ := List.mem_filterMap.mp h
    cases e <;> simp only [nodeTalk, Option.some.injEq, reduceCtorEq] at hm
    · split at hm <;> cases hm
    · rw [hm] at he; exact first bp a he
  -- in every part of the log
  have bound : ∀ E : List Event, E <+: s.node.events →
      (E.map (namedFor bid node)).sum ≤ E.countP (isTold false bid node) := by
    intro E hE
    have := epidemic_back bid node name source cmds {} _ _ (E.filterMap nodeTalk) (router.trans htalk) hfirst (by
      rw [← htalk]; exact hE.filterMap _)
    rwa [sum_talk, told_talk] at this
  have zero : (s.node.events.map (namedFor bid node)).sum = 0 := by
    refine ask_induct (P := fun n => (n.events.map (namedFor bid node)).sum = 0) run (by simp) (by simp [Node.start]) ?_ ?_
    · intro u v es _ _ _ h he hno
      rw [he, List.map_append, List.sum_append, h, Nat.zero_add]
      apply List.sum_eq_zero
      intro y hy
      obtain ⟨e, hm, rfl⟩ := List.mem_map.mp hy
      cases e <;> first | rfl | exact absurd hm (hno _ _)
    · intro u v bp a hu hv hvs h he
      have h1 := sendingFor_le hu bid node
      have h2 := ended_le hu bid node
      have h3 := bound v.node.events (base_between hv hvs).past
      have h4 : v.node.events.countP (isTold false bid node) = u.node.events.countP (isTold false bid node) := by
        rw [he]; simp [isTold]
      omega
  have := sendingFor_le run bid node
  omega

/-- A bundle comes from `n2`. The transfer to `n4` fails, and succeeds when it is tried again; `n2` gets nothing. -/
example : ∃ s cmds, Reaches .any ⟨Ex.start, []⟩ s ∧ TalksTo (answered {} cmds) s.node.events ∧
    s.node.events.countP (isSendingFor "b" "n4") = 2 ∧ s.node.events.countP (isTold false "b" "n4") = 1 ∧
    s.node.events.countP (isOutcomeFor true "b" "n4") = 1 ∧
    ∃ before e after, s.node.events = before ++ e :: after ∧ SaysFrom "b" "n2" e ∧
      (∀ bp a, .asked bp a ∈ before → bp.id ≠ "b") ∧ ∃ bp a, .asked bp (some a) ∈ after ∧ bp.id = "b" := by
  obtain ⟨s, hs, hp⟩ := exists_run (n := Ex.start)
    ([.cla true, .call (.receive (Ex.bundle 5 1 20))] ++ go 60 (some exToN4) false ++ [.call .janitor] ++ go 60 (some exToN4))
    (fun s => decide ((answered {} (commandsOf exPeers exRunning s.node.events)).filterMap routerTalk = s.node.events.filterMap nodeTalk) &&
      decide (s.node.events.countP (isSendingFor "b" "n4") = 2 ∧ s.node.events.countP (isTold false "b" "n4") = 1 ∧
        s.node.events.countP (isOutcomeFor true "b" "n4") = 1) &&
      (match s.node.events with
        | .called _ :: .accepted _ :: .note (.incomingBundle b) :: after =>
          decide (b.id = "b" ∧ (Spec.previousNode b).bind EID.node = some "n2") &&
            after.any fun e => match e with | .asked bp (some _) => decide (bp.id = "b") | _ => false
        | _ => false)) (by decide +kernel)
  simp only [Bool.and_eq_true, decide_eq_true_eq] at hp
  obtain ⟨⟨h1, h2, h3, h4⟩, h5⟩ := hp
  refine ⟨s, _, hs, h1, h2, h3, h4, ?_⟩
  split at h5
  · rename_i c b' b after he
    simp only [Bool.and_eq_true, decide_eq_true_eq] at h5
    obtain ⟨h6, h7⟩ := h5
    refine ⟨[_, _], _, after, he, h6, by simp, ?_⟩
    obtain ⟨e, hm, hp⟩ := List.any_eq_true.mp h7
    split at hp
    · rename_i bp a
      exact ⟨bp, a, hm, of_decide_eq_true hp⟩
    · cases hp
  · cases h5

end Dtn.Props
