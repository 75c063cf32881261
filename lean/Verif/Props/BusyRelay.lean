import Verif.Spec.BusyRelay
import Verif.Props.Carried
import Verif.Props.Given
import Verif.Props.Relay
/-! C112 for nodes that do other work at the same time. -/

namespace Dtn.Props
open Spec Proc

/-- Copies have the unknown blocks of the bundle. -/
theorem unconditional_of {b c : Bundle} (h : Unconditional b) (hf : (fixedBlocks c).Perm (fixedBlocks b)) : Unconditional c := by
  intro x hx hu
  refine h x ?_ hu
  have hu' : 11 ≤ x.btype := hu
  have : x ∈ fixedBlocks c := by
    unfold fixedBlocks
    refine List.mem_filter.mpr ⟨hx, ?_⟩
    have h1 : x.btype ≠ PREVIOUS_NODE_BLOCK := by unfold PREVIOUS_NODE_BLOCK; omega
    have h2 : x.btype ≠ HOP_COUNT_BLOCK := by unfold HOP_COUNT_BLOCK; omega
    have h3 : x.btype ≠ BUNDLE_AGE_BLOCK := by unfold BUNDLE_AGE_BLOCK; omega
    simp [h1, h2, h3]
  exact (List.mem_filter.mp (hf.mem_iff.mp this)).1

/-- C112 (busy nodes). A bundle goes along a chain of nodes of any length, as far as its hop limit and lifetime allow, although all
nodes do other work before and at the same time. The node at the end gives it to the endpoint it is for, exactly once unless it has
accepted or sent bundles with this id before, with the payload and all other fixed blocks unchanged. -/
theorem C112_busy_chain (b : Bundle) (stops : List Stop) (lifetime : b.primary.creationTime + b.primary.lifetime < 2 ^ 64)
    (room : RoomFor stops.length b) (previous : ReadablePrevious b) (oneAge : AtMostOne BUNDLE_AGE_BLOCK b) (plain : Unconditional b) :
    TravelsBusy (ArrivesBusy b stops.length) stops b := by
  have key : ∀ (stops : List Stop) (b' : Bundle) (j : Nat), Ready stops.length b' → b'.primary = b.primary →
      (fixedBlocks b').Perm (fixedBlocks b) →
      (∀ limit count, hopCount b = some (limit, count) → hopCount b' = some (limit, count + j)) →
      TravelsBusy (ArrivesBusy b (j + stops.length)) stops b' := by
    intro stops
    induction stops with
    | nil =>
      intro b' j _ hp hf hh
      refine ⟨hp, hf, hh, ?_⟩
      intro cfg clock n m tasks before hrec run new
      exact (C127_received before hrec (unconditional_of plain hf) run).resolve_right new
    | cons s stops ih =>
      intro b' j ready hp hf hh n m ⟨clock, tasks, before, cases3⟩ remote router
      simp only [List.length_cons] at ready
      have leave : CanLeave b' := by
        refine ⟨by rw [hp]; exact lifetime, ⟨ready.room.1, fun l x hx => ?_⟩, ready.prev, ready.age⟩
        have := ready.room.2 l x hx
        omega
      have main : Routed s.cfg.hostEid n m b' ∧ ∃ tasks1, Reaches .any ⟨Node.start s.cfg clock, []⟩ ⟨m, tasks1⟩ ∧ n.events <+: m.events := by
        rcases cases3 with ⟨run, new⟩ | run | ⟨stored, run⟩
        · have b1 := before.step (.call _ _ (.receive b') trivial)
          exact ⟨(C113_received before leave (unconditional_of plain hf) remote run).resolve_right new, _, b1.join run.reaches,
            (List.prefix_append _ _).trans (any_good b1 run.reaches).1.past⟩
        · have b1 := before.step (.call _ _ (.send b') trivial)
          exact ⟨C113_submitted before leave remote run, _, b1.join run.reaches,
            (List.prefix_append _ _).trans (any_good b1 run.reaches).1.past⟩
        · have b1 := before.step (.call _ _ .janitor trivial)
          exact ⟨C113_waiting before stored leave run, _, b1.join run.reaches,
            (List.prefix_append _ _).trans (any_good b1 run.reaches).1.past⟩
      obtain ⟨⟨bp, a, h1, h2, h3⟩, tasks1, all, ⟨es, he⟩⟩ := main
      obtain ⟨x, rfl, hx⟩ := router bp a h2 h1
      obtain ⟨t, k1, k2, k3, k4, -, k6⟩ := h3 x rfl s.next hx
      subst k3
      have hm : Event.sending t ∈ m.events := by
        rw [newEvents_eq he.symm] at k1
        rw [← he]
        exact List.mem_append_right _ k1
      have r1 := (ready.copied ((sound_always all).1.fine _ hm).2).1
      refine ⟨t, k1, k2, rfl, ?_⟩
      have := ih t.out (j + 1) r1 (k4.1.trans hp) ((Net.passed_fixed k4).trans hf) ?_
      · simp only [List.length_cons]
        rw [show j + (stops.length + 1) = j + 1 + stops.length by omega]
        exact this
      · intro l x hc
        rw [k6 l _ (hh l x hc)]
        simp [Nat.add_assoc]
  have := key stops b 0 ⟨room, previous, oneAge⟩ rfl (.refl _) (by simp)
  rwa [Nat.zero_add] at this

/-- The hypotheses about one busy stop, for a run in which the copy `out` is made. -/
def exBusy (s : Stop) (b out : Bundle) : Prop :=
  ∃ n m, HandlesBusy s.cfg b n m ∧ b.primary.destination.nodeId ≠ s.cfg.hostEid.nodeId ∧
    (∀ bp a, .asked bp a ∈ newEvents n m → bp.id = b.id → ∃ x, a = some x ∧ s.next ∈ x.clas) ∧
    ∃ t, .sending t ∈ newEvents n m ∧ t.to = s.next ∧ t.stored = b ∧ t.out = out

/-- What can be computed about such a run: there is other work, the router names the neighbour, and the copy is made. -/
def exBusily (b out : Bundle) (s : Sys) (m : Node) : Bool :=
  !s.pool.isEmpty &&
  (newEvents s.node m).all (fun e => match e with | .asked _ a => decide (∃ x ∈ a, Ex.sender ∈ x.clas) | .duplicate _ => false | _ => true) &&
  (newEvents s.node m).any (fun e => match e with | .sending t => decide (t.to = Ex.sender ∧ t.stored = b ∧ t.out = out) | _ => false)

theorem exBusily_of {b out : Bundle} {s : Sys} {m : Node} (h : exBusily b out s m = true) :
    s.pool ≠ [] ∧ .duplicate b ∉ newEvents s.node m ∧
    (∀ bp a, .asked bp a ∈ newEvents s.node m → bp.id = b.id → ∃ x, a = some x ∧ Ex.sender ∈ x.clas) ∧
    ∃ t, .sending t ∈ newEvents s.node m ∧ t.to = Ex.sender ∧ t.stored = b ∧ t.out = out := by
  unfold exBusily at h
  simp only [Bool.and_eq_true] at h
  obtain ⟨⟨a1, a2⟩, a3⟩ := h
  refine ⟨by simpa using a1, fun h => ?_, fun bp a h _ => ?_, ?_⟩
  · cases List.all_eq_true.mp a2 _ h
  · obtain ⟨x, hx, hx'⟩ := of_decide_eq_true (List.all_eq_true.mp a2 _ h)
    exact ⟨x, hx, hx'⟩
  · obtain ⟨e, he, hp⟩ := List.any_eq_true.mp a3
    cases e <;> first | cases hp | skip
    obtain ⟨k1, k2⟩ := of_decide_eq_true hp
    exact ⟨_, he, k1, k2⟩

/-- A bundle submitted on `n2`, passed on by `n1`, and delivered on `n3`, each time while the node is processing another bundle. -/
example : ∃ b : Bundle, b.primary.creationTime + b.primary.lifetime < 2 ^ 64 ∧ RoomFor 2 b ∧ ReadablePrevious b ∧
    AtMostOne BUNDLE_AGE_BLOCK b ∧ Unconditional b ∧
    exBusy ⟨Ex110.cfg2, Ex.sender⟩ b (exRelayed "n2" 2) ∧
    exBusy ⟨Ex.cfg, Ex.sender⟩ (exRelayed "n2" 2) (exRelayed "n1" 3) ∧
    ∃ clock n m tasks, Reaches .any ⟨Node.start { Ex.cfg with hostEid := .dtn "n3" "" } clock, []⟩ ⟨n, tasks⟩ ∧ tasks ≠ [] ∧
      Throughout .any (Expected n (exRelayed "n1" 3))
        ⟨n.log (.called (.receive (exRelayed "n1" 3))), tasks ++ [(Call.receive (exRelayed "n1" 3)).prog]⟩ ⟨m, []⟩ ∧
      .duplicate (exRelayed "n1" 3) ∉ newEvents n m ∧
      m.events.countP (isAcceptedId (exRelayed "n1" 3).id) + m.events.countP (isSentId (exRelayed "n1" 3).id) ≤ 1 := by
  refine ⟨exRelayed "n0" 1, by decide, ⟨by unfold AtMostOne; decide, ?_⟩, fun _ => by decide, by unfold AtMostOne; decide, ?_, ?_, ?_, ?_⟩
  · intro l x h
    have : hopCount (exRelayed "n0" 1) = some (5, 1) := by decide
    rw [this] at h; cases h; decide
  · unfold Unconditional UnknownBlock; decide +kernel
  · obtain ⟨n, tasks, m, h1, h2, h3⟩ := exists_throughout (n := Node.start Ex110.cfg2 946684800100)
      ([.register (.dtn "n2" "a"), .call (.receive Ex113.other)] ++ go 4) (Ex113.calling (.send (exRelayed "n0" 1)))
      (List.replicate 7 (.run 1 (some (Ex.answer false)) true "r") ++ go 80 (some (Ex.answer false)))
      (fun n w => Ex113.undisturbed (exRelayed "n0" 1) n w && decide (Ex.primary.destination ∉ w.agents.eids) &&
        decide (Ex.primary.source ∈ w.agents.eids)) (exBusily (exRelayed "n0" 1) (exRelayed "n2" 2)) (by decide +kernel)
    obtain ⟨-, -, k1, k2⟩ := exBusily_of h3
    refine ⟨n, m, ⟨_, tasks, h1, .inr (.inl (h2.weaken fun w h => ?_))⟩, by decide, k1, k2⟩
    simp only [Bool.and_eq_true, decide_eq_true_eq] at h
    exact ⟨Ex113.undisturbed_of h.1.1, h.1.2, .inr h.2⟩
  · obtain ⟨n, tasks, m, h1, h2, h3⟩ := exists_throughout (n := Node.start Ex.cfg 946684800100)
      ([.register (.dtn "n1" "x"), .call (.receive Ex113.other)] ++ go 4) (Ex113.calling (.receive (exRelayed "n2" 2)))
      (List.replicate 7 (.run 1 (some (Ex.answer false)) true "r") ++ go 80 (some (Ex.answer false)))
      (fun n w => Ex113.undisturbed (exRelayed "n2" 2) n w && decide (Ex.primary.destination ∉ w.agents.eids))
      (exBusily (exRelayed "n2" 2) (exRelayed "n1" 3)) (by decide +kernel)
    obtain ⟨-, k0, k1, k2⟩ := exBusily_of h3
    refine ⟨n, m, ⟨_, tasks, h1, .inl ⟨h2.weaken fun w h => ?_, k0⟩⟩, by decide, k1, k2⟩
    simp only [Bool.and_eq_true, decide_eq_true_eq] at h
    exact ⟨Ex113.undisturbed_of h.1, h.2⟩
  · obtain ⟨n, tasks, m, h1, h2, h3⟩ := exists_throughout (n := Node.start { Ex.cfg with hostEid := .dtn "n3" "" } 946684800100)
      ([.register (.dtn "n3" "x"), .call (.receive Ex113.other)] ++ go 4) (Ex113.calling (.receive (exRelayed "n1" 3)))
      (List.replicate 7 (.run 1 none true "r") ++ go 80) (Ex127.expected (exRelayed "n1" 3))
      (fun s m => !s.pool.isEmpty && ((newEvents s.node m).all fun e => match e with | .duplicate _ => false | _ => true) &&
        decide (m.events.countP (isAcceptedId "b") + m.events.countP (isSentId "b") ≤ 1)) (by decide +kernel)
    simp only [Bool.and_eq_true, decide_eq_true_eq] at h3
    refine ⟨_, n, m, tasks, h1, by simpa using h3.1.1, h2.weaken fun _ h => Ex127.expected_of h, fun h => ?_, h3.2⟩
    cases List.all_eq_true.mp h3.1.2 _ h

end Dtn.Props
