import Verif.Lemmas.Relay
import Verif.Props.Queues
import Verif.Props.Network
/-! C112: bundles travel along chains of nodes. -/

namespace Dtn.Props
open Spec Proc

/-- C112 (one hop). A node that takes on a bundle for another node, and is left alone until it has done its work, asks the
router about it, and hands a copy to the convergence layer for every neighbour the router names, if the bundle does not expire
meanwhile. The age in the copy is what it was plus time spent here. -/
theorem C112_handed_on {cfg : Config} {clock : Nat} {n m : Node} {tasks : List Prog} {b : Bundle} {c : Call}
    (before : Reaches .any ⟨Node.start cfg clock, []⟩ ⟨n, tasks⟩) (takes : TakesOn n b c)
    (remote : b.primary.destination.nodeId ≠ cfg.hostEid.nodeId) (notHere : b.primary.destination ∉ n.agents.eids)
    (run : Reaches .quiet ⟨n, [c.prog]⟩ ⟨m, []⟩) (inTime : InTime n m b) (room : RoomFor 1 b) (previous : ReadablePrevious b)
    (oneAge : AtMostOne BUNDLE_AGE_BLOCK b) :
    ∃ bp a, bp.id = b.id ∧ .asked bp a ∈ newEvents n m ∧ ∀ x, a = some x → ∀ s ∈ x.clas,
      ∃ t, .sending t ∈ newEvents n m ∧ t.to = s ∧ t.stored = b ∧ PassedOn cfg.hostEid t.out b ∧
        previousNode t.out = some cfg.hostEid ∧
        (∀ limit count, hopCount b = some (limit, count) → hopCount t.out = some (limit, count + 1)) ∧
        ∀ age, bundleAge b = some age → ∃ stay, stay ≤ m.clock - n.clock ∧ bundleAge t.out = some (age + stay) := by
  obtain ⟨i, hcfg⟩ := good_always before
  simp only at i hcfg
  subst hcfg
  obtain ⟨bp, a, h1, h2, h3⟩ := takesOn_sends i takes remote notHere run inTime room previous oneAge
  refine ⟨bp, a, h1, h2, fun x hx s hs => ?_⟩
  obtain ⟨t, k1, k2, k3, k4, k5⟩ := h3 x hx s hs
  subst k3
  exact ⟨t, k1, k2, rfl, k4.passedOn, k4.previousNode, (Ready.copied ⟨room, previous, oneAge⟩ k4).2, k5⟩

/-- C112. A bundle travels along every chain of nodes whose routers name the next one, as far as its hop limit and its
lifetime allow, and the node at the end gives it to the application exactly once, with the payload and all other fixed blocks
unchanged. -/
theorem C112_chain (b : Bundle) (stops : List Stop) (room : RoomFor stops.length b) (previous : ReadablePrevious b)
    (oneAge : AtMostOne BUNDLE_AGE_BLOCK b) : Travels (Arrives b stops.length) stops b := by
  have key : ∀ (stops : List Stop) (b' : Bundle) (j : Nat), Ready stops.length b' → b'.primary = b.primary →
      (fixedBlocks b').Perm (fixedBlocks b) →
      (∀ limit count, hopCount b = some (limit, count) → hopCount b' = some (limit, count + j)) →
      Travels (Arrives b (j + stops.length)) stops b' := by
    intro stops
    induction stops with
    | nil =>
      intro b' j _ hp hf hh
      refine ⟨hp, hf, hh, ?_⟩
      intro cfg clock n tasks m c before takes reg hrec run
      exact (C102_delivered_once before takes reg hrec run).2.1
    | cons s stops ih =>
      intro b' j ready hp hf hh clock n tasks m c before takes remote notHere run inTime router
      obtain ⟨i, hcfg⟩ := good_always before
      simp only at i hcfg
      obtain ⟨bp, a, h1, h2, h3⟩ := takesOn_sends i takes (hcfg ▸ remote) notHere run inTime ready.room ready.prev ready.age
      obtain ⟨x, rfl, hx⟩ := router bp a h2 h1
      obtain ⟨t, k1, k2, k3, k4, -⟩ := h3 x rfl s.next hx
      subst k3
      obtain ⟨r1, r2⟩ := ready.copied k4
      refine ⟨t, k1, k2, ?_⟩
      have := ih t.out (j + 1) r1 (k4.primary.trans hp) ((Net.passed_fixed k4.passedOn).trans hf) ?_
      · simp only [List.length_cons]
        rw [show j + (stops.length + 1) = j + 1 + stops.length by omega]
        exact this
      · intro l x hc
        rw [r2 l _ (hh l x hc)]
        simp [Nat.add_assoc]
  have := key stops b 0 ⟨room, previous, oneAge⟩ rfl (.refl _) (by simp)
  rwa [Nat.zero_add] at this

/-- The hypotheses about one stop, for a run in which the copy `out` is made. -/
def exPassed (s : Stop) (b out : Bundle) : Prop :=
  ∃ clock n tasks m c, Reaches .any ⟨Node.start s.cfg clock, []⟩ ⟨n, tasks⟩ ∧ TakesOn n b c ∧
    b.primary.destination.nodeId ≠ s.cfg.hostEid.nodeId ∧ b.primary.destination ∉ n.agents.eids ∧
    Reaches .quiet ⟨n, [c.prog]⟩ ⟨m, []⟩ ∧ InTime n m b ∧
    (∀ bp a, .asked bp a ∈ newEvents n m → bp.id = b.id → ∃ x, a = some x ∧ s.next ∈ x.clas) ∧
    ∃ t, .sending t ∈ newEvents n m ∧ t.to = s.next ∧ t.out = out

/-- What can be computed about such a run. -/
def exPassing (b out : Bundle) (n m : Node) : Bool :=
  decide (n.store.getBundle b.id = none) && decide (b.primary.destination ∉ n.agents.eids) &&
  decide (m.dtnNow < b.primary.creationTime + b.primary.lifetime) && decide (m.clock = n.clock) &&
  (newEvents n m).all (fun e => match e with | .asked _ a => decide (∃ x ∈ a, Ex.sender ∈ x.clas) | _ => true) &&
  (newEvents n m).any (fun e => match e with | .sending t => decide (t.to = Ex.sender ∧ t.out = out) | _ => false)

theorem exPassing_spec {cfg : Config} {b out : Bundle} {clock : Nat} {n m : Node} {tasks : List Prog} {c : Call}
    (h1 : Reaches .any ⟨Node.start cfg clock, []⟩ ⟨n, tasks⟩) (h2 : Reaches .quiet ⟨n, [c.prog]⟩ ⟨m, []⟩)
    (h : exPassing b out n m = true) (h3 : n.store.getBundle b.id = none → TakesOn n b c)
    (h4 : b.primary.destination.nodeId ≠ cfg.hostEid.nodeId) (h5 : b.primary.creationTime + b.primary.lifetime < 2 ^ 64)
    (h6 : ∀ age, bundleAge b = some age → age < b.primary.lifetime) : exPassed ⟨cfg, Ex.sender⟩ b out := by
  unfold exPassing at h
  simp only [Bool.and_eq_true, decide_eq_true_eq] at h
  obtain ⟨⟨⟨⟨⟨a1, a2⟩, a3⟩, a4⟩, a5⟩, a6⟩ := h
  refine ⟨clock, n, tasks, m, c, h1, h3 a1, h4, a2, h2, ⟨fun _ => a3, h5, ?_⟩, ?_, ?_⟩
  · intro age h; rw [a4]; simpa using h6 age h
  · intro bp a h _
    have := List.all_eq_true.mp a5 _ h
    obtain ⟨x, hx, hx'⟩ := of_decide_eq_true this
    exact ⟨x, hx, hx'⟩
  · obtain ⟨e, he, hp⟩ := List.any_eq_true.mp a6
    cases e <;> first | cases hp | skip
    obtain ⟨k1, k2⟩ := of_decide_eq_true hp
    exact ⟨_, he, k1, k2⟩

/-- A bundle as it leaves `n2`, and as it leaves `n1`. -/
def exRelayed (node : String) (count : Nat) : Bundle :=
  { primary := Ex.primary
    canonicals :=
      [⟨PREVIOUS_NODE_BLOCK, 4, {}, .previousNode (.dtn node "")⟩, ⟨HOP_COUNT_BLOCK, 3, {}, .hopCount 5 count⟩,
       ⟨BUNDLE_AGE_BLOCK, 2, {}, .bundleAge 20⟩, ⟨PAYLOAD_BLOCK, 1, {}, .data [1]⟩] }

/-- A bundle submitted on `n2`, passed on by `n1`, and delivered on `n3`. -/
example : ∃ b : Bundle, RoomFor 2 b ∧ ReadablePrevious b ∧ AtMostOne BUNDLE_AGE_BLOCK b ∧
    exPassed ⟨Ex110.cfg2, Ex.sender⟩ b (exRelayed "n2" 2) ∧
    exPassed ⟨Ex.cfg, Ex.sender⟩ (exRelayed "n2" 2) (exRelayed "n1" 3) ∧
    ∃ clock n tasks m c, Reaches .any ⟨Node.start { Ex.cfg with hostEid := .dtn "n3" "" } clock, []⟩ ⟨n, tasks⟩ ∧
      TakesOn n (exRelayed "n1" 3) c ∧ b.primary.destination ∈ n.agents.eids ∧ b.isAdmin = false ∧
      Reaches .quiet ⟨n, [c.prog]⟩ ⟨m, []⟩ := by
  refine ⟨exRelayed "n0" 1, ⟨by unfold AtMostOne; decide, ?_⟩, fun _ => by decide, by unfold AtMostOne; decide, ?_, ?_, ?_⟩
  · intro l x h
    have : hopCount (exRelayed "n0" 1) = some (5, 1) := by decide
    rw [this] at h; cases h; decide
  · obtain ⟨n, ps, m, h1, h2, h3⟩ := exists_quiet (n := Node.start Ex110.cfg2 946684800100) [.register (.dtn "n2" "a")]
      (fun _ => (Call.send (exRelayed "n0" 1)).prog) 80 (some (Ex.answer false)) true "r"
      (fun n m => exPassing (exRelayed "n0" 1) (exRelayed "n2" 2) n m && decide (EID.dtn "n2" "a" ∈ n.agents.eids)) (by decide +kernel)
    simp only [Bool.and_eq_true, decide_eq_true_eq] at h3
    refine exPassing_spec h1 h2 h3.1 (fun _ => .inr ⟨rfl, .inr h3.2⟩) (by decide) (by decide) ?_
    intro age h
    have : bundleAge (exRelayed "n0" 1) = some 20 := by decide
    rw [this] at h; cases h; decide
  · obtain ⟨n, ps, m, h1, h2, h3⟩ := exists_quiet (n := Node.start Ex.cfg 946684800100) [.register (.dtn "n1" "x")]
      (fun _ => (Call.receive (exRelayed "n2" 2)).prog) 80 (some (Ex.answer false)) true "r"
      (exPassing (exRelayed "n2" 2) (exRelayed "n1" 3)) (by decide +kernel)
    refine exPassing_spec h1 h2 h3 (fun h => .inl ⟨rfl, h, ?_⟩) (by decide) (by decide) ?_
    · unfold UnknownBlock; decide +kernel
    intro age h
    have : bundleAge (exRelayed "n2" 2) = some 20 := by decide
    rw [this] at h; cases h; decide
  · obtain ⟨n, ps, m, h1, h2, h3⟩ := exists_quiet (n := Node.start { Ex.cfg with hostEid := .dtn "n3" "" } 946684800100)
      [.register (.dtn "n3" "x")] (fun _ => (Call.receive (exRelayed "n1" 3)).prog) 80 (some (Ex.answer false)) true "r"
      (fun n _ => decide (n.store.getBundle (exRelayed "n1" 3).id = none ∧ EID.dtn "n3" "x" ∈ n.agents.eids)) (by decide +kernel)
    obtain ⟨h3, h4⟩ := of_decide_eq_true h3
    refine ⟨_, n, ps, m, _, h1, .inl ⟨rfl, h3, ?_⟩, h4, rfl, h2⟩
    unfold UnknownBlock; decide +kernel

end Dtn.Props
