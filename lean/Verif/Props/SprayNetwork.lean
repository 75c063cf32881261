import Verif.Lemmas.SprayNetwork
import Verif.Lemmas.SledExample
import Verif.Props.RouterRestarts
import Verif.Props.SledOrigin
import Verif.Props.Network
/-! C153: a network of nodes with spray and wait routing. -/

namespace Dtn.Props
open Proc Routing Spec

/-- A copy has the id of what is stored. -/
theorem sent_id {cfg : Config} {clock : Nat} {s : Sys} (run : EitherStore cfg clock s) {t : Transfer} (sent : .sending t ∈ s.node.events) :
    t.out.id = t.stored.id := by
  rcases run with run | run
  · exact congrArg Primary.bid (C109_sent run sent).2.1
  · exact congrArg Primary.bid (C132_sent run sent).2.1

/-- C153 (sum). In a network of nodes with spray and wait routing, in which what comes in at a node was handed over for it at another, the
number of nodes besides the destination that take in a bundle is at most the sum of what the budgets of all nodes allow and of the failures
the routers were told of. -/
theorem C153_everywhere {net : List SprayPlace} (runs : ∀ p ∈ net, p.Runs) (links : ArrivesWhereSent net) {bid d : String}
    (goal : ∀ p ∈ net, ∀ bp a, .asked bp a ∈ p.events → bp.id = bid → bp.destination.node = some d)
    {reached : List SprayPlace} (among : ∀ p ∈ reached, p ∈ net ∧ p.name ≠ d ∧ p.TookIn bid) (distinct : (reached.map (·.name)).Nodup) :
    reached.length ≤
      (net.map fun p => p.entered bid * (copyBudget p.copies p.localNode bid - 1)).sum + (net.map fun p => p.failures bid).sum := by
  have h1 : (reached.map (·.name)).length ≤ (net.map fun p => (relaysAt bid d p.events).length).sum := by
    refine names_le distinct fun n hn => ?_
    obtain ⟨p, hp, rfl⟩ := List.mem_map.mp hn
    obtain ⟨k1, k2, b, k3, k4⟩ := among p hp
    obtain ⟨b', k5, k6⟩ := taken_either (runs p k1).1 k3
    obtain ⟨q, hq, t, j1, j2, j3⟩ := links p k1 b' k5
    refine ⟨q, hq, List.mem_filterMap.mpr ⟨_, j1, ?_⟩⟩
    have : t.stored.id = bid := by rw [← sent_id (runs q hq).1 j1, j2, k6, k4]
    simp only
    rw [if_pos ⟨this, by rw [j3]; exact k2⟩, j3]
  rw [List.length_map] at h1
  refine h1.trans ?_
  clear h1 links among
  induction net with
  | nil => simp
  | cons p net ih =>
    simp only [List.map_cons, List.sum_cons]
    have h2 := ih (fun q hq => runs q (List.mem_cons_of_mem _ hq)) fun q hq => goal q (List.mem_cons_of_mem _ hq)
    have h3 := C152_spray_copies (runs p List.mem_cons_self).1 (runs p List.mem_cons_self).2 bid d (goal p List.mem_cons_self)
    have h4 := failures_split p bid d
    have h5 := relaysAt_length bid d p.events
    unfold SprayPlace.entered SprayPlace.events at *
    omega

/-- C153. So if only the node `src` regards the bundle as its own, at most as many nodes besides the destination take it in as the budget
of this node allows, plus one for each failure that a router in the network was told of: the other nodes do not multiply it. -/
theorem C153_spread {net : List SprayPlace} (runs : ∀ p ∈ net, p.Runs) (links : ArrivesWhereSent net)
    (names : (net.map (·.name)).Nodup) {bid d : String}
    (goal : ∀ p ∈ net, ∀ bp a, .asked bp a ∈ p.events → bp.id = bid → bp.destination.node = some d)
    {src : SprayPlace} (source : src ∈ net) (others : ∀ p ∈ net, p.name ≠ src.name → startsWith bid p.localNode = false)
    {reached : List SprayPlace} (among : ∀ p ∈ reached, p ∈ net ∧ p.name ≠ d ∧ p.TookIn bid) (distinct : (reached.map (·.name)).Nodup) :
    reached.length ≤ src.entered bid * (src.copies - 1) + (net.map fun p => p.failures bid).sum := by
  classical
  refine (C153_everywhere runs links goal among distinct).trans (Nat.add_le_add_right ?_ _)
  refine (sum_one_node (List.Nodup.of_map _ names) src fun p hp hne => ?_).trans ?_
  · have : p.name ≠ src.name := fun e => hne (List.inj_on_of_nodup_map names hp source e)
    unfold copyBudget
    rw [others p hp this]; simp
  · refine Nat.mul_le_mul_left _ ?_
    unfold copyBudget
    split <;> omega

namespace Ex153

/-- The bundle submitted on `n1` as node `host` passes it on. -/
def copy (host : String) (hops : Nat) : Bundle :=
  { exOwn with
    canonicals := [⟨PREVIOUS_NODE_BLOCK, 4, {}, .previousNode (.dtn host "")⟩, ⟨HOP_COUNT_BLOCK, 3, {}, .hopCount 5 hops⟩,
      ⟨BUNDLE_AGE_BLOCK, 2, {}, .bundleAge 20⟩, ⟨PAYLOAD_BLOCK, 1, {}, .data [1]⟩] }

/-- The configuration of a node. -/
def cfgOf (name : String) : Config := { Ex.cfg with hostEid := .dtn name "" }

/-- A node with the neighbours `ps`. -/
def place (name : String) (ps : List Peer) (s : Sys) : SprayPlace :=
  ⟨name, cfgOf name, 946684800100, 2, "dtn://" ++ name ++ "/", [commandsOf ps exRunning s.node.events], s⟩

/-- What is common to the nodes of the example. -/
def fine (name : String) (ps : List Peer) (got : List Bundle) (s : Sys) : Bool :=
  decide (((sprayStart 2 ("dtn://" ++ name ++ "/")).run spray (commandsOf ps exRunning s.node.events)).log.filterMap routerTalk =
    s.node.events.filterMap nodeTalk) &&
  (s.node.events.all fun e => match e with | .asked bp _ => decide (bp.destination.node = some "n3") | _ => true) &&
  decide (Ex110.receivedBy s = got) && decide (s.node.events.countP (isFailureOf "dtn://n1/a-5-0") = 0)

theorem fine_of {name : String} {ps : List Peer} {got : List Bundle} {s : Sys} (run : Reaches .any ⟨Node.start (cfgOf name) 946684800100, []⟩ s)
    (h : fine name ps got s = true) : (place name ps s).Runs ∧
    (∀ bp a, .asked bp a ∈ (place name ps s).events → bp.destination.node = some "n3") ∧
    (∀ b, .called (.receive b) ∈ (place name ps s).events → b ∈ got) ∧ (place name ps s).failures "dtn://n1/a-5-0" = 0 := by
  unfold fine at h
  simp only [Bool.and_eq_true, decide_eq_true_eq] at h
  obtain ⟨⟨⟨h1, h2⟩, h3⟩, h4⟩ := h
  refine ⟨⟨.inl run, ?_⟩, fun bp a hm => of_decide_eq_true (List.all_eq_true.mp h2 _ hm), fun b hb => h3 ▸ Ex110.mem_receivedBy hb, h4⟩
  show (([commandsOf ps exRunning s.node.events].map _).flatten).filterMap routerTalk = _
  simp only [List.map_cons, List.map_nil, List.flatten_cons, List.flatten_nil, List.append_nil]
  exact h1

end Ex153
open Ex153

/-- Three nodes with two copies for each bundle. A bundle submitted on `n1` is relayed to `n4`, which delivers it to its destination `n3`:
one node besides the destination takes it in, as many as the budget allows. -/
example : ∃ (net : List SprayPlace) (src relay last : SprayPlace), (∀ p ∈ net, p.Runs) ∧ ArrivesWhereSent net ∧ (net.map (·.name)).Nodup ∧
    (∀ p ∈ net, ∀ bp a, .asked bp a ∈ p.events → bp.id = "dtn://n1/a-5-0" → bp.destination.node = some "n3") ∧
    src ∈ net ∧ (∀ p ∈ net, p.name ≠ src.name → startsWith "dtn://n1/a-5-0" p.localNode = false) ∧
    (∀ p ∈ [relay], p ∈ net ∧ p.name ≠ "n3" ∧ p.TookIn "dtn://n1/a-5-0") ∧ ([relay].map (·.name)).Nodup ∧
    last ∈ net ∧ last.name = "n3" ∧ last.TookIn "dtn://n1/a-5-0" ∧
    src.entered "dtn://n1/a-5-0" * (src.copies - 1) + (net.map fun p => p.failures "dtn://n1/a-5-0").sum = 1 := by
  obtain ⟨s1, r1, p1⟩ := exists_run (n := Node.start (cfgOf "n1") 946684800100)
    ([.cla true, .register (.dtn "n1" "a"), .call (.send exOwn)] ++ go 60 (some exToN4))
    (fun s => fine "n1" exPeers.reverse [] s && Ex.hasSending (fun t => decide (t.out = copy "n1" 2 ∧ t.to.nextHop.node.getD "" = "n4")) s &&
      decide (s.node.events.countP (isAcceptedId "dtn://n1/a-5-0") + s.node.events.countP (isSentId "dtn://n1/a-5-0") = 1))
    (by decide +kernel)
  obtain ⟨s4, r4, p4⟩ := exists_run (n := Node.start (cfgOf "n4") 946684800100)
    ([.cla true, .call (.receive (copy "n1" 2))] ++ go 60 (some exToN3))
    (fun s => fine "n4" [exNeighbour "n2", exNeighbour "n3"] [copy "n1" 2] s &&
      Ex.hasSending (fun t => decide (t.out = copy "n4" 3 ∧ t.to.nextHop.node.getD "" = "n3")) s &&
      decide (Event.accepted (copy "n1" 2) ∈ s.node.events)) (by decide +kernel)
  obtain ⟨s3, r3, p3⟩ := exists_run (n := Node.start (cfgOf "n3") 946684800100)
    ([.cla true, .call (.receive (copy "n4" 3))] ++ go 60)
    (fun s => fine "n3" [] [copy "n4" 3] s && decide (Event.accepted (copy "n4" 3) ∈ s.node.events)) (by decide +kernel)
  simp only [Bool.and_eq_true, decide_eq_true_eq] at p1 p4 p3
  obtain ⟨⟨f1, a1⟩, c1⟩ := p1
  obtain ⟨⟨f4, a4⟩, c4⟩ := p4
  obtain ⟨f3, c3⟩ := p3
  obtain ⟨t1, h1, e1⟩ := Ex.sending_of a1
  obtain ⟨t4, h4, e4⟩ := Ex.sending_of a4
  simp only [decide_eq_true_eq] at e1 e4
  have g1 := fine_of r1 f1
  have g4 := fine_of r4 f4
  have g3 := fine_of r3 f3
  refine ⟨[place "n1" exPeers.reverse s1, place "n4" [exNeighbour "n2", exNeighbour "n3"] s4, place "n3" [] s3], place "n1" exPeers.reverse s1,
    place "n4" [exNeighbour "n2", exNeighbour "n3"] s4, place "n3" [] s3, ?_, ?_, by simp [place], ?_, by simp, ?_, ?_, by simp, by simp, rfl,
    ⟨_, c3, rfl⟩, ?_⟩
  · intro p hp
    simp only [List.mem_cons, List.not_mem_nil, or_false] at hp
    rcases hp with rfl | rfl | rfl
    exacts [g1.1, g4.1, g3.1]
  · intro p hp b hb
    simp only [List.mem_cons, List.not_mem_nil, or_false] at hp
    rcases hp with rfl | rfl | rfl
    · cases g1.2.2.1 b hb
    · have := g4.2.2.1 b hb
      rw [List.mem_singleton] at this
      exact ⟨_, List.mem_cons_self, t1, h1, e1.1.trans this.symm, e1.2⟩
    · have := g3.2.2.1 b hb
      rw [List.mem_singleton] at this
      exact ⟨_, List.mem_cons_of_mem _ List.mem_cons_self, t4, h4, e4.1.trans this.symm, e4.2⟩
  · intro p hp bp a hm _
    simp only [List.mem_cons, List.not_mem_nil, or_false] at hp
    rcases hp with rfl | rfl | rfl
    exacts [g1.2.1 bp a hm, g4.2.1 bp a hm, g3.2.1 bp a hm]
  · intro p hp hne
    simp only [List.mem_cons, List.not_mem_nil, or_false] at hp
    rcases hp with rfl | rfl | rfl
    · exact absurd rfl hne
    · show startsWith _ ("dtn://" ++ "n4" ++ "/") = false; decide +kernel
    · show startsWith _ ("dtn://" ++ "n3" ++ "/") = false; decide +kernel
  · intro p hp
    rw [List.mem_singleton] at hp; subst hp
    exact ⟨by simp, by simp [place], _, c4, rfl⟩
  · simp only [List.map_cons, List.map_nil, g1.2.2.2, g4.2.2.2, g3.2.2.2]
    show (s1.node.events.countP _ + s1.node.events.countP _) * _ + _ = 1
    rw [c1]; rfl

end Dtn.Props
