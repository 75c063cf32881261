import Verif.Lemmas.Spreads
import Verif.Props.Epidemic
import Verif.Model.Routing.Agent
import Verif.Props.Carried
/-! C116: with epidemic routing, bundles spread to all neighbours. -/

namespace Dtn.Props
open Spec Proc Routing

/-- The answer of an agent that runs on. -/
theorem answer_of {cmds pre post : List Cmd} {ps : List Peer} {r : List Cla} {bp : Pack} (running : (Epidemic.Task.run {} cmds).core ≠ none)
    (question : cmds = pre ++ .senderForBundle ps r bp :: post) : ∃ c c' a, (Epidemic.Task.run {} pre).core = some c ∧
      c.senderForBundle ps r bp = some (c', a) ∧ (.senderForBundle ps r bp, some a) ∈ answered {} cmds ∧
      ((Epidemic.Task.run {} pre).step (.senderForBundle ps r bp)).log = (Epidemic.Task.run {} pre).log ++ [(bp, some a)] := by
  have h : ((Epidemic.Task.run {} pre).step (.senderForBundle ps r bp)).core ≠ none := by
    intro hd
    apply running
    rw [question, Epidemic.Task.run_append]
    exact Epidemic.Task.run_ended (t := (Epidemic.Task.run {} pre).step (.senderForBundle ps r bp)) hd post
  obtain ⟨c, c', a, h1, h2, h3⟩ := Epidemic.Task.step_running h
  refine ⟨c, c', a, h1, h2, ?_, h3⟩
  rw [question, Epidemic.answered_append']
  apply List.mem_append_right
  simp [Spec.answered, h3]

/-- C116 (neighbours). Take a bundle that was put into the store of a node with epidemic routing, has stayed there alive and could be
sent on. Whenever the router was asked about it, every neighbour that the node could reach then has got a copy when the node comes
to rest, unless the bundle came from that neighbour: those the router had named before and those it names now. Neighbours that had not
got it, or for which a transfer had failed, get it in answer to this question. The only exception is that the destination itself is a
neighbour and gets a copy. Everything else the node does at the same time is arbitrary. -/
theorem C116_neighbours {cfg : Config} {clock : Nat} {n m : Node} {tasks : List Prog} {b : Bundle} {cmds pre post : List Cmd}
    {ps : List Peer} {r : List Cla} {bp : Pack} {p : Peer}
    (before : Reaches .any ⟨Node.start cfg clock, []⟩ ⟨n, tasks⟩) (stored : n.store.getBundle b.id = some b) (leave : CanLeave b)
    (fresh : ∀ bp a, .asked bp a ∈ n.events → bp.id ≠ b.id)
    (run : Throughout .any (Undisturbed n b) ⟨n, tasks⟩ ⟨m, []⟩) (router : RunsEpidemic cmds m.events)
    (question : cmds = pre ++ .senderForBundle ps r bp :: post) (about : bp.id = b.id)
    (names : (ps.map Peer.nodeName).Nodup) (neighbour : p ∈ ps) (usable : Usable r p) :
    SentToDestination cfg.hostEid n m b ∨
    (served b.id p.nodeName (answered {} pre) = false → ∃ s, SendsTo r p s ∧ HandedOver cfg.hostEid n m b s) ∧
    (GotCopy cfg.hostEid n m b p.nodeName ∨ CameFrom b.id p.nodeName m.events) := by
  have past : n.events <+: m.events := (any_good before run.reaches).1.past
  -- the answers are carried out
  have new : ∀ bp' a', .asked bp' a' ∈ m.events → bp'.id = b.id → .asked bp' a' ∈ newEvents n m := by
    intro bp' a' h hid
    obtain ⟨es, he⟩ := past
    rw [← he] at h
    rcases List.mem_append.mp h with h | h
    · exact absurd hid (fresh _ _ h)
    · rw [newEvents_eq he.symm]; exact h
  have handed : ∀ ps' r' bp' a', (.senderForBundle ps' r' bp', some a') ∈ answered {} cmds → bp'.id = b.id →
      ∀ s ∈ a'.clas, HandedOver cfg.hostEid n m b s := by
    intro ps' r' bp' a' h hid s hs
    exact C113_carried_out before stored leave run (new _ _ (router.questions _ _ _ _ h) hid) hid hs
  by_cases direct : ∃ ps' r' bp' a', (.senderForBundle ps' r' bp', some a') ∈ answered {} cmds ∧ bp'.id = b.id ∧ a'.delete = true
  · left
    obtain ⟨ps', r', bp', a', h, hid, hdel⟩ := direct
    obtain ⟨pre', post', hc, ha⟩ := Epidemic.answered_split h
    obtain ⟨c, c', a'', -, h2, -, h4⟩ := answer_of router.running hc
    rw [h4] at ha
    simp only [List.getLast?_concat, Option.bind_some, Option.some.injEq] at ha
    subst ha
    obtain ⟨d, hd, s, hs, hn⟩ := Epidemic.loop_delete _ _ _ _ _ _ _ h2 hdel
    exact ⟨bp', _, d, new _ _ (router.questions _ _ _ _ h) hid, hid, hd, s, hn, handed _ _ _ _ h hid s hs⟩
  · right
    have hno : ∀ ps' r' bp' a', (Cmd.senderForBundle ps' r' bp', some a') ∈ answered {} cmds → bp'.id = b.id → a'.delete = false := by
      intro ps' r' bp' a' h hid
      cases hd : a'.delete with
      | false => rfl
      | true => exact absurd ⟨ps', r', bp', a', h, hid, hd⟩ direct
    have sub : ∀ x, x ∈ answered {} pre → x ∈ answered {} cmds := by
      intro x hx
      rw [question, Epidemic.answered_append']
      exact List.mem_append_left _ hx
    have hnopre : ∀ ps' r' bp' a', (Cmd.senderForBundle ps' r' bp', some a') ∈ answered {} pre → bp'.id = bp.id → a'.delete = false :=
      fun ps' r' bp' a' h hid => hno ps' r' bp' a' (sub _ h) (hid.trans about)
    obtain ⟨c, c', a, h1, h2, h3, h4⟩ := answer_of router.running question
    have A : served b.id p.nodeName (answered {} pre) = false → ∃ s, SendsTo r p s ∧ HandedOver cfg.hostEid n m b s := by
      intro hs
      cases hd : bp.destination.node with
      | none =>
        exfalso
        have hcon := Epidemic.Task.contains_eq_served pre bp.id hnopre c h1 p.nodeName
        rw [about, hs] at hcon
        have := (Epidemic.loop_none bp r ps c []).mpr ⟨hd, p, neighbour, by rw [about]; exact hcon,
          (Peer.firstCla_isSome_iff p r).mpr usable⟩
        unfold Epidemic.senderForBundle at h2
        rw [this] at h2
        cases h2
      | some d =>
        obtain ⟨a', k1, k2, k3, k4⟩ := C34_epidemic_serves_new_peers_partial pre ps r bp d (by rw [h1]; simp) names hd hnopre
        have haa : a' = a := by
          rw [Epidemic.Task.run_append] at k1
          change ((Epidemic.Task.run {} pre).step _).log = _ at k1
          rw [h4] at k1
          simpa using k1.symm
        subst haa
        have hdel := hno _ _ _ _ h3 about
        have hnd : ∀ q ∈ ps, (Usable r q ∧ served bp.id q.nodeName (answered {} pre) = false) → q.nodeName ≠ d := by
          intro q hq hn he
          rw [(k3 ⟨q, hq, hn, he⟩).2] at hdel
          cases hdel
        have hsel := ((k4 hnd).1 p.nodeName).mpr ⟨p, neighbour, ⟨usable, by rw [about]; exact hs⟩, rfl⟩
        obtain ⟨s, hs1, hs2⟩ := List.mem_map.mp hsel
        obtain ⟨q, hq, -, hq2⟩ := k2 s hs1
        have hqp : q = p := by
          refine Epidemic.same_name names hq neighbour ?_
          rw [← hs2, hq2.1]
          rfl
        subst hqp
        exact ⟨s, hq2, handed _ _ _ _ h3 about s hs1⟩
    refine ⟨A, ?_⟩
    cases hs : served b.id p.nodeName (answered {} pre) with
    | false =>
      obtain ⟨s, k1, k2⟩ := A hs
      exact .inl ⟨s, by rw [k1.1]; rfl, k2⟩
    | true =>
      rcases Epidemic.served_why hs with ⟨ps', r', bp', a', k, hid, hsel⟩ | ⟨b', o, k, hid, hp⟩ | ⟨o, k⟩
      · obtain ⟨s, hs1, hs2⟩ := List.mem_map.mp hsel
        exact .inl ⟨s, hs2, handed _ _ _ _ (sub _ k) hid s hs1⟩
      · rcases router.notes _ (Epidemic.answered_mem (sub _ k)) with h | ⟨e, h | h⟩
        · exact .inr (.inl ⟨b', h, hid, hp⟩)
        · cases h
        · cases h
      · rcases router.notes _ (Epidemic.answered_mem (sub _ k)) with h | ⟨e, h | h⟩
        · exact .inr (.inr h)
        · cases h
        · cases h

/-- C116 (carrying). A bundle waits in a node with epidemic routing since it came; then the janitor runs. When the node comes to rest,
every neighbour that the node could reach whenever the router was asked about the bundle in this run has got a copy, then or before,
or has sent the bundle; or the destination itself has got a copy. -/
theorem C116_next_round {cfg : Config} {clock : Nat} {n n' m : Node} {tasks tasks' : List Prog} {b : Bundle} {cmds : List Cmd} {node : String}
    (before : Reaches .any ⟨Node.start cfg clock, []⟩ ⟨n, tasks⟩) (stored : n.store.getBundle b.id = some b) (leave : CanLeave b)
    (fresh : ∀ bp a, .asked bp a ∈ n.events → bp.id ≠ b.id)
    (waiting : Throughout .any (Undisturbed n b) ⟨n, tasks⟩ ⟨n', tasks'⟩)
    (run : Throughout .any (fun w => Undisturbed n b w ∧ w.claActive = true ∧
        (∃ p, w.store.getMetadata b.id = some p ∧ p.has .forwardPending = true ∧ p.has .deleted = false) ∧
        (cfg.parallel = true ∨ ∀ bid b', w.store.getBundle bid = some b' → ReadablePrevious b'))
      ⟨n'.log (.called .janitor), tasks' ++ [Call.janitor.prog]⟩ ⟨m, []⟩)
    (router : RunsEpidemic cmds m.events)
    (met : ∀ ps r bp a, (.senderForBundle ps r bp, a) ∈ answered {} cmds → bp.id = b.id → .asked bp a ∈ newEvents n' m →
      (ps.map Peer.nodeName).Nodup ∧ ∃ p ∈ ps, p.nodeName = node ∧ Usable r p) :
    SentToDestination cfg.hostEid n m b ∨ GotCopy cfg.hostEid n m b node ∨ CameFrom b.id node m.events := by
  have before' := before.join waiting.reaches
  have bn := any_good before waiting.reaches
  have full : Throughout .any (Undisturbed n b) ⟨n, tasks⟩ ⟨m, []⟩ := by
    have r2 := run.weaken (J := Undisturbed n b) fun _ h => h.1
    exact (waiting.step (.call _ _ _ trivial) r2.head).join r2
  have stored' : n'.store.getBundle b.id = some b := by
    rcases bn.1.kept b.id (by rw [stored]; simp) with h | ⟨c, hc⟩
    · cases hb : n'.store.getBundle b.id with
      | none => exact absurd hb h
      | some b' => rw [waiting.last.2.1 b' hb]
    · exact absurd hc (waiting.last.1 c)
  have run' : Throughout .any (fun w => Undisturbed n' b w ∧ w.claActive = true ∧
        (∃ p, w.store.getMetadata b.id = some p ∧ p.has .forwardPending = true ∧ p.has .deleted = false) ∧
        (cfg.parallel = true ∨ ∀ bid b', w.store.getBundle bid = some b' → ReadablePrevious b'))
      ⟨n'.log (.called .janitor), tasks' ++ [Call.janitor.prog]⟩ ⟨m, []⟩ := by
    have b1 : Reaches .any ⟨Node.start cfg clock, []⟩ ⟨n'.log (.called .janitor), tasks' ++ [Call.janitor.prog]⟩ :=
      before'.step (.call _ _ _ trivial)
    refine run.add fun u hu i => ⟨⟨fun c hc => i.1.1 c ?_, i.1.2⟩, i.2⟩
    have p1 : n'.events <+: u.node.events := (List.prefix_append _ _).trans (any_good b1 hu).1.past
    exact newEvents_left bn.1.past p1 hc
  obtain ⟨bp, a, hid, hasked, -⟩ := C113_waiting before' stored' leave run'
  have pm : n'.events <+: m.events := (List.prefix_append _ _).trans (any_good (before'.step (.call _ _ _ trivial)) run.reaches).1.past
  obtain ⟨ps, r, hq⟩ := router.answers bp a (by
    obtain ⟨es, he⟩ := pm
    rw [newEvents_eq he.symm] at hasked
    rw [← he]
    exact List.mem_append_right _ hasked)
  obtain ⟨hnd, p, hp, hnode, hu⟩ := met ps r bp a hq hid hasked
  obtain ⟨pre, post, hc, -⟩ := Epidemic.answered_split hq
  have := C116_neighbours before stored leave fresh full router hc hid hnd hp hu
  rw [hnode] at this
  rcases this with h | ⟨-, h⟩
  · exact .inl h
  · exact .inr h

/-- C116 (flooding). With flooding, whenever the router has answered, every neighbour that the node could reach then gets a copy. -/
theorem C116_flooding {cfg : Config} {clock : Nat} {n m : Node} {tasks : List Prog} {b : Bundle} {ps : List Peer} {r : List Cla}
    {bp : Pack} {p : Peer} (before : Reaches .any ⟨Node.start cfg clock, []⟩ ⟨n, tasks⟩) (stored : n.store.getBundle b.id = some b)
    (leave : CanLeave b) (run : Throughout .any (Undisturbed n b) ⟨n, tasks⟩ ⟨m, []⟩) (about : bp.id = b.id) {c c' : Unit} {a : Answer}
    (answer : flooding.request c ps r bp = some (c', a)) (question : .asked bp (some a) ∈ newEvents n m)
    (neighbour : p ∈ ps) (usable : Usable r p) : ∃ s, SendsTo r p s ∧ HandedOver cfg.hostEid n m b s := by
  obtain ⟨s, hs⟩ := Option.isSome_iff_exists.1 ((Peer.firstCla_isSome_iff p r).2 usable)
  have ha : a = floodingAnswer ps r := by
    simp only [flooding, Option.some.injEq, Prod.mk.injEq] at answer
    exact answer.2.symm
  subst ha
  exact ⟨s, Peer.firstCla_sendsTo hs, C113_carried_out before stored leave run question about
    (List.mem_filterMap.mpr ⟨p, neighbour, hs⟩)⟩

/-- The neighbours of the example: `n2`, from which the bundle comes, and `n4`. -/
def exPeers : List Peer := [exNeighbour "n2", exNeighbour "n4"]

/-- What the router says when it can reach them. -/
def exToN4 : Answer := { clas := ((exNeighbour "n4").firstCla exRunning).toList, delete := false }

/-- The conditions of the janitor run in the example. -/
def exCarrying (n w : Node) : Bool :=
  Ex113.undisturbed (Ex.bundle 5 1 20) n w && w.claActive &&
    (w.store.getMetadata "b").any fun p => p.has .forwardPending && !p.has .deleted

theorem exCarrying_of {n w : Node} (h : exCarrying n w = true) : Undisturbed n (Ex.bundle 5 1 20) w ∧ w.claActive = true ∧
    ∃ p, w.store.getMetadata (Ex.bundle 5 1 20).id = some p ∧ p.has .forwardPending = true ∧ p.has .deleted = false := by
  unfold exCarrying at h
  simp only [Bool.and_eq_true] at h
  refine ⟨Ex113.undisturbed_of h.1.1, h.1.2, ?_⟩
  have h3 := h.2
  show ∃ p, w.store.getMetadata "b" = some p ∧ _
  cases hp : w.store.getMetadata "b" with
  | none => rw [hp] at h3; cases h3
  | some p =>
    rw [hp] at h3
    simp only [Option.any_some, Bool.and_eq_true, Bool.not_eq_true'] at h3
    exact ⟨p, rfl, h3⟩

theorem exUsable (node : String) : Usable exRunning (exNeighbour node) :=
  ⟨("mtcp", none), by simp [exNeighbour, Peer.new], { name := "mtcp", port := 16162 }, by simp [exRunning], rfl, rfl⟩

/-- A bundle comes from `n2` when the node has no neighbours; when the janitor runs, `n2` and `n4` are neighbours. Both theorems apply
to `n4`. -/
example : ∃ (cfg : Config) (n n' m : Node) (tasks tasks' : List Prog) (b : Bundle) (cmds : List Cmd),
    Reaches .any ⟨Node.start cfg 946684800100, []⟩ ⟨n, tasks⟩ ∧ n.store.getBundle b.id = some b ∧ CanLeave b ∧
    (∀ bp a, .asked bp a ∈ n.events → bp.id ≠ b.id) ∧
    Throughout .any (Undisturbed n b) ⟨n, tasks⟩ ⟨n', tasks'⟩ ∧
    Throughout .any (fun w => Undisturbed n b w ∧ w.claActive = true ∧
        (∃ p, w.store.getMetadata b.id = some p ∧ p.has .forwardPending = true ∧ p.has .deleted = false) ∧
        (cfg.parallel = true ∨ ∀ bid b', w.store.getBundle bid = some b' → ReadablePrevious b'))
      ⟨n'.log (.called .janitor), tasks' ++ [Call.janitor.prog]⟩ ⟨m, []⟩ ∧
    RunsEpidemic cmds m.events ∧
    (∀ ps r bp a, (.senderForBundle ps r bp, a) ∈ Spec.answered {} cmds → bp.id = b.id → .asked bp a ∈ newEvents n' m →
      (ps.map Peer.nodeName).Nodup ∧ ∃ p ∈ ps, p.nodeName = "n4" ∧ Usable r p) ∧
    (∃ pre bp post, cmds = pre ++ .senderForBundle exPeers exRunning bp :: post ∧ bp.id = b.id ∧
      served b.id "n4" (Spec.answered {} pre) = false) := by
  obtain ⟨n, tasks, n', tasks', m, h1, h2, h3, h4⟩ := exists_two (n := Node.start { Ex.cfg with parallel := true } 946684800100)
    ([.cla true, .call (.receive (Ex.bundle 5 1 20))] ++ go 1) (go 60 (some { clas := [], delete := false })) (go 140 (some exToN4))
    (Ex113.calling .janitor) (Ex113.undisturbed (Ex.bundle 5 1 20)) exCarrying
    (fun n n' m => decide (n.store.getBundle "b" = some (Ex.bundle 5 1 20)) && decide (questionsOf n.events = []) &&
      runsEpidemic (commandsOf exPeers exRunning m.events) m.events &&
      ((Spec.answered {} (commandsOf exPeers exRunning m.events)).all fun x => match x.1 with
        | .senderForBundle ps r bp => decide (bp.id = "b" ∧ (Event.asked bp x.2 ∈ newEvents n' m → ps = exPeers ∧ r = exRunning))
        | _ => true) &&
      (match commandsOf exPeers exRunning m.events with
        | c1 :: c2 :: .senderForBundle ps r bp :: _ => decide (ps = exPeers ∧ r = exRunning ∧ bp.id = "b" ∧
            served "b" "n4" (Spec.answered {} [c1, c2]) = false)
        | _ => false)) (by decide +kernel)
  simp only [Bool.and_eq_true, decide_eq_true_eq] at h4
  obtain ⟨⟨⟨⟨k1, k2⟩, k3⟩, k4⟩, k5⟩ := h4
  have hfresh : ∀ bp a, .asked bp a ∈ n.events → bp.id ≠ (Ex.bundle 5 1 20).id := by
    intro bp a h
    have := mem_questionsOf.mpr h
    rw [k2] at this
    cases this
  have hmet : ∀ ps r bp a, (.senderForBundle ps r bp, a) ∈ Spec.answered {} (commandsOf exPeers exRunning m.events) →
      bp.id = (Ex.bundle 5 1 20).id → .asked bp a ∈ newEvents n' m →
      (ps.map Peer.nodeName).Nodup ∧ ∃ p ∈ ps, p.nodeName = "n4" ∧ Usable r p := by
    intro ps r bp a hm _ ha
    have := List.all_eq_true.mp k4 _ hm
    simp only [decide_eq_true_eq] at this
    obtain ⟨rfl, rfl⟩ := this.2 ha
    exact ⟨by decide, exNeighbour "n4", by simp [exPeers], rfl, exUsable _⟩
  have hq : ∃ pre bp post, commandsOf exPeers exRunning m.events = pre ++ .senderForBundle exPeers exRunning bp :: post ∧
      bp.id = (Ex.bundle 5 1 20).id ∧ served (Ex.bundle 5 1 20).id "n4" (Spec.answered {} pre) = false := by
    split at k5
    · rename_i c1 c2 ps r bp post he
      simp only [decide_eq_true_eq] at k5
      obtain ⟨rfl, rfl, h1, h2⟩ := k5
      exact ⟨[c1, c2], bp, post, he, h1, h2⟩
    · cases k5
  have hw := h2.weaken fun _ h => Ex113.undisturbed_of h
  have hr : Throughout .any (fun w => Undisturbed n (Ex.bundle 5 1 20) w ∧ w.claActive = true ∧
        (∃ p, w.store.getMetadata (Ex.bundle 5 1 20).id = some p ∧ p.has .forwardPending = true ∧ p.has .deleted = false) ∧
        ((Config.parallel { Ex.cfg with parallel := true } = true) ∨ ∀ bid b', w.store.getBundle bid = some b' → ReadablePrevious b'))
      ⟨n'.log (.called .janitor), tasks' ++ [Call.janitor.prog]⟩ ⟨m, []⟩ := by
    refine h3.weaken fun w h => ?_
    obtain ⟨e1, e2, e3⟩ := exCarrying_of h
    exact ⟨e1, e2, e3, .inl rfl⟩
  exact ⟨_, n, n', m, tasks, tasks', Ex.bundle 5 1 20, _, h1, k1, Ex113.leave, hfresh, hw, hr, runsEpidemic_of k3, hmet, hq⟩

/-- Flooding names `n2` and `n4` for a bundle in the store. -/
example : ∃ (n m : Node) (tasks : List Prog) (b : Bundle) (bp : Pack) (c' : Unit) (a : Answer),
    Reaches .any ⟨Node.start Ex.cfg 946684800100, []⟩ ⟨n, tasks⟩ ∧ n.store.getBundle b.id = some b ∧ CanLeave b ∧
    Throughout .any (Undisturbed n b) ⟨n, tasks⟩ ⟨m, []⟩ ∧ bp.id = b.id ∧ flooding.request () exPeers exRunning bp = some (c', a) ∧
    .asked bp (some a) ∈ newEvents n m ∧ exNeighbour "n4" ∈ exPeers ∧ Usable exRunning (exNeighbour "n4") := by
  obtain ⟨n, tasks, m, h1, h2, h3⟩ := exists_throughout (n := Node.start Ex.cfg 946684800100)
    ([.call (.receive (Ex.bundle 5 1 20))] ++ go 4) (fun t => t) (go 80 (some (floodingAnswer exPeers exRunning)))
    (Ex113.undisturbed (Ex.bundle 5 1 20))
    (fun s m => decide (s.node.store.getBundle "b" = some (Ex.bundle 5 1 20)) &&
      (newEvents s.node m).any fun e => match e with
        | .asked bp a => decide (bp.id = "b" ∧ a = some (floodingAnswer exPeers exRunning)) | _ => false)
    (by decide +kernel)
  simp only [Bool.and_eq_true, decide_eq_true_eq] at h3
  obtain ⟨e, he, hp⟩ := List.any_eq_true.mp h3.2
  split at hp
  · rename_i bp a
    simp only [decide_eq_true_eq] at hp
    obtain ⟨e1, rfl⟩ := hp
    exact ⟨n, m, tasks, Ex.bundle 5 1 20, bp, (), _, h1, h3.1, Ex113.leave, h2.weaken fun _ h => Ex113.undisturbed_of h, e1, rfl, he,
      by simp [exPeers], exUsable _⟩
  · cases hp

end Dtn.Props
