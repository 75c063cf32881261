import Verif.Lemmas.RouterNode
import Verif.Lemmas.Spreads
import Verif.Lemmas.ProcExample
import Verif.Lemmas.SledExample
import Verif.Props.SprayNode
/-! C151: what the routers make a node do with its bundles. -/

namespace Dtn.Props
open Proc Routing Spec

/-- C151 (sink). A node with the sink router hands no bundle to a convergence layer, and takes none out of its store on the router's word. -/
theorem C151_sink {cfg : Config} {clock : Nat} {s : Sys} {sessions : List (List Cmd)} (run : EitherStore cfg clock s)
    (router : RoutedBy (fun cmds => (Routing.Task.run sink { core := some () } cmds).log) sessions s.node.events) :
    (∀ t, .sending t ∉ s.node.events) ∧ ∀ bid bp a, .removed bid (.router bp a) ∉ s.node.events := by
  have answers : ∀ bp a, .asked bp (some a) ∈ s.node.events → a = { clas := [], delete := false } := by
    intro bp a h
    obtain ⟨cmds, -, ps, r, h⟩ := asked_history router h
    rcases task_answer sink cmds _ h with h | ⟨-, ps, r, bp, x, x', -, h⟩
    · simp at h
    · simp [sink] at h; exact h.symm
  obtain ⟨g, -⟩ := either_good run
  refine ⟨fun t ht => ?_, fun bid bp a hm => ?_⟩
  · obtain ⟨bp, a, h1, -, h2⟩ := g.named ht
    rw [answers bp a h1] at h2
    cases h2
  · obtain ⟨l, r, hs⟩ := List.append_of_mem hm
    obtain ⟨-, h1, h2, -⟩ := g.removed _ _ _ _ hs
    rw [answers bp a (by rw [hs]; exact List.mem_append_left _ h2)] at h1
    cases h1

/-- C151 (flooding). A node with the flooding router hands bundles only to neighbours that could be used when the router was asked,
and takes no bundle out of its store on the router's word. -/
theorem C151_flooding {cfg : Config} {clock : Nat} {s : Sys} {sessions : List (List Cmd)} (run : EitherStore cfg clock s)
    (router : RoutedBy (fun cmds => (Routing.Task.run flooding { core := some () } cmds).log) sessions s.node.events) :
    (∀ t, .sending t ∈ s.node.events → AmongNeighbours sessions t.stored.id t.to) ∧
    ∀ bid bp a, .removed bid (.router bp a) ∉ s.node.events := by
  have answers : ∀ bp a, .asked bp (some a) ∈ s.node.events → a.delete = false ∧
      ∀ x ∈ a.clas, AmongNeighbours sessions bp.id x := by
    intro bp a h
    obtain ⟨cmds, hc, ps, r, h⟩ := asked_history router h
    rcases task_answer flooding cmds _ h with h | ⟨hm, ps', r', bp', x, x', he, h⟩
    · simp at h
    · cases he
      simp only [flooding, Option.some.injEq, Prod.mk.injEq, true_and] at h
      subst h
      refine ⟨rfl, fun y hy => ?_⟩
      obtain ⟨p, hp, hf⟩ := List.mem_filterMap.mp hy
      exact ⟨cmds, hc, _, _, bp, hm, rfl, p, hp, Peer.firstCla_sendsTo hf⟩
  obtain ⟨g, -⟩ := either_good run
  refine ⟨fun t ht => ?_, fun bid bp a hm => ?_⟩
  · obtain ⟨bp, a, h1, h2, h3⟩ := g.named ht
    exact h2 ▸ (answers bp a h1).2 _ h3
  · obtain ⟨l, r, hs⟩ := List.append_of_mem hm
    obtain ⟨-, h1, h2, -⟩ := g.removed _ _ _ _ hs
    rw [(answers bp a (by rw [hs]; exact List.mem_append_left _ h2)).1] at h1
    cases h1

/-- What holds for every router that asks for deletion only when it names the destination alone. -/
theorem handed_over {cfg : Config} {clock : Nat} {s : Sys} {sessions : List (List Cmd)} (run : EitherStore cfg clock s)
    (answers : ∀ bp a, .asked bp (some a) ∈ s.node.events →
      (∀ x ∈ a.clas, AmongNeighbours sessions bp.id x) ∧
      (a.delete = true → ∃ x, a.clas = [x] ∧ bp.destination.node = some (x.nextHop.node.getD ""))) :
    (∀ t, .sending t ∈ s.node.events → AmongNeighbours sessions t.stored.id t.to) ∧
    ∀ before after bid bp a, s.node.events = before ++ .removed bid (.router bp a) :: after → bp.id = bid ∧
      ∃ t, .outcome t true ∈ before ∧ t.stored.id = bid ∧ bp.destination.node = some (t.to.nextHop.node.getD "") := by
  obtain ⟨g, -⟩ := either_good run
  refine ⟨fun t ht => ?_, fun before after bid bp a hs => ?_⟩
  · obtain ⟨bp, a, h1, h2, h3⟩ := g.named ht
    exact h2 ▸ (answers bp a h1).1 _ h3
  · obtain ⟨h0, h1, h2, h3⟩ := g.removed _ _ _ _ hs
    obtain ⟨x, hx, hd⟩ := (answers bp a (by rw [hs]; exact List.mem_append_left _ h2)).2 h1
    rw [hx] at h3
    rcases h3 with h3 | ⟨t, k1, k2, k3⟩
    · cases h3
    · rw [List.mem_singleton] at k3
      exact ⟨h0, t, k1, k2, by rw [k3]; exact hd⟩

/-- C151 (epidemic). A node with epidemic routing hands bundles only to neighbours that could be used when the router was asked, and takes
a bundle out of its store on the router's word only after a copy of it was transferred to its destination. -/
theorem C151_epidemic {cfg : Config} {clock : Nat} {s : Sys} {sessions : List (List Cmd)} (run : EitherStore cfg clock s)
    (router : RoutedBy (answered {}) sessions s.node.events) :
    (∀ t, .sending t ∈ s.node.events → AmongNeighbours sessions t.stored.id t.to) ∧
    ∀ before after bid bp a, s.node.events = before ++ .removed bid (.router bp a) :: after → bp.id = bid ∧
      ∃ t, .outcome t true ∈ before ∧ t.stored.id = bid ∧ bp.destination.node = some (t.to.nextHop.node.getD "") := by
  refine handed_over run fun bp a h => ?_
  obtain ⟨cmds, hc, ps, r, h⟩ := asked_history router h
  obtain ⟨hm, c, c', ha⟩ := epidemic_history cmds {} h
  obtain ⟨h1, h2⟩ := epidemic_loop bp r ps c [] ha
  refine ⟨fun x hx => ?_, fun hd => ?_⟩
  · obtain ⟨p, hp, hs⟩ := (h1 x hx).resolve_left (by simp)
    exact ⟨cmds, hc, _, _, bp, hm, rfl, p, hp, hs⟩
  · obtain ⟨p, -, x, k1, k2, k3⟩ := h2 hd
    exact ⟨x, k3, by rw [k1, k2.1]; rfl⟩

/-- C151 (spray and wait). The same with spray and wait routing. -/
theorem C151_spray {cfg : Config} {clock : Nat} {s : Sys} {sessions : List (List Cmd)} {l : Nat} {localNode : String}
    (run : EitherStore cfg clock s)
    (router : RoutedBy (fun cmds => ((sprayStart l localNode).run spray cmds).log) sessions s.node.events) :
    (∀ t, .sending t ∈ s.node.events → AmongNeighbours sessions t.stored.id t.to) ∧
    ∀ before after bid bp a, s.node.events = before ++ .removed bid (.router bp a) :: after → bp.id = bid ∧
      ∃ t, .outcome t true ∈ before ∧ t.stored.id = bid ∧ bp.destination.node = some (t.to.nextHop.node.getD "") := by
  refine handed_over run fun bp a h => ?_
  obtain ⟨cmds, hc, ps, r, h⟩ := asked_history router h
  obtain ⟨h1, h2⟩ := C35_spray_answers l localNode cmds ps r bp a h
  have hm : .senderForBundle ps r bp ∈ cmds := by
    rcases task_answer spray cmds _ h with h | ⟨h, -⟩
    · simp [sprayStart] at h
    · exact h
  refine ⟨fun x hx => ?_, fun hd => ?_⟩
  · obtain ⟨p, hp, hs⟩ := h2 x hx
    exact ⟨cmds, hc, _, _, bp, hm, rfl, p, hp, hs⟩
  · obtain ⟨p, -, x, k1, k2, k3⟩ := h1 hd
    exact ⟨x, k3, by rw [k1, k2.1]; rfl⟩

/-- C151 (static routing). A node with static routing hands a bundle only to the neighbour of the first route that applied when the router
was asked, and takes a bundle out of its store on the router's word only after a copy of it was transferred along such a route, and
never if it is for a group. -/
theorem C151_static {cfg : Config} {clock : Nat} {s : Sys} {glob : String → String → Bool} {file : Option (List (List Char))}
    {sessions : List (List StaticRouting.Op)} (run : EitherStore cfg clock s)
    (router : RoutedByFile glob file sessions s.node.events) :
    (∀ t, .sending t ∈ s.node.events → ∃ bp, bp.id = t.stored.id ∧ AlongRoute glob file sessions bp t.to) ∧
    ∀ before after bid bp a, s.node.events = before ++ .removed bid (.router bp a) :: after → bp.id = bid ∧
      bp.destination.isNonSingleton = false ∧
      ∃ t, .outcome t true ∈ before ∧ t.stored.id = bid ∧ AlongRoute glob file sessions bp t.to := by
  obtain ⟨g, -⟩ := either_good run
  refine ⟨fun t ht => ?_, fun before after bid bp a hs => ?_⟩
  · obtain ⟨bp, a, h1, h2, h3⟩ := g.named ht
    rcases static_named router h1 with ⟨h, -⟩ | ⟨x, rfl, h⟩
    · rw [h] at h3; cases h3
    · rw [List.mem_singleton] at h3
      exact ⟨bp, h2, h3 ▸ h⟩
  · obtain ⟨h0, h1, h2, h3⟩ := g.removed _ _ _ _ hs
    rcases static_named router (bp := bp) (a := a) (by rw [hs]; exact List.mem_append_left _ h2) with ⟨-, h⟩ | ⟨x, rfl, h⟩
    · rw [h] at h1; cases h1
    · rcases h3 with h3 | ⟨t, k1, k2, k3⟩
      · cases h3
      · rw [List.mem_singleton] at k3
        exact ⟨h0, by simpa using h1, t, k1, k2, k3 ▸ h⟩

/-- With the sink router, a bundle comes in and the router is asked what to do with it. -/
example : ∃ s sessions, EitherStore Ex.cfg 946684800100 s ∧
    RoutedBy (fun cmds => (Routing.Task.run sink { core := some () } cmds).log) sessions s.node.events ∧
    ∃ bp a, .asked bp (some a) ∈ s.node.events := by
  obtain ⟨s, hs, hp⟩ := exists_run (n := Node.start Ex.cfg 946684800100)
    ([.cla true, .call (.receive (Ex.bundle 5 1 20))] ++ go 60 (some { clas := [], delete := false }))
    (fun s => decide ((Routing.Task.run sink { core := some () } (commandsOf exPeers exRunning s.node.events)).log.filterMap routerTalk =
        s.node.events.filterMap nodeTalk) &&
      s.node.events.any fun e => match e with | .asked _ (some _) => true | _ => false) (by decide +kernel)
  simp only [Bool.and_eq_true, decide_eq_true_eq] at hp
  refine ⟨s, [_], .inl hs, by simpa [RoutedBy, TalksTo] using hp.1, ?_⟩
  obtain ⟨e, he, h⟩ := List.any_eq_true.mp hp.2
  split at h
  · exact ⟨_, _, he⟩
  · cases h

/-- With flooding, a bundle is sent to the one neighbour `n4`. -/
example : ∃ s sessions, EitherStore Ex.cfg 946684800100 s ∧
    RoutedBy (fun cmds => (Routing.Task.run flooding { core := some () } cmds).log) sessions s.node.events ∧
    ∃ t, .sending t ∈ s.node.events ∧ t.to.nextHop = .dtn "n4" "" := by
  obtain ⟨s, hs, hp⟩ := exists_run (n := Node.start Ex.cfg 946684800100)
    ([.cla true, .call (.receive (Ex.bundle 5 1 20))] ++ go 60 (some exToN4))
    (fun s => decide ((Routing.Task.run flooding { core := some () } (commandsOf [exNeighbour "n4"] exRunning s.node.events)).log.filterMap
        routerTalk = s.node.events.filterMap nodeTalk) &&
      Ex.hasSending (fun t => decide (t.to.nextHop = .dtn "n4" "")) s) (by decide +kernel)
  simp only [Bool.and_eq_true, decide_eq_true_eq] at hp
  refine ⟨s, [_], .inl hs, by simpa [RoutedBy, TalksTo] using hp.1, ?_⟩
  obtain ⟨t, ht, h⟩ := Ex.sending_of hp.2
  exact ⟨t, ht, of_decide_eq_true h⟩

/-- With epidemic routing and the persistent store, a bundle is sent to `n4`; after a restart it is sent to its destination `n3` and removed. -/
example : ∃ s sessions, EitherStore Ex.cfg 946684800100 s ∧ RoutedBy (answered {}) sessions s.node.events ∧ sessions.length = 2 ∧
    (∃ t, .sending t ∈ s.node.events ∧ t.to.nextHop = .dtn "n4" "") ∧ ∃ bp a, .removed "b" (.router bp a) ∈ s.node.events := by
  obtain ⟨s, s', h1, h2, hp⟩ := OnSled.exists_moves (n := Node.start Ex.cfg 946684800100)
    ([.cla true, .call (.receive (Ex.bundle 5 1 20))] ++ OnSled.going 60 (some exToN4))
    ([.restart 946684800400, .cla true, .call .janitor] ++ OnSled.going 80 (some exToN3)) (fun s => s) (fun s s' =>
      decide (([commandsOf [exNeighbour "n4"] exRunning s.node.events,
          commandsOf [exNeighbour "n3"] exRunning (s'.node.events.drop s.node.events.length)].map (answered {})).flatten.filterMap routerTalk =
        s'.node.events.filterMap nodeTalk) &&
      (Ex.hasSending (fun t => decide (t.to.nextHop = .dtn "n4" "")) s' &&
      Ex.hasRemoved (fun b c => match c with | .router _ _ => decide (b = "b") | _ => false) s')) (by decide +kernel)
  simp only [Bool.and_eq_true, decide_eq_true_eq] at hp
  refine ⟨s', _, .inr (h1.join h2), hp.1, rfl, ?_, ?_⟩
  · obtain ⟨t, ht, h⟩ := Ex.sending_of hp.2.1
    exact ⟨t, ht, of_decide_eq_true h⟩
  · obtain ⟨b, c, h, hp⟩ := Ex.removed_of hp.2.2
    cases c <;> simp at hp
    subst hp
    exact ⟨_, _, h⟩

/-- With spray and wait, a bundle is sent to its destination and removed. -/
example : ∃ s sessions, EitherStore Ex.cfg 946684800100 s ∧
    RoutedBy (fun cmds => ((sprayStart 7 "dtn://n1/").run spray cmds).log) sessions s.node.events ∧
    ∃ bp a, .removed "b" (.router bp a) ∈ s.node.events := by
  obtain ⟨s, hs, hp⟩ := exists_run (n := Node.start Ex.cfg 946684800100)
    ([.cla true, .call (.receive (Ex.bundle 5 1 20))] ++ go 60 (some exToN3))
    (fun s => decide (((sprayStart 7 "dtn://n1/").run spray (commandsOf [exNeighbour "n4", exNeighbour "n3"] exRunning
        s.node.events)).log.filterMap routerTalk = s.node.events.filterMap nodeTalk) &&
      Ex.hasRemoved (fun b c => match c with | .router _ _ => decide (b = "b") | _ => false) s) (by decide +kernel)
  simp only [Bool.and_eq_true, decide_eq_true_eq] at hp
  refine ⟨s, [_], .inl hs, by simpa [RoutedBy, TalksTo] using hp.1, ?_⟩
  obtain ⟨b, c, h, hp⟩ := Ex.removed_of hp.2
  cases c <;> simp at hp
  subst hp
  exact ⟨_, _, h⟩

/-- With static routing, a bundle is sent along the route to `n4` and removed. -/
example : ∃ s sessions, EitherStore Ex.cfg 946684800100 s ∧
    RoutedByFile exGlob (some ["10 * * dtn://n4/".toList]) sessions s.node.events ∧
    (∃ t, .sending t ∈ s.node.events ∧ t.to.nextHop = .dtn "n4" "") ∧ ∃ bp a, .removed "b" (.router bp a) ∈ s.node.events := by
  obtain ⟨s, hs, hp⟩ := exists_run (n := Node.start Ex.cfg 946684800100)
    ([.cla true, .call (.receive (Ex.bundle 5 1 20))] ++ go 60 (some { exToN4 with delete := true }))
    (fun s => decide ((StaticRouting.run exGlob (StaticRouting.start (some ["10 * * dtn://n4/".toList]))
        (s.node.events.filterMap fun e => match e with | .asked bp _ => some (.request exPeers exRunning bp) | _ => none)).log =
        questions s.node.events) &&
      (Ex.hasSending (fun t => decide (t.to.nextHop = .dtn "n4" "")) s &&
      Ex.hasRemoved (fun b c => match c with | .router _ _ => decide (b = "b") | _ => false) s)) (by decide +kernel)
  simp only [Bool.and_eq_true, decide_eq_true_eq] at hp
  refine ⟨s, [_], .inl hs, by simpa [RoutedByFile] using hp.1, ?_, ?_⟩
  · obtain ⟨t, ht, h⟩ := Ex.sending_of hp.2.1
    exact ⟨t, ht, of_decide_eq_true h⟩
  · obtain ⟨b, c, h, hp⟩ := Ex.removed_of hp.2.2
    cases c <;> simp at hp
    subst hp
    exact ⟨_, _, h⟩

end Dtn.Props
