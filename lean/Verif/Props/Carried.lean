import Verif.Lemmas.Carried
import Verif.Lemmas.CarriedExample
/-! C113: what the router decides is carried out, whatever else the node does at the same time. -/

namespace Dtn.Props
open Spec Proc

/-- C113 (transfers). Whenever the router names a neighbour for a bundle in the store, a copy is handed to the convergence
layer for this neighbour before the node comes to rest, if the bundle stays in the store and alive. Other calls may be going on
at the same time, in any order. -/
theorem C113_carried_out {cfg : Config} {clock : Nat} {n m : Node} {tasks : List Prog} {b : Bundle} {bp : Pack} {x : Routing.Answer} {s : Sender}
    (before : Reaches .any ⟨Node.start cfg clock, []⟩ ⟨n, tasks⟩) (stored : n.store.getBundle b.id = some b) (leave : CanLeave b)
    (run : Throughout .any (Undisturbed n b) ⟨n, tasks⟩ ⟨m, []⟩) (asked : .asked bp (some x) ∈ newEvents n m) (about : bp.id = b.id)
    (named : s ∈ x.clas) : HandedOver cfg.hostEid n m b s := by
  have run' : Throughout .any (Leaving n cfg.hostEid b) ⟨n, tasks⟩ ⟨m, []⟩ := by
    refine run.add fun u hu i => ?_
    obtain ⟨bu, -, -⟩ := any_good before hu
    refine ⟨bu.past, ?_, ?_, i.2.2⟩
    · rw [(good_always (before.join hu)).2]
    · rcases bu.kept b.id (by rw [stored]; simp) with h | ⟨c, hc⟩
      · cases hb : u.node.store.getBundle b.id with
        | none => exact absurd hb h
        | some b' => rw [i.2.1 b' hb]
      · exact absurd hc (i.1 c)
  obtain ⟨u, v, h1, h2, h3, h4, k, hk⟩ := run'.asked before asked
  have bv := before.join (h1.reaches.step h2)
  have := Will.ended (D := Sent n cfg.hostEid b s) (fun _ _ hb h => h.mono hb) bv h3
    (.inr ⟨_, hk, will_answered (fun _ h => h) leave about named⟩)
  rcases this with ⟨-, t, ht, k1, k2, k3⟩ | ⟨p, hp, -⟩
  · subst k2
    exact ⟨t, ht, k1, rfl, k3.passedOn, k3.previousNode, (Ready.copied ⟨leave.hops, leave.previous, leave.age⟩ k3).2⟩
  · cases hp

/-- A neighbour is named while another bundle is being received. -/
example : ∃ (n m : Node) (tasks : List Prog) (b : Bundle) (bp : Pack) (x : Routing.Answer),
    Reaches .any ⟨Node.start Ex.cfg 946684800100, []⟩ ⟨n, tasks⟩ ∧ n.store.getBundle b.id = some b ∧ CanLeave b ∧
    Throughout .any (Undisturbed n b) ⟨n, tasks⟩ ⟨m, []⟩ ∧ .asked bp (some x) ∈ newEvents n m ∧ bp.id = b.id ∧ Ex.sender ∈ x.clas := by
  obtain ⟨n, tasks, m, h1, h2, h3⟩ := exists_throughout (n := Node.start Ex.cfg 946684800100)
    ([.call (.receive (Ex.bundle 5 1 20))] ++ go 4 ++ [.call (.receive Ex113.other)] ++ go 2) (fun t => t)
    (List.replicate 8 (.run 1 (some (Ex.answer false)) true "r") ++ go 60 (some (Ex.answer false)))
    (Ex113.undisturbed (Ex.bundle 5 1 20)) (fun s m => decide (s.node.store.getBundle "b" = some (Ex.bundle 5 1 20)) && Ex113.asked s.node m "b")
    (by decide +kernel)
  simp only [Bool.and_eq_true, decide_eq_true_eq] at h3
  obtain ⟨bp, x, k1, k2, k3⟩ := Ex113.asked_of h3.2
  exact ⟨n, m, tasks, Ex.bundle 5 1 20, bp, x, h1, h3.1, Ex113.leave, h2.weaken fun _ h => Ex113.undisturbed_of h, k1, k2, k3⟩

/-- The answer of the router is carried out from some point on. -/
theorem routed_from {cfg : Config} {clock : Nat} {n m : Node} {v : Sys} {b : Bundle} (before : Reaches .any ⟨Node.start cfg clock, []⟩ v)
    (past : n.events <+: v.node.events) (stored : v.node.store.getBundle b.id ≠ none) (leave : CanLeave b)
    (run : Throughout .any (Undisturbed n b) v ⟨m, []⟩) (asked : AskedFor v.node b.id m) : Routed cfg.hostEid n m b := by
  obtain ⟨hp, bp, a, hid, ha⟩ := asked
  have run' : Throughout .any (Undisturbed v.node b) v ⟨m, []⟩ := by
    refine run.add fun u hu i => ⟨fun c hc => i.1 c ?_, i.2⟩
    exact newEvents_left past (any_good before hu).1.past hc
  have st : v.node.store.getBundle b.id = some b := by
    cases hb : v.node.store.getBundle b.id with
    | none => exact absurd hb stored
    | some b' => rw [run.head.2.1 b' hb]
  refine ⟨bp, a, hid, newEvents_left past hp ha, ?_⟩
  rintro x rfl s hs
  obtain ⟨t, ht, h⟩ := C113_carried_out (n := v.node) (tasks := v.pool) before st leave run' ha hid hs
  exact ⟨t, newEvents_left past hp ht, h⟩

/-- C113 (received bundles). A received bundle for another node that is not known yet is taken to the router, and copies are
handed over for all neighbours it names, if the bundle stays in the store and alive. -/
theorem C113_received {cfg : Config} {clock : Nat} {n m : Node} {tasks : List Prog} {b : Bundle}
    (before : Reaches .any ⟨Node.start cfg clock, []⟩ ⟨n, tasks⟩) (leave : CanLeave b)
    (blocks : ∀ c ∈ b.canonicals, UnknownBlock c → c.flags.remove = false ∧ c.flags.deleteBundle = false)
    (remote : b.primary.destination.nodeId ≠ cfg.hostEid.nodeId)
    (run : Throughout .any (fun w => Undisturbed n b w ∧ b.primary.destination ∉ w.agents.eids)
      ⟨n.log (.called (.receive b)), tasks ++ [(Call.receive b).prog]⟩ ⟨m, []⟩) :
    Routed cfg.hostEid n m b ∨ .duplicate b ∈ newEvents n m := by
  have before' : Reaches .any ⟨Node.start cfg clock, []⟩ ⟨n.log (.called (.receive b)), tasks ++ [(Call.receive b).prog]⟩ :=
    before.step (.call _ _ _ trivial)
  have past1 : n.events <+: (n.log (.called (.receive b))).events := List.prefix_append _ _
  obtain ⟨u, v, h1, h2, h3, h4, h5⟩ := run.acts (f := fun n => n.addIfUnknown b) (List.mem_append_right _ (List.mem_singleton.mpr rfl))
  have bu := before'.join h1.reaches
  have bv := before'.join (h1.reaches.step h2)
  have pu : n.events <+: u.node.events := past1.trans (any_good before' h1.reaches).1.past
  have pv : n.events <+: v.node.events := past1.trans (any_good before' (h1.reaches.step h2)).1.past
  have pm : v.node.events <+: m.events := (any_good bv h3.reaches).1.past
  by_cases hadd : (u.node.store.addIfUnknown u.node.clock b).2 = true
  · left
    rw [if_pos hadd] at h5
    have hst : v.node.store.getBundle b.id ≠ none := by
      rw [h4]
      unfold Node.addIfUnknown
      rw [if_pos hadd]
      unfold MemStore.addIfUnknown at hadd ⊢
      split at hadd
      · rename_i hh
        simp only [hh, if_true, Node.log]
        rw [MemStore.getBundle_push]; simp
      · cases hadd
    have run3 : Throughout .any (Passing v.node b) v ⟨m, []⟩ := by
      refine h3.add fun w hw i => ?_
      obtain ⟨b3, g3, -⟩ := any_good bv hw
      refine ⟨⟨g3, b3.past, fun c hc => i.1.1 c (newEvents_left pv b3.past hc)⟩, ?_, i.2⟩
      rw [(good_always (bv.join hw)).2]; exact remote
    have := Will.ended (D := AskedFor v.node b.id) (fun _ _ hb h => h.mono hb) bv run3
      (.inr ⟨_, h5, will_receive (fun _ => rfl) (f := fun st => { st with incoming := st.incoming + 1 }) (fun _ h => h.toHeld)
        (will_dispatch (fun _ h => h) fun _ h => h) List.prefix_rfl blocks hst⟩)
    rcases this with h | ⟨p, hp, -⟩
    · exact routed_from bv pv hst leave (h3.weaken fun _ i => i.1) h
    · cases hp
  · right
    have he : v.node.events = u.node.events ++ [.duplicate b] := by
      rw [h4]; unfold Node.addIfUnknown; rw [if_neg hadd]; rfl
    exact newEvents_right pv pm (newEvents_left pu ⟨_, he.symm⟩ (by rw [newEvents_eq he]; simp))

/-- A bundle is received while another one is being processed. -/
example : ∃ (n m : Node) (tasks : List Prog) (b : Bundle),
    Reaches .any ⟨Node.start Ex.cfg 946684800100, []⟩ ⟨n, tasks⟩ ∧ tasks ≠ [] ∧ CanLeave b ∧
    (∀ c ∈ b.canonicals, UnknownBlock c → c.flags.remove = false ∧ c.flags.deleteBundle = false) ∧
    b.primary.destination.nodeId ≠ Ex.cfg.hostEid.nodeId ∧
    Throughout .any (fun w => Undisturbed n b w ∧ b.primary.destination ∉ w.agents.eids)
      ⟨n.log (.called (.receive b)), tasks ++ [(Call.receive b).prog]⟩ ⟨m, []⟩ ∧ .duplicate b ∉ newEvents n m := by
  obtain ⟨n, tasks, m, h1, h2, h3⟩ := exists_throughout (n := Node.start Ex.cfg 946684800100)
    ([.register (.dtn "n1" "x"), .call (.receive Ex113.other)] ++ go 4) (Ex113.calling (.receive (Ex.bundle 5 1 20)))
    (List.replicate 7 (.run 1 (some (Ex.answer false)) true "r") ++ go 80 (some (Ex.answer false)))
    (fun n w => Ex113.undisturbed (Ex.bundle 5 1 20) n w && decide (Ex.primary.destination ∉ w.agents.eids))
    (fun s m => !s.pool.isEmpty && (newEvents s.node m).all fun e => match e with | .duplicate _ => false | _ => true) (by decide +kernel)
  simp only [Bool.and_eq_true] at h3
  refine ⟨n, m, tasks, _, h1, by simpa using h3.1, Ex113.leave, by unfold UnknownBlock; decide +kernel, by decide, h2.weaken ?_, ?_⟩
  · intro w h
    simp only [Bool.and_eq_true, decide_eq_true_eq] at h
    exact ⟨Ex113.undisturbed_of h.1, h.2⟩
  · intro h
    cases List.all_eq_true.mp h3.2 _ h

/-- C113 (submitted bundles). The same for bundles that applications send, if their source is anonymous or registered. -/
theorem C113_submitted {cfg : Config} {clock : Nat} {n m : Node} {tasks : List Prog} {b : Bundle}
    (before : Reaches .any ⟨Node.start cfg clock, []⟩ ⟨n, tasks⟩) (leave : CanLeave b)
    (remote : b.primary.destination.nodeId ≠ cfg.hostEid.nodeId)
    (run : Throughout .any (fun w => Undisturbed n b w ∧ b.primary.destination ∉ w.agents.eids ∧
      (b.primary.source = .none ∨ b.primary.source ∈ w.agents.eids))
      ⟨n.log (.called (.send b)), tasks ++ [(Call.send b).prog]⟩ ⟨m, []⟩) :
    Routed cfg.hostEid n m b := by
  have before' : Reaches .any ⟨Node.start cfg clock, []⟩ ⟨n.log (.called (.send b)), tasks ++ [(Call.send b).prog]⟩ :=
    before.step (.call _ _ _ trivial)
  have past1 : n.events <+: (n.log (.called (.send b))).events := List.prefix_append _ _
  obtain ⟨u, v, h1, h2, h3, h4, h5⟩ := run.acts (f := fun n => n.push b) (List.mem_append_right _ (List.mem_singleton.mpr rfl))
  have bv := before'.join (h1.reaches.step h2)
  have pv : n.events <+: v.node.events := past1.trans (any_good before' (h1.reaches.step h2)).1.past
  have hst : v.node.store.getBundle b.id ≠ none := by
    rw [h4]; unfold Node.push; rw [MemStore.getBundle_push]; simp
  have run3 : Throughout .any (fun w => Passing v.node b w ∧ (b.primary.source = .none ∨ b.primary.source ∈ w.agents.eids)) v ⟨m, []⟩ := by
    refine h3.add fun w hw i => ?_
    obtain ⟨b3, g3, -⟩ := any_good bv hw
    refine ⟨⟨⟨g3, b3.past, fun c hc => i.1.1 c (newEvents_left pv b3.past hc)⟩, ?_, i.2.1⟩, i.2.2⟩
    rw [(good_always (bv.join hw)).2]; exact remote
  have := Will.ended (D := AskedFor v.node b.id) (fun _ _ hb h => h.mono hb) bv run3
    (.inr ⟨_, h5, will_send (fun _ h => h.1.toHeld) (will_dispatch (fun _ h => h.1) fun _ h => h) (fun _ h => h.2) List.prefix_rfl hst⟩)
  rcases this with h | ⟨p, hp, -⟩
  · exact routed_from bv pv hst leave (h3.weaken fun _ i => i.1) h
  · cases hp

/-- A bundle is sent while another one is being processed. -/
example : ∃ (n m : Node) (tasks : List Prog) (b : Bundle),
    Reaches .any ⟨Node.start Ex.cfg 946684800100, []⟩ ⟨n, tasks⟩ ∧ tasks ≠ [] ∧ CanLeave b ∧
    b.primary.destination.nodeId ≠ Ex.cfg.hostEid.nodeId ∧
    Throughout .any (fun w => Undisturbed n b w ∧ b.primary.destination ∉ w.agents.eids ∧
      (b.primary.source = .none ∨ b.primary.source ∈ w.agents.eids))
      ⟨n.log (.called (.send b)), tasks ++ [(Call.send b).prog]⟩ ⟨m, []⟩ := by
  obtain ⟨n, tasks, m, h1, h2, h3⟩ := exists_throughout (n := Node.start Ex.cfg 946684800100)
    ([.register (.dtn "n2" "a"), .call (.receive Ex113.other)] ++ go 4) (Ex113.calling (.send (Ex.bundle 5 1 20)))
    (List.replicate 7 (.run 1 (some (Ex.answer false)) true "r") ++ go 80 (some (Ex.answer false)))
    (fun n w => Ex113.undisturbed (Ex.bundle 5 1 20) n w && decide (Ex.primary.destination ∉ w.agents.eids) &&
      decide (Ex.primary.source ∈ w.agents.eids))
    (fun s _ => !s.pool.isEmpty) (by decide +kernel)
  refine ⟨n, m, tasks, _, h1, by simpa using h3, Ex113.leave, by decide, h2.weaken ?_⟩
  intro w h
  simp only [Bool.and_eq_true, decide_eq_true_eq] at h
  exact ⟨Ex113.undisturbed_of h.1.1, h.1.2, .inr h.2⟩

/-- C113 (waiting bundles). When the janitor runs, every bundle that waits to be forwarded is taken to the router, and copies are
handed over for all neighbours it names, if the bundle goes on waiting, stays in the store and alive, and there is a convergence
layer. If bundles are not processed in parallel, this needs that the previous node blocks of all stored bundles can be read,
since the processing of one that cannot be ends the janitor run. -/
theorem C113_waiting {cfg : Config} {clock : Nat} {n m : Node} {tasks : List Prog} {b : Bundle}
    (before : Reaches .any ⟨Node.start cfg clock, []⟩ ⟨n, tasks⟩) (stored : n.store.getBundle b.id = some b) (leave : CanLeave b)
    (run : Throughout .any (fun w => Undisturbed n b w ∧ w.claActive = true ∧
        (∃ p, w.store.getMetadata b.id = some p ∧ p.has .forwardPending = true ∧ p.has .deleted = false) ∧
        (cfg.parallel = true ∨ ∀ bid b', w.store.getBundle bid = some b' → ReadablePrevious b'))
      ⟨n.log (.called .janitor), tasks ++ [Call.janitor.prog]⟩ ⟨m, []⟩) :
    Routed cfg.hostEid n m b := by
  have before' : Reaches .any ⟨Node.start cfg clock, []⟩ ⟨n.log (.called .janitor), tasks ++ [Call.janitor.prog]⟩ :=
    before.step (.call _ _ _ trivial)
  have past1 : n.events <+: (n.log (.called .janitor)).events := List.prefix_append _ _
  have hst : (n.log (.called .janitor)).store.getBundle b.id ≠ none := by
    show n.store.getBundle b.id ≠ none
    rw [stored]; simp
  have run3 : Throughout .any (fun w => Pending (n.log (.called .janitor)) b.id w ∧ w.cfg.parallel = cfg.parallel)
      ⟨n.log (.called .janitor), tasks ++ [Call.janitor.prog]⟩ ⟨m, []⟩ := by
    refine run.add fun w hw i => ?_
    obtain ⟨b3, g3, -⟩ := any_good before' hw
    have hc := (good_always (before'.join hw)).2
    exact ⟨⟨g3, b3.past, i.2.1, i.2.2.1, by rw [hc]; exact i.2.2.2⟩, by rw [hc]⟩
  have := Will.ended (D := AskedFor (n.log (.called .janitor)) b.id) (fun _ _ hb h => h.mono hb) before' run3
    (.inr ⟨processBundles, List.mem_append_right _ (List.mem_singleton.mpr rfl), will_janitor (fun _ h => h.1) (fun _ h => h.2) fun _ h => h⟩)
  rcases this with h | ⟨p, hp, -⟩
  · exact routed_from before' past1 hst leave (run.weaken fun _ i => i.1) h
  · cases hp

/-- The janitor runs, with a bundle waiting and another one being received, on a node that processes bundles in parallel. -/
example : ∃ (cfg : Config) (n m : Node) (tasks : List Prog) (b : Bundle),
    Reaches .any ⟨Node.start cfg 946684800100, []⟩ ⟨n, tasks⟩ ∧ n.store.getBundle b.id = some b ∧ CanLeave b ∧
    Throughout .any (fun w => Undisturbed n b w ∧ w.claActive = true ∧
        (∃ p, w.store.getMetadata b.id = some p ∧ p.has .forwardPending = true ∧ p.has .deleted = false) ∧
        (cfg.parallel = true ∨ ∀ bid b', w.store.getBundle bid = some b' → ReadablePrevious b'))
      ⟨n.log (.called .janitor), tasks ++ [Call.janitor.prog]⟩ ⟨m, []⟩ ∧
    ∃ bp x, .asked bp (some x) ∈ newEvents n m ∧ bp.id = b.id ∧ Ex.sender ∈ x.clas := by
  obtain ⟨n, tasks, m, h1, h2, h3⟩ := exists_throughout (n := Node.start { Ex.cfg with parallel := true } 946684800100)
    ([.cla true, .call (.receive (Ex.bundle 5 1 20))] ++ go 60 ++ [.call (.receive Ex113.other)] ++ go 1) (Ex113.calling .janitor)
    (List.replicate 9 (.run 1 none true "r") ++ go 140 (some (Ex.answer false)))
    (fun n w => Ex113.undisturbed (Ex.bundle 5 1 20) n w && w.claActive &&
      (w.store.getMetadata "b").any fun p => p.has .forwardPending && !p.has .deleted)
    (fun s m => decide (s.node.store.getBundle "b" = some (Ex.bundle 5 1 20)) && Ex113.asked s.node m "b") (by decide +kernel)
  simp only [Bool.and_eq_true, decide_eq_true_eq] at h3
  obtain ⟨bp, x, k⟩ := Ex113.asked_of h3.2
  refine ⟨_, n, m, tasks, Ex.bundle 5 1 20, h1, h3.1, Ex113.leave, h2.weaken ?_, bp, x, k⟩
  intro w h
  simp only [Bool.and_eq_true] at h
  refine ⟨Ex113.undisturbed_of h.1.1, h.1.2, ?_, .inl rfl⟩
  have h3 := h.2
  cases hp : w.store.getMetadata "b" with
  | none => rw [hp] at h3; cases h3
  | some p =>
    rw [hp] at h3
    simp only [Option.any_some, Bool.and_eq_true, Bool.not_eq_true'] at h3
    exact ⟨p, hp, h3⟩

end Dtn.Props
