import Verif.Lemmas.SledGiven
import Verif.Props.Given
import Verif.Props.SledNode
/-! C134: with the persistent store, bundles for applications of the node are delivered, unless the process is stopped. -/

namespace Dtn.Props
open Spec Proc OnSled

/-- C134 (queues). With the persistent store, as long as an endpoint is registered and the process is not stopped, clients fetch the
bundles that were given to it and not passed on at once, each of them once and in the order in which they were given; the others are
waiting. -/
theorem C134_queue {cfg : Config} {clock : Nat} {s t : Sys} {e : EID} (before : OnSled.Reaches ⟨Node.start cfg clock, []⟩ s)
    (run : SledThroughout (fun w => e ∈ w.agents.eids) s t) :
    waitingAt e s.node ++ queued e (newEvents s.node t.node) = fetched e (newEvents s.node t.node) ++ waitingAt e t.node := by
  obtain ⟨es, h1, h2⟩ := sled_kept before run
  rw [newEvents_eq h1]
  exact h2

/-- A bundle that is there before. -/
def earlier : Bundle := { Ex.bundle 5 1 20 with primary := { Ex.primary with bid := "d" } }

/-- After a restart an endpoint is registered, and receives two bundles; one is fetched, one is waiting. -/
example : ∃ (s t : Sys) (e : EID), OnSled.Reaches ⟨Node.start Ex.cfg 946684800100, []⟩ s ∧ SledThroughout (fun w => e ∈ w.agents.eids) s t ∧
    (fetched e (newEvents s.node t.node)).length = 1 ∧ (waitingAt e t.node).length = 1 ∧ s.node.store.bundles ≠ [] := by
  obtain ⟨n, tasks, m, h1, h2, h3⟩ := exists_sled (n := Node.start Ex.cfg 946684800100)
    ([.call (.receive earlier)] ++ going 40 ++ [.restart 946684800200, .register (.dtn "n3" "x")]) id
    ([.call (.receive (Ex.bundle 5 1 20)), .call (.receive Ex113.other)] ++ going 80 ++ [.call (.pop (.dtn "n3" "x"))] ++ going 10)
    (fun _ w => decide ((.dtn "n3" "x" : EID) ∈ w.agents.eids))
    (fun s m => decide ((fetched (.dtn "n3" "x") (newEvents s.node m)).length = 1 ∧ (waitingAt (.dtn "n3" "x") m).length = 1) &&
      !s.node.store.bundles.isEmpty) (by decide +kernel)
  simp only [Bool.and_eq_true, decide_eq_true_eq] at h3
  exact ⟨⟨n, tasks⟩, ⟨m, []⟩, _, h1, h2.weaken fun _ h => by simpa using h, h3.1.1, h3.1.2, by simpa using h3.2⟩

/-- What became of a bundle given to its endpoint. -/
theorem sled_served {cfg : Config} {clock : Nat} {n m : Node} {s : Sys} {b : Bundle} {e : Event} (before : OnSled.Reaches ⟨Node.start cfg clock, []⟩ s)
    (start : s.node = n.log e) (quiet : ∀ e' b' ch, e ≠ .delivered e' b' ch) (run : SledThroughout (Expected n b) s ⟨m, []⟩)
    (given : GivenTo n m b) : Served n m b := by
  have pm : s.node.events <+: m.events := (between before run.reaches).2.1.base.past
  have past : n.events <+: s.node.events := by rw [start]; exact List.prefix_append _ _
  obtain ⟨ch, hc'⟩ := given
  have hc : .delivered b.primary.destination b ch ∈ newEvents s.node m := by
    obtain ⟨es, he⟩ := pm
    rw [newEvents_eq he.symm]
    rw [newEvents_eq (es := e :: es) (by rw [← he, start]; simp [Node.log])] at hc'
    rcases List.mem_cons.mp hc' with h | h
    · exact absurd h.symm (quiet _ _ _)
    · exact h
  refine ⟨⟨ch, hc'⟩, ?_⟩
  cases ch with
  | some ch => exact .inl ⟨ch, hc'⟩
  | none =>
    right
    have := C134_queue before (run.weaken fun _ i => i.1)
    have hm : b ∈ fetched b.primary.destination (newEvents s.node m) ++ waitingAt b.primary.destination m := by
      rw [← this]; exact List.mem_append_right _ (mem_queued hc)
    rcases List.mem_append.mp hm with h | h
    · exact .inl (newEvents_left past pm (popped_of_fetched h))
    · exact .inr h

/-- C134 (received bundles), if the process is not stopped. With the persistent store, a received bundle for a registered endpoint is
given to that endpoint, if the node does not know its id yet, the endpoint stays registered and nobody removes the bundle from the
store first. It is then passed on to the client at once, or is fetched by it, or is waiting. Other calls may be going on at the same
time, in any order, and the process may have been stopped before.

Missing: bundles that are waiting, or on their way to the endpoint, when the process is stopped (`C129_stranded_violated`). -/
theorem C134_received_partial {cfg : Config} {clock : Nat} {n m : Node} {tasks : List Prog} {b : Bundle}
    (before : OnSled.Reaches ⟨Node.start cfg clock, []⟩ ⟨n, tasks⟩) (readable : b.isAdmin = true → HasRecord cfg b)
    (blocks : ∀ c ∈ b.canonicals, UnknownBlock c → c.flags.remove = false ∧ c.flags.deleteBundle = false)
    (fresh : n.store.getMetadata b.id ≠ none → n.store.getBundle b.id ≠ none)
    (run : SledThroughout (Expected n b) ⟨n.log (.called (.receive b)), tasks ++ [OnSled.task (.receive b)]⟩ ⟨m, []⟩) :
    Served n m b ∨ .duplicate b ∈ newEvents n m := by
  have before' : OnSled.Reaches ⟨Node.start cfg clock, []⟩ ⟨n.log (.called (.receive b)), tasks ++ [OnSled.task (.receive b)]⟩ :=
    before.step (.call _ _ _)
  have past1 : n.events <+: (n.log (.called (.receive b))).events := List.prefix_append _ _
  obtain ⟨u, v, h1, h2, h3, h4, h5⟩ := run.acts (f := fun n => added n b) (List.mem_append_right _ (List.mem_singleton.mpr rfl))
  have bv := before'.join (h1.reaches.step h2)
  have pu0 := (between before' h1.reaches).2.1.base.past
  have pu : n.events <+: u.node.events := past1.trans pu0
  have pv : n.events <+: v.node.events := past1.trans (between before' (h1.reaches.step h2)).2.1.base.past
  have pm : v.node.events <+: m.events := (between bv h3.reaches).2.1.base.past
  have puv : u.node.events <+: v.node.events := (between (before'.join h1.reaches) (.step (.refl _) h2)).2.1.base.past
  have fin := fun g => sled_served before' rfl (by simp) run g
  rcases add_eq u.node b with ⟨hg, -, -⟩ | ⟨hst, -, hl, -⟩ | ⟨hk, hb, -, hl, hr⟩
  · left
    refine fin ?_
    rcases sled_fresh before' (bid := b.id) fresh h1 with h | ⟨c, hc⟩
    · exact absurd hg.2 (h hg.1)
    · have hrem : .removed b.id c ∈ newEvents n u.node := newEvents_left past1 pu0 hc
      refine Classical.byContradiction fun hno => (h1.last.2 fun hgv => hno ?_).1 c hrem
      obtain ⟨ch, hch⟩ := hgv
      exact ⟨ch, newEvents_right pu (puv.trans pm) hch⟩
  · right
    have he : v.node.events = u.node.events ++ [.duplicate b] := by rw [h4, hl]; rfl
    exact newEvents_right pv pm (newEvents_left pu ⟨_, he.symm⟩ (by rw [newEvents_eq he]; simp))
  · left
    refine fin (Classical.byContradiction fun hno => ?_)
    dsimp only at h5
    rw [hr] at h5
    have hst : v.node.store.getBundle b.id ≠ none := by
      rw [h4, hl]
      show (u.node.store.push u.node.clock b).getBundle b.id ≠ none
      rw [MemStore.getBundle_push]; simp
    have run3 : SledThroughout (Awaited cfg n b) v ⟨m, []⟩ :=
      (h3.unless (D := Gave n b) (fun _ _ hb h => h.mono hb) bv fun h => hno h.2).add fun w hw i => by
        have b3 := (between bv hw).2.1.base
        have g3 := sled_good (bv.join hw)
        obtain ⟨k1, k2⟩ := i.1.2 fun h => i.2 ⟨pv.trans b3.past, h⟩
        exact ⟨⟨g3.1, pv.trans b3.past, k1⟩, i.1.1, k2, g3.2⟩
    have := ended (D := Gave n b) (fun _ _ hb h => h.mono hb) bv run3
      (.inr ⟨_, h5, will_received (fun _ => rfl) (f := fun st => { st with incoming := st.incoming + 1 }) (fun _ h => h.toHeld)
        (OnSled.will_give (fun _ h => h) readable) pv blocks hst⟩)
    rcases this with h | ⟨p, hp, -⟩
    · exact hno h.2
    · cases hp

/-- After a restart a bundle is received while another one is being processed, and clients fetch what there is. -/
example : ∃ (n m : Node) (tasks : List Prog) (b : Bundle),
    OnSled.Reaches ⟨Node.start Ex.cfg 946684800100, []⟩ ⟨n, tasks⟩ ∧ tasks ≠ [] ∧ (b.isAdmin = true → HasRecord Ex.cfg b) ∧
    (∀ c ∈ b.canonicals, UnknownBlock c → c.flags.remove = false ∧ c.flags.deleteBundle = false) ∧
    (n.store.getMetadata b.id ≠ none → n.store.getBundle b.id ≠ none) ∧
    SledThroughout (Expected n b) ⟨n.log (.called (.receive b)), tasks ++ [OnSled.task (.receive b)]⟩ ⟨m, []⟩ ∧
    .duplicate b ∉ newEvents n m ∧ (n.store.bundles ≠ [] ∧ ∃ b' ∈ fetched b.primary.destination (newEvents n m), b'.id = b.id) := by
  obtain ⟨n, tasks, m, h1, h2, h3⟩ := exists_sled (n := Node.start Ex.cfg 946684800100)
    ([.call (.receive earlier)] ++ going 40 ++ [.restart 946684800200, .register (.dtn "n3" "x"), .call (.receive Ex113.other)] ++ going 4)
    (fun s => ⟨s.node.log (.called (.receive (Ex.bundle 5 1 20))), s.pool ++ [OnSled.task (.receive (Ex.bundle 5 1 20))]⟩)
    (List.replicate 7 (.run 1 none true "r") ++ going 80 ++ [.call (.pop (.dtn "n3" "x")), .call (.pop (.dtn "n3" "x"))] ++ going 20)
    (Ex127.expected (Ex.bundle 5 1 20))
    (fun s m => !s.pool.isEmpty && ((newEvents s.node m).all fun e => match e with | .duplicate _ => false | _ => true) &&
      decide (s.node.store.getMetadata "b" = none) && !s.node.store.bundles.isEmpty &&
      decide (∃ b' ∈ fetched (.dtn "n3" "x") (newEvents s.node m), b'.id = "b")) (by decide +kernel)
  simp only [Bool.and_eq_true, decide_eq_true_eq] at h3
  obtain ⟨⟨⟨⟨k1, k2⟩, k3⟩, k4⟩, k5⟩ := h3
  refine ⟨n, m, tasks, Ex.bundle 5 1 20, h1, by simpa using k1, fun h => absurd h (by decide), by unfold UnknownBlock; decide +kernel,
    fun h => absurd k3 h, h2.weaken fun _ h => Ex127.expected_of h, fun h => ?_, by simpa using k4, k5⟩
  cases List.all_eq_true.mp k2 _ h

/-- C134 (submitted bundles), if the process is not stopped. The same for bundles that applications send to an endpoint of their node,
if their source is anonymous or registered.

Missing: as for `C134_received_partial`. -/
theorem C134_submitted_partial {cfg : Config} {clock : Nat} {n m : Node} {tasks : List Prog} {b : Bundle}
    (before : OnSled.Reaches ⟨Node.start cfg clock, []⟩ ⟨n, tasks⟩) (readable : b.isAdmin = true → HasRecord cfg b)
    (fresh : n.store.getMetadata b.id ≠ none → n.store.getBundle b.id ≠ none)
    (run : SledThroughout (fun w => Expected n b w ∧ (b.primary.source = .none ∨ b.primary.source ∈ w.agents.eids))
      ⟨n.log (.called (.send b)), tasks ++ [OnSled.task (.send b)]⟩ ⟨m, []⟩) : Served n m b := by
  have before' : OnSled.Reaches ⟨Node.start cfg clock, []⟩ ⟨n.log (.called (.send b)), tasks ++ [OnSled.task (.send b)]⟩ :=
    before.step (.call _ _ _)
  have past1 : n.events <+: (n.log (.called (.send b))).events := List.prefix_append _ _
  obtain ⟨u, v, h1, h2, h3, h4, h5⟩ := run.acts (f := fun n => write n ((db n).pushW n.clock b)) (List.mem_append_right _ (List.mem_singleton.mpr rfl))
  have bv := before'.join (h1.reaches.step h2)
  have pu0 := (between before' h1.reaches).2.1.base.past
  have pu : n.events <+: u.node.events := past1.trans pu0
  have pv : n.events <+: v.node.events := past1.trans (between before' (h1.reaches.step h2)).2.1.base.past
  have pm : v.node.events <+: m.events := (between bv h3.reaches).2.1.base.past
  have puv : u.node.events <+: v.node.events := (between (before'.join h1.reaches) (.step (.refl _) h2)).2.1.base.past
  refine sled_served before' rfl (by simp) (run.weaken fun _ i => i.1) ?_
  by_cases hg : Gone b.id u.node
  · rcases sled_fresh before' (bid := b.id) fresh h1 with h | ⟨c, hc⟩
    · exact absurd hg.2 (h hg.1)
    · have hrem : .removed b.id c ∈ newEvents n u.node := newEvents_left past1 pu0 hc
      refine Classical.byContradiction fun hno => (h1.last.1.2 fun hgv => hno ?_).1 c hrem
      obtain ⟨ch, hch⟩ := hgv
      exact ⟨ch, newEvents_right pu (puv.trans pm) hch⟩
  · refine Classical.byContradiction fun hno => ?_
    rw [push_eq, if_neg hg] at h4
    rw [push_cases, decide_eq_false hg] at h5
    have hst : v.node.store.getBundle b.id ≠ none := by
      rw [h4]
      show (u.node.store.push u.node.clock b).getBundle b.id ≠ none
      rw [MemStore.getBundle_push]; simp
    have run3 : SledThroughout (fun w => Awaited cfg n b w ∧ (b.primary.source = .none ∨ b.primary.source ∈ w.agents.eids)) v ⟨m, []⟩ :=
      (h3.unless (D := Gave n b) (fun _ _ hb h => h.mono hb) bv fun h => hno h.2).add fun w hw i => by
        have b3 := (between bv hw).2.1.base
        have g3 := sled_good (bv.join hw)
        obtain ⟨k1, k2⟩ := i.1.1.2 fun h => i.2 ⟨pv.trans b3.past, h⟩
        exact ⟨⟨⟨g3.1, pv.trans b3.past, k1⟩, i.1.1.1, k2, g3.2⟩, i.1.2⟩
    have := ended (D := Gave n b) (fun _ _ hb h => h.mono hb) bv run3
      (.inr ⟨_, h5, will_submitted (fun _ h => h.1.toHeld) (OnSled.will_give (fun _ h => h.1) readable) (fun _ h => h.2) pv hst⟩)
    rcases this with h | ⟨p, hp, -⟩
    · exact hno h.2
    · cases hp

/-- A bundle is sent while another one is being processed. -/
example : ∃ (n m : Node) (tasks : List Prog) (b : Bundle),
    OnSled.Reaches ⟨Node.start Ex.cfg 946684800100, []⟩ ⟨n, tasks⟩ ∧ tasks ≠ [] ∧ (b.isAdmin = true → HasRecord Ex.cfg b) ∧
    (n.store.getMetadata b.id ≠ none → n.store.getBundle b.id ≠ none) ∧
    SledThroughout (fun w => Expected n b w ∧ (b.primary.source = .none ∨ b.primary.source ∈ w.agents.eids))
      ⟨n.log (.called (.send b)), tasks ++ [OnSled.task (.send b)]⟩ ⟨m, []⟩ := by
  obtain ⟨n, tasks, m, h1, h2, h3⟩ := exists_sled (n := Node.start Ex.cfg 946684800100)
    ([.register (.dtn "n2" "a"), .register (.dtn "n3" "x"), .call (.receive Ex113.other)] ++ going 4)
    (fun s => ⟨s.node.log (.called (.send (Ex.bundle 5 1 20))), s.pool ++ [OnSled.task (.send (Ex.bundle 5 1 20))]⟩)
    (List.replicate 7 (.run 1 none true "r") ++ going 80)
    (fun n w => Ex127.expected (Ex.bundle 5 1 20) n w && decide (Ex.primary.source ∈ w.agents.eids))
    (fun s _ => !s.pool.isEmpty && decide (s.node.store.getMetadata "b" = none)) (by decide +kernel)
  simp only [Bool.and_eq_true, decide_eq_true_eq] at h3
  refine ⟨n, m, tasks, Ex.bundle 5 1 20, h1, by simpa using h3.1, fun h => absurd h (by decide), fun h => absurd h3.2 h, h2.weaken ?_⟩
  intro w h
  simp only [Bool.and_eq_true, decide_eq_true_eq] at h
  exact ⟨Ex127.expected_of h.1, .inr h.2⟩

end Dtn.Props
