import Verif.Lemmas.Given
import Verif.Lemmas.CarriedExample
import Verif.Props.Queues
import Verif.Props.Counting
/-! C127: bundles for applications of the node are delivered, whatever else the node does at the same time. -/

namespace Dtn.Props
open Spec Proc

theorem mem_queued {e : EID} {b : Bundle} {es : List Event} (h : .delivered e b none ∈ es) : b ∈ queued e es := by
  induction es with
  | nil => cases h
  | cons x es ih =>
    rcases List.mem_cons.mp h with rfl | h
    · simp [queued]
    · have := ih h
      unfold queued
      split
      · rename_i heq; cases heq
      · rename_i heq
        cases heq
        split <;> simp [this]
      · rename_i heq; cases heq; exact this

theorem popped_of_fetched {e : EID} {b : Bundle} {es : List Event} (h : b ∈ fetched e es) : .popped e b ∈ es := by
  induction es with
  | nil => cases h
  | cons x es ih =>
    unfold fetched at h
    split at h
    · rename_i heq; cases heq
    · rename_i heq
      cases heq
      split at h
      · rename_i he
        subst he
        rcases List.mem_cons.mp h with rfl | h
        · simp
        · exact List.mem_cons_of_mem _ (ih h)
      · exact List.mem_cons_of_mem _ (ih h)
    · rename_i heq; cases heq; exact List.mem_cons_of_mem _ (ih h)

theorem _root_.Dtn.Spec.Throughout.keep {I : Node → Prop} {e : EID} {s t : Sys} (run : Throughout .any I s t)
    (h : ∀ m, I m → e ∈ m.agents.eids) : Reaches (keeping e) s t := by
  induction run with
  | refl => exact .refl _
  | step _ hs hi ih =>
    refine ih.step ?_
    cases hs with
    | task l r p n n' ps h => exact .task l r p n n' ps h
    | call n pool c h => exact .call n pool c trivial
    | change n n' pool h' => exact .change n n' pool ⟨h', h _ hi⟩

/-- What became of a bundle given to its endpoint. -/
theorem served_of {cfg : Config} {clock : Nat} {n m : Node} {s : Sys} {b : Bundle} {e : Event} (before : Reaches .any ⟨Node.start cfg clock, []⟩ s)
    (start : s.node = n.log e) (quiet : ∀ e' b' ch, e ≠ .delivered e' b' ch) (run : Throughout .any (Expected n b) s ⟨m, []⟩)
    (given : GivenTo n m b) : Served n m b := by
  have pm : s.node.events <+: m.events := (any_good before run.reaches).1.past
  have past : n.events <+: s.node.events := by rw [start]; exact List.prefix_append _ _
  obtain ⟨ch, hc'⟩ := given
  have hc : .delivered b.primary.destination b ch ∈ newEvents s.node m := by
    obtain ⟨es, he⟩ := pm
    rw [newEvents_eq he.symm]
    rw [newEvents_eq (es := e :: es) (by rw [← he, start]; simp [Node.log])] at hc'
    rcases List.mem_cons.mp hc' with h | h
    · exact absurd h.symm (quiet _ _ _)
    · exact h
  refine ⟨⟨ch, hc'⟩, ?_⟩
  cases ch with
  | some ch => exact .inl ⟨ch, hc'⟩
  | none =>
    right
    have keep := run.keep fun _ i => i.1
    have := C101_queue before run.head.1 keep
    have hm : b ∈ fetched b.primary.destination (newEvents s.node m) ++ waitingAt b.primary.destination m := by
      rw [← this]; exact List.mem_append_right _ (mem_queued hc)
    rcases List.mem_append.mp hm with h | h
    · exact .inl (newEvents_left past pm (popped_of_fetched h))
    · exact .inr h

/-- Given at least once, and at most once. -/
theorem once_of {cfg : Config} {clock : Nat} {n m : Node} {b : Bundle} {pool : List Prog} (run : Reaches .any ⟨Node.start cfg clock, []⟩ ⟨m, pool⟩)
    (served : Served n m b) (once : m.events.countP (isAcceptedId b.id) + m.events.countP (isSentId b.id) ≤ 1) :
    m.events.countP (isDeliveryId b.id) = 1 := by
  have h := (C69_delivered_at_most_once run b.id).2
  obtain ⟨⟨ch, hc⟩, -⟩ := served
  have : 0 < m.events.countP (isDeliveryId b.id) :=
    List.countP_pos_iff.mpr ⟨_, List.mem_of_mem_drop hc, by simp [isDeliveryId]⟩
  simp only at h
  omega

/-- C127 (received bundles). A received bundle for a registered endpoint that is not known yet is given to that endpoint, if the
endpoint stays registered and nobody removes the bundle from the store first. It is then passed on to the client at once, or is
fetched by it, or is waiting. If no bundle with this id has been accepted or submitted another time, it is given to an endpoint
exactly once. Other calls may be going on at the same time, in any order. -/
theorem C127_received {cfg : Config} {clock : Nat} {n m : Node} {tasks : List Prog} {b : Bundle}
    (before : Reaches .any ⟨Node.start cfg clock, []⟩ ⟨n, tasks⟩) (readable : b.isAdmin = true → HasRecord cfg b)
    (blocks : ∀ c ∈ b.canonicals, UnknownBlock c → c.flags.remove = false ∧ c.flags.deleteBundle = false)
    (run : Throughout .any (Expected n b) ⟨n.log (.called (.receive b)), tasks ++ [(Call.receive b).prog]⟩ ⟨m, []⟩) :
    (Served n m b ∧ (m.events.countP (isAcceptedId b.id) + m.events.countP (isSentId b.id) ≤ 1 →
      m.events.countP (isDeliveryId b.id) = 1)) ∨ .duplicate b ∈ newEvents n m := by
  have before' : Reaches .any ⟨Node.start cfg clock, []⟩ ⟨n.log (.called (.receive b)), tasks ++ [(Call.receive b).prog]⟩ :=
    before.step (.call _ _ _ trivial)
  have past1 : n.events <+: (n.log (.called (.receive b))).events := List.prefix_append _ _
  obtain ⟨u, v, h1, h2, h3, h4, h5⟩ := run.acts (f := fun n => n.addIfUnknown b) (List.mem_append_right _ (List.mem_singleton.mpr rfl))
  have bv := before'.join (h1.reaches.step h2)
  have pu : n.events <+: u.node.events := past1.trans (any_good before' h1.reaches).1.past
  have pv : n.events <+: v.node.events := past1.trans (any_good before' (h1.reaches.step h2)).1.past
  have pm : v.node.events <+: m.events := (any_good bv h3.reaches).1.past
  by_cases hadd : (u.node.store.addIfUnknown u.node.clock b).2 = true
  · left
    rw [if_pos hadd] at h5
    have hst : v.node.store.getBundle b.id ≠ none := by
      rw [h4]
      unfold Node.addIfUnknown
      rw [if_pos hadd]
      unfold MemStore.addIfUnknown at hadd ⊢
      split at hadd
      · rename_i hh
        simp only [hh, if_true, Node.log]
        rw [MemStore.getBundle_push]; simp
      · cases hadd
    suffices h : Served n m b from ⟨h, once_of (before'.join run.reaches) h⟩
    refine served_of before' rfl (by simp) run ?_
    refine Classical.byContradiction fun hno => ?_
    have run3 : Throughout .any (Awaited cfg n b) v ⟨m, []⟩ :=
      (h3.unless (D := Gave n b) (fun _ _ hb h => h.mono hb) bv fun h => hno h.2).add fun w hw i => by
        obtain ⟨b3, g3, -⟩ := any_good bv hw
        obtain ⟨k1, k2⟩ := i.1.2 fun h => i.2 ⟨pv.trans b3.past, h⟩
        exact ⟨⟨g3, pv.trans b3.past, k1⟩, i.1.1, k2, (good_always (bv.join hw)).2⟩
    have := Will.ended (D := Gave n b) (fun _ _ hb h => h.mono hb) bv run3
      (.inr ⟨_, h5, will_receive (fun _ => rfl) (f := fun st => { st with incoming := st.incoming + 1 }) (fun _ h => h.toHeld)
        (will_give (fun _ h => h) readable) pv blocks hst⟩)
    rcases this with h | ⟨p, hp, -⟩
    · exact hno h.2
    · cases hp
  · right
    have he : v.node.events = u.node.events ++ [.duplicate b] := by
      rw [h4]; unfold Node.addIfUnknown; rw [if_neg hadd]; rfl
    exact newEvents_right pv pm (newEvents_left pu ⟨_, he.symm⟩ (by rw [newEvents_eq he]; simp))

namespace Ex127

/-- Was the bundle given to its endpoint? -/
def given (b : Bundle) (n m : Node) : Bool :=
  (newEvents n m).any fun e => match e with | .delivered e b' _ => decide (e = b.primary.destination ∧ b' = b) | _ => false

theorem given_of {b : Bundle} {n m : Node} (h : given b n m = true) : GivenTo n m b := by
  obtain ⟨e, he, hp⟩ := List.any_eq_true.mp h
  split at hp
  · obtain ⟨rfl, rfl⟩ := of_decide_eq_true hp
    exact ⟨_, he⟩
  · cases hp

/-- A test for `Expected`. -/
def expected (b : Bundle) (n m : Node) : Bool :=
  decide (b.primary.destination ∈ m.agents.eids) && (given b n m ||
    (((newEvents n m).all fun e => match e with | .removed bid _ => decide (bid ≠ b.id) | _ => true) &&
      (m.store.getBundle b.id).all fun b' => decide (b' = b)))

theorem expected_of {b : Bundle} {n m : Node} (h : expected b n m = true) : Expected n b m := by
  unfold expected at h
  simp only [Bool.and_eq_true, Bool.or_eq_true, decide_eq_true_eq] at h
  refine ⟨h.1, fun hg => ?_⟩
  obtain ⟨h1, h2⟩ := h.2.resolve_left fun h => hg (given_of h)
  refine ⟨fun c hc => ?_, fun b' hb => ?_⟩
  · have := List.all_eq_true.mp h1 _ hc
    simp at this
  · rw [hb] at h2; simpa using h2

end Ex127

/-- A bundle is received while another one is being processed, and clients fetch what there is. -/
example : ∃ (n m : Node) (tasks : List Prog) (b : Bundle),
    Reaches .any ⟨Node.start Ex.cfg 946684800100, []⟩ ⟨n, tasks⟩ ∧ tasks ≠ [] ∧ (b.isAdmin = true → HasRecord Ex.cfg b) ∧
    (∀ c ∈ b.canonicals, UnknownBlock c → c.flags.remove = false ∧ c.flags.deleteBundle = false) ∧
    Throughout .any (Expected n b) ⟨n.log (.called (.receive b)), tasks ++ [(Call.receive b).prog]⟩ ⟨m, []⟩ ∧
    .duplicate b ∉ newEvents n m ∧ m.events.countP (isAcceptedId b.id) + m.events.countP (isSentId b.id) ≤ 1 ∧
    ∃ b' ∈ fetched b.primary.destination (newEvents n m), b'.id = b.id := by
  obtain ⟨n, tasks, m, h1, h2, h3⟩ := exists_throughout (n := Node.start Ex.cfg 946684800100)
    ([.register (.dtn "n3" "x"), .call (.receive Ex113.other)] ++ go 4) (Ex113.calling (.receive (Ex.bundle 5 1 20)))
    (List.replicate 7 (.run 1 none true "r") ++ go 80 ++ [.call (.pop (.dtn "n3" "x")), .call (.pop (.dtn "n3" "x"))] ++ go 20)
    (Ex127.expected (Ex.bundle 5 1 20))
    (fun s m => !s.pool.isEmpty && ((newEvents s.node m).all fun e => match e with | .duplicate _ => false | _ => true) &&
      decide (m.events.countP (isAcceptedId "b") + m.events.countP (isSentId "b") ≤ 1 ∧
      ∃ b' ∈ fetched (.dtn "n3" "x") (newEvents s.node m), b'.id = "b")) (by decide +kernel)
  simp only [Bool.and_eq_true, decide_eq_true_eq] at h3
  refine ⟨n, m, tasks, Ex.bundle 5 1 20, h1, by simpa using h3.1.1, fun h => absurd h (by decide), by unfold UnknownBlock; decide +kernel,
    h2.weaken fun _ h => Ex127.expected_of h, fun h => ?_, h3.2.1, h3.2.2⟩
  cases List.all_eq_true.mp h3.1.2 _ h

/-- C127 (submitted bundles). The same for bundles that applications send to an endpoint of their node, if their source is
anonymous or registered. -/
theorem C127_submitted {cfg : Config} {clock : Nat} {n m : Node} {tasks : List Prog} {b : Bundle}
    (before : Reaches .any ⟨Node.start cfg clock, []⟩ ⟨n, tasks⟩) (readable : b.isAdmin = true → HasRecord cfg b)
    (run : Throughout .any (fun w => Expected n b w ∧ (b.primary.source = .none ∨ b.primary.source ∈ w.agents.eids))
      ⟨n.log (.called (.send b)), tasks ++ [(Call.send b).prog]⟩ ⟨m, []⟩) :
    Served n m b ∧ (m.events.countP (isAcceptedId b.id) + m.events.countP (isSentId b.id) ≤ 1 →
      m.events.countP (isDeliveryId b.id) = 1) := by
  have before' : Reaches .any ⟨Node.start cfg clock, []⟩ ⟨n.log (.called (.send b)), tasks ++ [(Call.send b).prog]⟩ :=
    before.step (.call _ _ _ trivial)
  have past1 : n.events <+: (n.log (.called (.send b))).events := List.prefix_append _ _
  obtain ⟨u, v, h1, h2, h3, h4, h5⟩ := run.acts (f := fun n => n.push b) (List.mem_append_right _ (List.mem_singleton.mpr rfl))
  have bv := before'.join (h1.reaches.step h2)
  have pv : n.events <+: v.node.events := past1.trans (any_good before' (h1.reaches.step h2)).1.past
  have hst : v.node.store.getBundle b.id ≠ none := by
    rw [h4]; unfold Node.push; rw [MemStore.getBundle_push]; simp
  suffices h : Served n m b from ⟨h, once_of (before'.join run.reaches) h⟩
  refine served_of before' rfl (by simp) (run.weaken fun _ i => i.1) ?_
  refine Classical.byContradiction fun hno => ?_
  have run3 : Throughout .any (fun w => Awaited cfg n b w ∧ (b.primary.source = .none ∨ b.primary.source ∈ w.agents.eids)) v ⟨m, []⟩ :=
    (h3.unless (D := Gave n b) (fun _ _ hb h => h.mono hb) bv fun h => hno h.2).add fun w hw i => by
      obtain ⟨b3, g3, -⟩ := any_good bv hw
      obtain ⟨k1, k2⟩ := i.1.1.2 fun h => i.2 ⟨pv.trans b3.past, h⟩
      exact ⟨⟨⟨g3, pv.trans b3.past, k1⟩, i.1.1.1, k2, (good_always (bv.join hw)).2⟩, i.1.2⟩
  have := Will.ended (D := Gave n b) (fun _ _ hb h => h.mono hb) bv run3
    (.inr ⟨_, h5, will_send (fun _ h => h.1.toHeld) (will_give (fun _ h => h.1) readable) (fun _ h => h.2) pv hst⟩)
  rcases this with h | ⟨p, hp, -⟩
  · exact hno h.2
  · cases hp

/-- A bundle is sent while another one is being processed. -/
example : ∃ (n m : Node) (tasks : List Prog) (b : Bundle),
    Reaches .any ⟨Node.start Ex.cfg 946684800100, []⟩ ⟨n, tasks⟩ ∧ tasks ≠ [] ∧ (b.isAdmin = true → HasRecord Ex.cfg b) ∧
    Throughout .any (fun w => Expected n b w ∧ (b.primary.source = .none ∨ b.primary.source ∈ w.agents.eids))
      ⟨n.log (.called (.send b)), tasks ++ [(Call.send b).prog]⟩ ⟨m, []⟩ ∧
    m.events.countP (isAcceptedId b.id) + m.events.countP (isSentId b.id) ≤ 1 := by
  obtain ⟨n, tasks, m, h1, h2, h3⟩ := exists_throughout (n := Node.start Ex.cfg 946684800100)
    ([.register (.dtn "n2" "a"), .register (.dtn "n3" "x"), .call (.receive Ex113.other)] ++ go 4) (Ex113.calling (.send (Ex.bundle 5 1 20)))
    (List.replicate 7 (.run 1 none true "r") ++ go 80)
    (fun n w => Ex127.expected (Ex.bundle 5 1 20) n w && decide (Ex.primary.source ∈ w.agents.eids))
    (fun s m => !s.pool.isEmpty && decide (m.events.countP (isAcceptedId "b") + m.events.countP (isSentId "b") ≤ 1)) (by decide +kernel)
  simp only [Bool.and_eq_true, decide_eq_true_eq] at h3
  refine ⟨n, m, tasks, Ex.bundle 5 1 20, h1, by simpa using h3.1, fun h => absurd h (by decide), h2.weaken ?_, h3.2⟩
  intro w h
  simp only [Bool.and_eq_true, decide_eq_true_eq] at h
  exact ⟨Ex127.expected_of h.1, .inr h.2⟩

end Dtn.Props
