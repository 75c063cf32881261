import Verif.Spec.Journey
import Verif.Props.Spreads
import Verif.Props.Relay
/-! C120: bundles are carried from contact to contact. -/

namespace Dtn.Props
open Spec Proc Routing

/-- The copies a node makes are fit for the hops that remain. -/
theorem handedOver_ready {cfg : Config} {clock : Nat} {n m : Node} {tasks : List Prog} {b : Bundle} {s : Sender} {k : Nat}
    (all : Reaches .any ⟨Node.start cfg clock, []⟩ ⟨m, tasks⟩) (past : n.events <+: m.events)
    (ready : Ready (k + 1) b) (h : HandedOver cfg.hostEid n m b s) :
    ∃ t, CopyFor n m b (s.nextHop.node.getD "") t ∧ Ready k t.out ∧ PassedOn cfg.hostEid t.out b ∧
      ∀ limit count, hopCount b = some (limit, count) → hopCount t.out = some (limit, count + 1) := by
  obtain ⟨t, h1, h2, h3, h4, -, h6⟩ := h
  subst h2 h3
  obtain ⟨es, he⟩ := past
  have hm : Event.sending t ∈ m.events := by
    rw [newEvents_eq he.symm] at h1
    rw [← he]
    exact List.mem_append_right _ h1
  exact ⟨t, ⟨h1, rfl, rfl⟩, (ready.copied ((sound_always all).1.fine _ hm).2).1, h4, h6⟩

/-- C120. Take any sequence of contacts: nodes with epidemic routing that have the bundle one after the other, each of them for any
time and in the middle of any other work, until it meets the next one. A copy is handed over at every contact, unless the next
node is where the bundle came from; or a node on the way meets the destination itself, and a copy is handed over for it. Every copy
that gets to the destination is the bundle that was sent, with the payload and all other fixed blocks unchanged and the hops counted,
and the node there gives it to the application exactly once. The lifetime and the hop limit are the only bounds on the way. -/
theorem C120_carried (b : Bundle) (hops : List Hop) (lifetime : b.primary.creationTime + b.primary.lifetime < 2 ^ 64)
    (room : RoomFor hops.length b) (previous : ReadablePrevious b) (oneAge : AtMostOne BUNDLE_AGE_BLOCK b) :
    Journey (fun c => ∃ k ≤ hops.length, Arrives b k c) hops b := by
  have arrives : ∀ b' j, b'.primary = b.primary → (fixedBlocks b').Perm (fixedBlocks b) →
      (∀ limit count, hopCount b = some (limit, count) → hopCount b' = some (limit, count + j)) → Arrives b j b' := by
    intro b' j hp hf hh
    refine ⟨hp, hf, hh, ?_⟩
    intro cfg clock n tasks m c before takes reg hrec run
    exact (C102_delivered_once before takes reg hrec run).2.1
  have key : ∀ (hops : List Hop) (b' : Bundle) (j N : Nat), j + hops.length ≤ N → Ready hops.length b' → b'.primary = b.primary →
      (fixedBlocks b').Perm (fixedBlocks b) →
      (∀ limit count, hopCount b = some (limit, count) → hopCount b' = some (limit, count + j)) →
      Journey (fun c => ∃ k ≤ N, Arrives b k c) hops b' := by
    intro hops
    induction hops with
    | nil =>
      intro b' j N hN _ hp hf hh
      exact ⟨j, by simpa using hN, arrives b' j hp hf hh⟩
    | cons h hops ih =>
      intro b' j N hN ready hp hf hh n m ⟨clock, n', tasks, tasks', cmds, before, stored, fresh, waiting, run, router, met⟩
      simp only [List.length_cons] at hN ready
      have leave : CanLeave b' := by
        refine ⟨by rw [hp]; exact lifetime, ⟨ready.room.1, fun l x hx => ?_⟩, ready.prev, ready.age⟩
        have := ready.room.2 l x hx
        omega
      have all := ((before.join waiting.reaches).step (.call _ _ _ trivial)).join run.reaches
      have past : n.events <+: m.events :=
        (any_good before waiting.reaches).1.past.trans ((List.prefix_append _ _).trans
          (any_good ((before.join waiting.reaches).step (.call _ _ _ trivial)) run.reaches).1.past)
      have up : ∀ s, HandedOver h.cfg.hostEid n m b' s → ∃ t, CopyFor n m b' (s.nextHop.node.getD "") t ∧ Ready hops.length t.out ∧
          t.out.primary = b.primary ∧ (fixedBlocks t.out).Perm (fixedBlocks b) ∧
          ∀ limit count, hopCount b = some (limit, count) → hopCount t.out = some (limit, count + (j + 1)) := by
        intro s hs
        obtain ⟨t, h1, h2, h3, h4⟩ := handedOver_ready all past ready hs
        refine ⟨t, h1, h2, h3.1.trans hp, (Net.passed_fixed h3).trans hf, ?_⟩
        intro l x hx
        rw [h4 l _ (hh l x hx)]
        simp [Nat.add_assoc]
      rcases C116_next_round before stored leave fresh waiting run router met with ⟨bp, a, d, h1, h2, h3, s, h4, h5⟩ | ⟨s, h4, h5⟩ | hc
      · obtain ⟨t, k1, k2, k3, k4, k5⟩ := up s h5
        exact .inr (.inr ⟨bp, a, d, t, h1, h2, h3, h4 ▸ k1, j + 1, by omega, arrives _ _ k3 k4 k5⟩)
      · obtain ⟨t, k1, k2, k3, k4, k5⟩ := up s h5
        exact .inl ⟨t, h4 ▸ k1, ih t.out (j + 1) N (by omega) k2 k3 k4 k5⟩
      · exact .inr (.inl hc)
  exact key hops b 0 hops.length (by omega) ⟨room, previous, oneAge⟩ rfl (.refl _) (by simp)

/-- What the router says when it can reach the next node of the example. -/
def exMet (next : String) : Answer := { clas := ((exNeighbour next).firstCla exRunning).toList, delete := false }

/-- The conditions of the janitor run in the example. -/
def exKeeping (b : Bundle) (n w : Node) : Bool :=
  Ex113.undisturbed b n w && w.claActive && (w.store.getMetadata b.id).any fun p => p.has .forwardPending && !p.has .deleted

theorem exKeeping_of {b : Bundle} {n w : Node} (h : exKeeping b n w = true) : Undisturbed n b w ∧ w.claActive = true ∧
    ∃ p, w.store.getMetadata b.id = some p ∧ p.has .forwardPending = true ∧ p.has .deleted = false := by
  unfold exKeeping at h
  simp only [Bool.and_eq_true] at h
  refine ⟨Ex113.undisturbed_of h.1.1, h.1.2, ?_⟩
  have h3 := h.2
  cases hp : w.store.getMetadata b.id with
  | none => rw [hp] at h3; cases h3
  | some p =>
    rw [hp] at h3
    simp only [Option.any_some, Bool.and_eq_true, Bool.not_eq_true'] at h3
    exact ⟨p, rfl, h3⟩

/-- The configuration of the node with this name. -/
def exNode (host : String) : Config := { Ex.cfg with hostEid := .dtn host "", parallel := true }

/-- What is computed about a contact at which the copy `out` is made. -/
def exContact (host prev next : String) (b out : Bundle) : Bool :=
  let ps := [exNeighbour prev, exNeighbour next]
  (exec ⟨Node.start (exNode host) 946684800100, []⟩ ([.cla true, .call (.receive b)] ++ go 1)).any fun s =>
    (execAll (Ex113.undisturbed b s.node) s (go 60 (some { clas := [], delete := false }))).any fun s1 =>
      (execAll (exKeeping b s.node) (Ex113.calling .janitor s1) (go 140 (some (exMet next)))).any fun t => t.pool.isEmpty &&
        (decide (s.node.store.getBundle b.id = some b) && decide (questionsOf s.node.events = []) &&
          runsEpidemic (commandsOf ps exRunning t.node.events) t.node.events &&
          ((Spec.answered {} (commandsOf ps exRunning t.node.events)).all fun x => match x.1 with
            | .senderForBundle ps' r bp => decide (bp.id = b.id ∧ (Event.asked bp x.2 ∈ newEvents s1.node t.node → ps' = ps ∧ r = exRunning))
            | _ => true) &&
          (newEvents s.node t.node).any (fun e => match e with
            | .sending x => decide (x.stored = b ∧ x.to.nextHop.node.getD "" = next ∧ x.out = out) | _ => false))

theorem exContact_of {host prev next : String} {b out : Bundle} (hne : prev ≠ next)
    (h : exContact host prev next b out = true) : ∃ n m, Meets (exNode host) b next n m ∧ ∃ t, CopyFor n m b next t ∧ t.out = out := by
  obtain ⟨n, tasks, n', tasks', m, h1, h2, h3, h4⟩ := exists_two (n := Node.start (exNode host) 946684800100)
    ([.cla true, .call (.receive b)] ++ go 1) (go 60 (some { clas := [], delete := false })) (go 140 (some (exMet next)))
    (Ex113.calling .janitor) (Ex113.undisturbed b) (exKeeping b) (fun n n' m =>
      (decide (n.store.getBundle b.id = some b) && decide (questionsOf n.events = []) &&
          runsEpidemic (commandsOf [exNeighbour prev, exNeighbour next] exRunning m.events) m.events &&
          ((Spec.answered {} (commandsOf [exNeighbour prev, exNeighbour next] exRunning m.events)).all fun x => match x.1 with
            | .senderForBundle ps' r bp => decide (bp.id = b.id ∧ (Event.asked bp x.2 ∈ newEvents n' m →
                ps' = [exNeighbour prev, exNeighbour next] ∧ r = exRunning))
            | _ => true) &&
          (newEvents n m).any (fun e => match e with
            | .sending x => decide (x.stored = b ∧ x.to.nextHop.node.getD "" = next ∧ x.out = out) | _ => false))) h
  simp only [Bool.and_eq_true, decide_eq_true_eq] at h4
  obtain ⟨⟨⟨⟨k1, k2⟩, k3⟩, k4⟩, k5⟩ := h4
  refine ⟨n, m, ⟨_, n', tasks, tasks', _, h1, k1, ?_, h2.weaken fun _ h => Ex113.undisturbed_of h, ?_, runsEpidemic_of k3, ?_⟩, ?_⟩
  · intro bp a h
    have := mem_questionsOf.mpr h
    rw [k2] at this
    cases this
  · refine h3.weaken fun w h => ?_
    obtain ⟨e1, e2, e3⟩ := exKeeping_of h
    exact ⟨e1, e2, e3, .inl rfl⟩
  · intro ps r bp a hm _ ha
    have := List.all_eq_true.mp k4 _ hm
    simp only [decide_eq_true_eq] at this
    obtain ⟨rfl, rfl⟩ := this.2 ha
    exact ⟨by simp [Peer.nodeName, exNeighbour, Peer.new, EID.node, hne], exNeighbour next, by simp, rfl, exUsable _⟩
  · obtain ⟨e, he, hp⟩ := List.any_eq_true.mp k5
    cases e <;> first | cases hp | skip
    obtain ⟨e1, e2, e3⟩ := of_decide_eq_true hp
    exact ⟨_, ⟨he, e1, e2⟩, e3⟩

/-- A bundle that `n1` has got from `n2` is handed over to `n4`, from there to `n5`, and from there to `n6`. -/
example : ∃ b c d : Bundle, b.primary.creationTime + b.primary.lifetime < 2 ^ 64 ∧ RoomFor 3 b ∧ ReadablePrevious b ∧
    AtMostOne BUNDLE_AGE_BLOCK b ∧
    (∃ n m, Meets (exNode "n1") b "n4" n m ∧ ∃ t, CopyFor n m b "n4" t ∧ t.out = c) ∧
    (∃ n m, Meets (exNode "n4") c "n5" n m ∧ ∃ t, CopyFor n m c "n5" t ∧ t.out = d) ∧
    (∃ n m, Meets (exNode "n5") d "n6" n m ∧ ∃ t, CopyFor n m d "n6" t ∧ t.out = exRelayed "n5" 4) := by
  refine ⟨exRelayed "n2" 1, exRelayed "n1" 2, exRelayed "n4" 3, by decide, ⟨by unfold AtMostOne; decide, ?_⟩, fun _ => by decide,
    by unfold AtMostOne; decide, exContact_of (prev := "n2") (by decide) (by decide +kernel),
    exContact_of (prev := "n1") (by decide) (by decide +kernel), exContact_of (prev := "n4") (by decide) (by decide +kernel)⟩
  intro l x h
  have : hopCount (exRelayed "n2" 1) = some (5, 1) := by decide
  rw [this] at h; cases h; decide

end Dtn.Props
