import Verif.Lemmas.Origin
import Verif.Lemmas.ProcExample
/-! C109: a node makes up no bundles. -/

namespace Dtn.Props
open Proc Spec

/-- C109 (stored). Every bundle in the store is found under its own id, and was given to the node before. -/
theorem C109_stored {cfg : Config} {clock : Nat} {s : Sys} (run : Reaches .any ⟨Node.start cfg clock, []⟩ s) {bid : String}
    {b : Bundle} (stored : s.node.store.getBundle bid = some b) : b.id = bid ∧ Known s.node b :=
  (sound_always run).1.stored bid b stored

/-- C109 (delivered). Every bundle an endpoint's clients get was given to the node before, and unless two bundles with the
same id and different destinations were, it is addressed to that endpoint. -/
theorem C109_delivered {cfg : Config} {clock : Nat} {s : Sys} (run : Reaches .any ⟨Node.start cfg clock, []⟩ s) {e : EID}
    {b : Bundle} (got : (∃ ch, Event.delivered e b ch ∈ s.node.events) ∨ Event.popped e b ∈ s.node.events) :
    Known s.node b ∧ (DistinctIds s.node → b.primary.destination = e) := by
  have h : MeantFor s.node e b := by
    rcases got with ⟨ch, h⟩ | h
    · exact (sound_always run).1.fine _ h
    · exact (sound_always run).1.fine _ h
  obtain ⟨h, b', h1, h2, h3⟩ := h
  exact ⟨h, fun d => h3 ▸ d b b' h h1 h2.symm⟩

/-- C109 (waiting). The same for what waits at an endpoint. -/
theorem C109_waiting {cfg : Config} {clock : Nat} {s : Sys} (run : Reaches .any ⟨Node.start cfg clock, []⟩ s) {a : AppAgent}
    {b : Bundle} (agent : a ∈ s.node.agents) (waits : b ∈ a.queue) :
    Known s.node b ∧ (DistinctIds s.node → b.primary.destination = a.eid) := by
  obtain ⟨h, b', h1, h2, h3⟩ := (sound_always run).1.queues a agent b waits
  exact ⟨h, fun d => h3 ▸ d b b' h h1 h2.symm⟩

/-- C109 (sent). Every copy handed to a convergence layer is a bundle given to the node before, changed only in the hop
count, age and previous node blocks. -/
theorem C109_sent {cfg : Config} {clock : Nat} {s : Sys} (run : Reaches .any ⟨Node.start cfg clock, []⟩ s) {t : Transfer}
    (sent : Event.sending t ∈ s.node.events) : Known s.node t.stored ∧ PassedOn cfg.hostEid t.out t.stored := by
  obtain ⟨h, e⟩ := sound_always run
  obtain ⟨h1, h2⟩ := h.fine _ sent
  rw [e] at h2
  exact ⟨h1, h2.passedOn⟩

/-- C109 (announced). Every bundle the router is told about was given to the node before. -/
theorem C109_announced {cfg : Config} {clock : Nat} {s : Sys} (run : Reaches .any ⟨Node.start cfg clock, []⟩ s) {b : Bundle}
    (told : Event.note (.incomingBundle b) ∈ s.node.events) : Known s.node b :=
  (sound_always run).1.fine _ told

namespace Ex109
/-- A bundle from another node for an endpoint of this node. All have the same id. -/
def to_ (service : String) : Bundle :=
  { primary := { Ex.primary with destination := .dtn "n1" service }, canonicals := [Ex.payload] }

/-- A bundle was given to this endpoint. -/
def hasDelivery (e : EID) (p : Bundle → Bool) (s : Sys) : Bool :=
  s.node.events.any fun x => match x with | .delivered e' b _ => decide (e' = e) && p b | _ => false

theorem delivery_of {e : EID} {p : Bundle → Bool} {s : Sys} (h : hasDelivery e p s = true) :
    ∃ b ch, Event.delivered e b ch ∈ s.node.events ∧ p b = true := by
  obtain ⟨x, hx, hp⟩ := List.any_eq_true.mp h
  cases x <;> simp at hp
  obtain ⟨rfl, hp⟩ := hp
  exact ⟨_, _, hx, hp⟩
end Ex109
open Ex109

/-- A delivery that meets the hypotheses. -/
example : ∃ s, Reaches .any ⟨Ex.start, []⟩ s ∧ ∃ b ch, Event.delivered (.dtn "n1" "x") b ch ∈ s.node.events ∧ b = to_ "x" := by
  obtain ⟨s, hs, hp⟩ := exists_run (n := Ex.start)
    ([.register (.dtn "n1" "x"), .call (.receive (to_ "x"))] ++ go 60) (hasDelivery (.dtn "n1" "x") fun b => decide (b = to_ "x"))
    (by decide +kernel)
  obtain ⟨b, ch, h, hb⟩ := delivery_of hp
  exact ⟨s, hs, b, ch, h, of_decide_eq_true hb⟩

/-- Ids matter: while a received bundle for `x` is being processed, a client submits a bundle with the same id for `y`.
Although the sender is not registered here, the bundle replaces the first one in the store before that is noticed, and the
clients of `x` get the bundle for `y`. -/
theorem C109_same_id_violated : ∃ s, Reaches .any ⟨Ex.start, []⟩ s ∧ ∃ b ch,
    Event.delivered (.dtn "n1" "x") b ch ∈ s.node.events ∧ b.primary.destination = .dtn "n1" "y" ∧
    b.primary.source ∉ s.node.agents.eids ∧ Event.called (.receive (to_ "x")) ∈ s.node.events := by
  obtain ⟨s, hs, hp⟩ := exists_run (n := Ex.start)
    ([.register (.dtn "n1" "x"), .register (.dtn "n1" "y"), .call (.receive (to_ "x"))] ++ go 7 ++
      [.call (.send (to_ "y")), .run 1 none true ""] ++ go 60)
    (fun s => hasDelivery (.dtn "n1" "x")
        (fun b => decide (b.primary.destination = .dtn "n1" "y" ∧ b.primary.source ∉ s.node.agents.eids)) s &&
      decide (Event.called (.receive (to_ "x")) ∈ s.node.events))
    (by decide +kernel)
  simp only [Bool.and_eq_true, decide_eq_true_eq] at hp
  obtain ⟨b, ch, h, hb⟩ := delivery_of hp.1
  simp only [decide_eq_true_eq] at hb
  exact ⟨s, hs, b, ch, h, hb.1, hb.2, hp.2⟩

end Dtn.Props
