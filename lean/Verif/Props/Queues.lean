import Verif.Lemmas.Queues
import Verif.Lemmas.ProcExample
/-!
The bundles waiting for the clients of an endpoint, while everything goes on at once.
-/

namespace Dtn.Props
open Proc Routing Spec

/-- C101. As long as an endpoint stays registered, whatever else happens and in whatever order the tasks of the node run,
the bundles that were waiting for its client followed by those put aside for it since, in order, are the bundles fetched
since followed by those waiting now: nothing is lost, doubled or overtaken. -/
theorem C101_queue {cfg : Config} {clock : Nat} {s t : Sys} {e : EID}
    (before : Reaches .any ⟨Node.start cfg clock, []⟩ s) (registered : e ∈ s.node.agents.map AppAgent.eid)
    (run : Reaches (keeping e) s t) :
    waitingAt e s.node ++ queued e (newEvents s.node t.node) =
      fetched e (newEvents s.node t.node) ++ waitingAt e t.node := by
  obtain ⟨⟨es, h1, h2⟩, -⟩ := kept_run before registered run
  rw [newEvents_eq h1]
  exact h2

/-- A bundle is waiting, and is fetched while another one arrives and is put aside. -/
example : ∃ s t, Reaches .any ⟨Ex.start, []⟩ s ∧ (EID.dtn "n3" "x") ∈ s.node.agents.map AppAgent.eid ∧
    Reaches (keeping (.dtn "n3" "x")) s t ∧
    (waitingAt (.dtn "n3" "x") s.node).length = 1 ∧ (waitingAt (.dtn "n3" "x") t.node).length = 1 ∧
    (queued (.dtn "n3" "x") (newEvents s.node t.node)).length = 1 ∧
    (fetched (.dtn "n3" "x") (newEvents s.node t.node)).length = 1 := by
  obtain ⟨n, ps, m, h1, h2, h3⟩ := exists_rest (n := Ex.start)
    ([.register (.dtn "n3" "x"), .call (.receive (Ex.bundle 5 1 0))] ++ go 60 ++ [.call (.pop (.dtn "n3" "x")),
      .call (.receive { Ex.bundle 5 1 0 with primary := { Ex.primary with bid := "c" } })])
    90 none true "r"
    (fun n m => decide ((EID.dtn "n3" "x") ∈ n.agents.map AppAgent.eid ∧
      (waitingAt (.dtn "n3" "x") n).length = 1 ∧ (waitingAt (.dtn "n3" "x") m).length = 1 ∧
      (queued (.dtn "n3" "x") (newEvents n m)).length = 1 ∧ (fetched (.dtn "n3" "x") (newEvents n m)).length = 1))
    (by decide +kernel)
  obtain ⟨h4, h5⟩ := of_decide_eq_true h3
  exact ⟨_, _, h1, h4, (Reaches.quietKeeping h1 h4 h2).1, h5⟩

/-- C102. A bundle that a node takes on for a registered endpoint is given to that endpoint exactly once, and to no other:
either it is then the last of those waiting for its client, or it was passed on at once over the channel of the client
that had subscribed. Nothing else changes for any client. -/
theorem C102_delivered_once {cfg : Config} {clock : Nat} {n m : Node} {tasks : List Prog} {b : Bundle} {c : Call}
    (before : Reaches .any ⟨Node.start cfg clock, []⟩ ⟨n, tasks⟩) (takes : TakesOn n b c)
    (registered : b.primary.destination ∈ n.agents.map AppAgent.eid)
    (readable : b.isAdmin = true → HasRecord cfg b)
    (run : Reaches .quiet ⟨n, [c.prog]⟩ ⟨m, []⟩) :
    (waitingAt b.primary.destination m = waitingAt b.primary.destination n ++ [b] ∨
      ∃ ch, subscribedBy b.primary.destination n = some ch ∧
        .delivered b.primary.destination b (some ch) ∈ newEvents n m ∧
        waitingAt b.primary.destination m = waitingAt b.primary.destination n) ∧
    (newEvents n m).countP (isDelivered b) = 1 ∧
    ∀ e, e ≠ b.primary.destination → waitingAt e m = waitingAt e n := by
  obtain ⟨i, hcfg⟩ := good_always before
  simp only at i hcfg
  subst hcfg
  have hrg : ∀ p ∈ [c.prog], RG Good Base p (fun _ _ => True) n := by simpa using rg_call Good.acts c
  have hev := takesOn_events i takes (fun _ => readable) run
  have hno : ∀ c', Event.called c' ∉ newEvents n m := by
    intro c' hm
    rcases hev _ hm with h | ⟨_, -, h⟩ <;> exact h
  have hpop : ∀ e b', Event.popped e b' ∉ newEvents n m := by
    intro e b' hm
    rcases hev _ hm with h | ⟨_, -, h⟩ <;> exact h
  have hall : ∀ e b' ch, Event.delivered e b' ch ∈ newEvents n m → e = b.primary.destination ∧ b' = b := by
    intro e b' ch hm
    rcases hev _ hm with h | ⟨_, -, h⟩
    · exact h
    · exact h.elim
  have honce := takesOn_once i takes run hno
  obtain ⟨n', hl, hb, -, hd, -⟩ := takesOn_run i takes (fun _ => readable) run
  obtain ⟨ch, hd⟩ := hd registered
  replace hd := newEvents_right hl.past hb.past hd
  obtain ⟨hq, huniq⟩ := queued_of_once hall honce hd
  have hkept : ∀ e, Kept e n m := fun e =>
    (Only.reaches (kept_steps e).refl (fun _ _ _ => Kept.trans) (fun n t _ => .same rfl rfl) i hrg
      (by simpa using (kept_steps e).call c) run).1
  have hchan : Chan n m :=
    (Only.reaches chan_steps.refl (fun _ _ _ => Chan.trans) (fun n t _ => .time n t) i hrg
      (by simpa using chan_steps.call c) run).1
  have hw : ∀ e, waitingAt e n ++ queued e (newEvents n m) = waitingAt e m := by
    intro e
    obtain ⟨es, h1, h2⟩ := hkept e
    rw [← newEvents_eq h1] at h2
    rw [h2, fetched_nil fun b' => hpop e b', List.nil_append]
  refine ⟨?_, ?_, ?_⟩
  · cases ch with
    | none =>
      left
      rw [← hw, hq, if_pos rfl]
    | some ch =>
      right
      refine ⟨ch, ?_, hd, ?_⟩
      · obtain ⟨-, es, h1, h2⟩ := hchan
        rw [newEvents_eq h1] at hd
        rw [subscribedBy_find, h2 _ _ _ hd]
        rfl
      · rw [← hw, hq]
        simp
  · have h1 : (newEvents n m).countP (isDelivered b) = (newEvents n m).countP (isDeliveryId b.id) := by
      refine List.countP_congr fun x hx => ?_
      cases x with
      | delivered e b' ch' =>
        obtain ⟨rfl, rfl⟩ := hall _ _ _ hx
        simp [isDelivered, isDeliveryId]
      | _ => simp [isDelivered, isDeliveryId]
    have h2 : 0 < (newEvents n m).countP (isDelivered b) :=
      List.countP_pos_iff.mpr ⟨_, hd, by simp [isDelivered]⟩
    omega
  · intro e hne
    rw [← hw, queued_nil fun b' hm => hne (hall _ _ _ hm).1, List.append_nil]

/-- A bundle is put aside behind another one. -/
example : ∃ n tasks m b, Reaches .any ⟨Ex.start, []⟩ ⟨n, tasks⟩ ∧
    Reaches .quiet ⟨n, [(Call.receive b).prog]⟩ ⟨m, []⟩ ∧ TakesOn n b (.receive b) ∧
    b.primary.destination ∈ n.agents.map AppAgent.eid ∧ b.isAdmin = false ∧
    (waitingAt b.primary.destination n).length = 1 ∧ (waitingAt b.primary.destination m).length = 2 := by
  obtain ⟨n, ps, m, h1, h2, h3⟩ := exists_quiet (n := Ex.start)
    ([.register (.dtn "n3" "x"), .call (.receive { Ex.bundle 5 1 0 with primary := { Ex.primary with bid := "c" } })] ++ go 60)
    (fun _ => (Call.receive Ex.asking).prog) 80 (some (Ex.answer false)) true "r"
    (fun n m => decide (n.store.getBundle Ex.asking.id = none ∧ Ex.asking.primary.destination ∈ n.agents.map AppAgent.eid ∧
      (waitingAt Ex.asking.primary.destination n).length = 1 ∧ (waitingAt Ex.asking.primary.destination m).length = 2))
    (by decide +kernel)
  obtain ⟨h3, h4, h5⟩ := of_decide_eq_true h3
  refine ⟨n, ps, m, _, h1, h2, .inl ⟨rfl, h3, ?_⟩, h4, by decide +kernel, h5⟩
  unfold UnknownBlock
  decide +kernel

/-- A node with an endpoint that a client has subscribed to. -/
def exQueueNode : Node :=
  { Ex.start with agents := [{ eid := .dtn "n3" "x", delivery := some 4 }] }

/-- A bundle is passed on to a subscriber. -/
example : ∃ tasks m b, Reaches .any ⟨Ex.start, []⟩ ⟨exQueueNode, tasks⟩ ∧
    Reaches .quiet ⟨exQueueNode, [(Call.receive b).prog]⟩ ⟨m, []⟩ ∧ TakesOn exQueueNode b (.receive b) ∧
    b.primary.destination ∈ exQueueNode.agents.map AppAgent.eid ∧ b.isAdmin = false ∧
    subscribedBy b.primary.destination exQueueNode = some 4 ∧ waitingAt b.primary.destination m = [] := by
  obtain ⟨m, h2, h3⟩ := exists_quiet_from exQueueNode (Call.receive Ex.asking).prog 80 (some (Ex.answer false)) true "r"
    (fun m => decide (waitingAt Ex.asking.primary.destination m = [])) (by decide +kernel)
  refine ⟨[], m, _, ?_, h2, .inl ⟨rfl, by decide +kernel, ?_⟩, by decide +kernel, by decide +kernel, by decide +kernel,
    of_decide_eq_true h3⟩
  · have h1 : Step .any ⟨Ex.start, []⟩ _ := .change _ _ [] (Outside.register Ex.start (.dtn "n3" "x"))
    exact ((Reaches.refl _).step h1).step (.change _ _ [] (Outside.subscribe _ (.dtn "n3" "x") 4))
  · unfold UnknownBlock
    decide +kernel

end Dtn.Props
