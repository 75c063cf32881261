import Verif.Lemmas.WaitingRun
import Verif.Lemmas.CarriedExample
import Verif.Lemmas.CronExample
import Verif.Props.Cron
/-! C140: no bundle that is kept for another node is forgotten. -/

namespace Dtn.Props
open Proc Spec
open Routing (Notification Answer)

variable {cfg : Config} {clock : Nat} {bid : String} {pc : PeerCfg}

namespace Ex140

/-- A test for `KeptForOthers`. -/
def kept (n : Node) : Bool :=
  (n.store.getBundle "b").all fun b => decide (b.primary.destination.nodeId ≠ Ex.cfg.hostEid.nodeId) &&
    b.canonicals.all fun c => !decide (11 ≤ c.btype) || !c.flags.remove

theorem kept_of {n : Node} (h : kept n = true) : KeptForOthers Ex.cfg "b" n := by
  intro b hb
  unfold kept at h
  rw [hb] at h
  simp only [Option.all_some, Bool.and_eq_true, decide_eq_true_eq, List.all_eq_true] at h
  refine ⟨h.1, fun c hc hu => ?_⟩
  have := h.2 c hc
  unfold UnknownBlock at hu
  simpa [hu] using this

/-- A test for `NotBroughtAgain`. -/
def alone (n m : Node) : Bool :=
  (newEvents n m).all fun e => match e with
    | .called (.receive b) => decide (b.id ≠ "b")
    | .called (.send b) => decide (b.id ≠ "b")
    | .report r => decide (r.report.id ≠ "b")
    | _ => true

theorem alone_of {n m : Node} (h : alone n m = true) : NotBroughtAgain n "b" m := by
  intro e he hb
  have := List.all_eq_true.mp h e he
  cases e with
  | called c => cases c <;> simp_all [Brings]
  | report r => simp_all [Brings]
  | _ => exact hb

end Ex140

/-- C140 (part). Whatever calls a node has got, in whatever order their tasks have run, and whatever has failed: when all tasks have
ended, a bundle that is in the store waits to be forwarded, if the bundles stored under its id were for other nodes. Missing: bundles
with unknown blocks that ask to be removed, for which it is false (`C140_stuck_violated`). -/
theorem C140_waiting_at_rest_partial {n : Node} (run : Throughout .any (KeptForOthers cfg bid) ⟨Node.start cfg clock, []⟩ ⟨n, []⟩)
    (stored : n.store.getBundle bid ≠ none) : WaitsToGo bid n :=
  (settled_rest run).resolve_left stored

/-- The bundle comes in while another one is processed, the convergence layer fails, and the janitor tries again. -/
example : ∃ n, Throughout .any (KeptForOthers Ex.cfg "b") ⟨Node.start Ex.cfg 946684800100, []⟩ ⟨n, []⟩ ∧ n.store.getBundle "b" ≠ none ∧
    .called (.receive (Ex.bundle 5 1 20)) ∈ n.events ∧ .called .janitor ∈ n.events ∧ ∃ t, .sending t ∈ n.events := by
  obtain ⟨_, _, n, -, h2, h3⟩ := exists_throughout (n := Node.start Ex.cfg 946684800100) [] (fun _ => ⟨Node.start Ex.cfg 946684800100, []⟩)
    ([.call (.receive Ex113.other)] ++ go 4 ++ [.call (.receive (Ex.bundle 5 1 20)), .cla true] ++
      List.replicate 7 (.run 1 (some (Ex.answer false)) false "r") ++ go 80 (some (Ex.answer false)) false ++ [.call (.remove "c")] ++ go 5 ++
      [.call .janitor] ++ go 80 (some (Ex.answer false)) false)
    (fun _ => Ex140.kept)
    (fun _ n => (n.store.getBundle "b").isSome && (n.events.any fun e => match e with | .called (.receive b) => decide (b = Ex.bundle 5 1 20) | _ => false) &&
      (n.events.any fun e => match e with | .called .janitor => true | _ => false) && (n.events.any fun e => match e with | .sending _ => true | _ => false))
    (by decide +kernel)
  simp only [Bool.and_eq_true, List.any_eq_true] at h3
  obtain ⟨⟨⟨h3, e1, h4, h5⟩, e2, h6, h7⟩, e3, h8, h9⟩ := h3
  refine ⟨n, h2.weaken fun m h b hb => Ex140.kept_of h b hb, (fun h => by rw [h] at h3; cases h3), ?_, ?_, ?_⟩
  · split at h5
    · rw [← of_decide_eq_true h5]; exact h4
    · cases h5
  · split at h7
    · exact h6
    · cases h7
  · split at h9
    · exact ⟨_, h8⟩
    · cases h9

/-- C140 (continued). Once a node is at rest and a bundle waits, it goes on waiting as long as it is in the store, at every moment of
every execution in which it does not come in again. -/
theorem C140_goes_on_waiting_partial {n : Node} (before : Reaches .any ⟨Node.start cfg clock, []⟩ ⟨n, []⟩) (waits : WaitsToGo bid n) {t : Sys}
    (run : Throughout .any (fun m => KeptForOthers cfg bid m ∧ NotBroughtAgain n bid m) ⟨n, []⟩ t)
    (stored : t.node.store.getBundle bid ≠ none) : WaitsToGo bid t.node :=
  (settled_after before (.inr waits) run).resolve_left stored

/-- The bundle goes on waiting while the janitor has taken it to the router and the convergence layer is busy. -/
example : ∃ n t, Reaches .any ⟨Node.start Ex.cfg 946684800100, []⟩ ⟨n, []⟩ ∧ WaitsToGo "b" n ∧
    Throughout .any (fun m => KeptForOthers Ex.cfg "b" m ∧ NotBroughtAgain n "b" m) ⟨n, []⟩ t ∧ t.pool ≠ [] ∧
    (∃ x, .sending x ∈ newEvents n t.node) ∧ t.node.store.getBundle "b" ≠ none := by
  obtain ⟨s, t, h1, h2, h3⟩ := exists_throughout' (n := Node.start Ex.cfg 946684800100)
    ([.call (.receive (Ex.bundle 5 1 20)), .cla true] ++ go 80) id ([.call .janitor] ++ go 18 (some (Ex.answer false)) false)
    (fun n m => Ex140.kept m && Ex140.alone n m)
    (fun s t => s.pool.isEmpty && !t.pool.isEmpty && ((s.node.store.getMetadata "b").any fun p => p.has .forwardPending && !p.has .deleted) &&
      ((newEvents s.node t.node).any fun e => match e with | .sending _ => true | _ => false) && (t.node.store.getBundle "b").isSome) (by decide +kernel)
  obtain ⟨n, pool⟩ := s
  simp only [Bool.and_eq_true, List.isEmpty_iff, Bool.not_eq_true', Option.any_eq_true, List.any_eq_true] at h3
  obtain ⟨⟨⟨⟨rfl, h4⟩, p, h5, h6⟩, e, h7, h8⟩, h9⟩ := h3
  refine ⟨n, t, h1, ⟨p, h5, h6⟩, h2.weaken fun m h => ?_, (fun h => by rw [h] at h4; cases h4), ?_, (fun h => by rw [h] at h9; cases h9)⟩
  · rw [Bool.and_eq_true] at h
    exact ⟨Ex140.kept_of h.1, Ex140.alone_of h.2⟩
  · split at h8
    · exact ⟨_, h7⟩
    · cases h8

/-- C140 (offered again and again). Once a node with its janitor is at rest and a bundle waits, the bundle is taken to the router again
and again, until it leaves the store, comes in again, or there is no convergence layer. -/
theorem C140_again_and_again_partial {f : Nat → Cron.Sys} (begins : f 0 = Cron.start cfg clock) (run : JanitorRun (.mem pc) f)
    (safe : cfg.parallel = true ∨ ∀ i, AllReadable (f i).node) {i k : Nat} (later : i ≤ k)
    (rest : (f i).phase = .waiting ∧ (f i).others = []) (waits : WaitsToGo bid (f i).node)
    (quiet : ∀ j, i ≤ j → j ≤ k → KeptForOthers cfg bid (f j).node ∧ NotBroughtAgain (f i).node bid (f j).node) :
    ∃ j, k ≤ j ∧ ((∃ bp a, bp.id = bid ∧ .asked bp a ∈ newEvents (f k).node (f j).node) ∨ (f j).node.store.getBundle bid = none ∨
      (f j).node.claActive = false ∨ ¬ KeptForOthers cfg bid (f j).node ∨ ¬ NotBroughtAgain (f i).node bid (f j).node) := by
  refine Classical.byContradiction fun hno => ?_
  have all : ∀ j, k ≤ j → (f j).node.store.getBundle bid ≠ none ∧ (f j).node.claActive = true ∧ KeptForOthers cfg bid (f j).node ∧
      NotBroughtAgain (f i).node bid (f j).node := by
    refine fun j hj => ⟨fun h => hno ⟨j, hj, .inr (.inl h)⟩, ?_, ?_, ?_⟩
    · cases h : (f j).node.claActive with
      | true => rfl
      | false => exact absurd ⟨j, hj, .inr (.inr (.inl h))⟩ hno
    · exact Classical.byContradiction fun h => hno ⟨j, hj, .inr (.inr (.inr (.inl h)))⟩
    · exact Classical.byContradiction fun h => hno ⟨j, hj, .inr (.inr (.inr (.inr h)))⟩
  have cond : ∀ d, KeptForOthers cfg bid (f (i + d)).node ∧ NotBroughtAgain (f i).node bid (f (i + d)).node := by
    intro d
    rcases Nat.le_total (i + d) k with h | h
    · exact quiet _ (by omega) h
    · exact (all _ h).2.2
  have before : Reaches .any ⟨Node.start cfg clock, []⟩ ⟨(f i).node, []⟩ := by
    obtain ⟨pool, h1, h2⟩ := flat_run begins run i
    rw [rest.1, rest.2] at h2
    have : pool = [] := (List.nil_perm.mp (by simpa [Cron.Phase.own] using h2))
    rw [this] at h1; exact h1
  have still : ∀ j, k ≤ j → WaitsToLeave bid (f j).node := by
    intro j hj
    obtain ⟨d, rfl⟩ := Nat.exists_eq_add_of_le (show i ≤ j by omega)
    obtain ⟨pool, h, -⟩ := Cron.run_throughout (J := fun m => KeptForOthers cfg bid m ∧ NotBroughtAgain (f i).node bid m) (fun _ _ h => h) run i cond d
    rw [rest.1, rest.2] at h
    exact ⟨(all _ hj).2.1, (settled_after before (.inr waits) h).resolve_left (all _ hj).1⟩
  obtain ⟨j, hj, h | h⟩ := C137_offered_again begins run safe k bid
  · exact hno ⟨j, hj, .inl h⟩
  · exact h (still j hj)

/-- A node at rest, with a bundle that waits. -/
example : ∃ (f : Nat → Cron.Sys) (i : Nat), f 0 = Cron.start Ex.cfg 946684800100 ∧ JanitorRun (.mem Ex.peerCfg) f ∧ Ex.cfg.parallel = true ∧
    ((f i).phase = .waiting ∧ (f i).others = []) ∧ WaitsToGo "b" (f i).node ∧
    (∀ j, i ≤ j → j ≤ i → KeptForOthers Ex.cfg "b" (f j).node ∧ NotBroughtAgain (f i).node "b" (f j).node) ∧
    (f i).node.store.getBundle "b" ≠ none ∧ (f i).node.claActive = true := by
  obtain ⟨s, h1, h2⟩ := Cron.exists_state (su := .mem Ex.peerCfg) (s := Cron.start Ex.cfg 946684800100)
    (Ex.arrives (Ex.bundle 5 1 20)) (fun s => s.node.claActive && (match s.phase with | .waiting => true | _ => false) && s.others.isEmpty && Ex140.kept s.node &&
      (s.node.store.getBundle "b").isSome && (s.node.store.getMetadata "b").any fun (p : Pack) => p.has .forwardPending && !p.has .deleted) (by decide +kernel)
  obtain ⟨f, i, k1, k2, k3, -⟩ := Cron.exists_run h1 (Cron.held_reaches (Cron.fair_mem _) h1 (Cron.held_start _ _))
  simp only [Bool.and_eq_true, Option.any_eq_true, List.isEmpty_iff, Bool.not_eq_true'] at h2
  obtain ⟨⟨⟨⟨⟨h2, h3⟩, h4⟩, h5⟩, h6⟩, p, h7, h8⟩ := h2
  refine ⟨f, i, k1, k3, rfl, by rw [k2]; exact ⟨by split at h3 <;> [assumption; cases h3], h4⟩, by rw [k2]; exact ⟨p, h7, h8⟩, fun j h h' => ?_,
    (by rw [k2]; intro h; rw [h] at h6; cases h6), by rw [k2]; exact h2⟩
  obtain rfl : i = j := Nat.le_antisymm h h'
  exact ⟨by rw [k2]; exact Ex140.kept_of h5, fun e he => by simp [newEvents] at he⟩

/-- C140 is violated for bundles with unknown blocks that ask to be removed: the task that has stored such a bundle may abort. Then
the bundle stays in the store without waiting for anything, and nothing takes it up any more, unless it comes in again. -/
theorem C140_stuck_violated : ∃ (cfg : Config) (clock : Nat) (n : Node) (b : Bundle), Reaches .any ⟨Node.start cfg clock, []⟩ ⟨n, []⟩ ∧
    n.store.getBundle b.id = some b ∧ b.primary.destination.nodeId ≠ cfg.hostEid.nodeId ∧ .called (.receive b) ∈ n.events ∧ ¬ WaitsToGo b.id n ∧
    ∀ t, Reaches .any ⟨n, []⟩ t → NotBroughtAgain n b.id t.node → ¬ WaitsToGo b.id t.node ∧ ∀ e ∈ t.node.events, ¬ TakenUp b.id e := by
  have idle : ∀ {n : Node}, Idle "b" n → ¬ WaitsToGo "b" n := by
    rintro n h ⟨p, h1, h2, -⟩
    rw [h.mark p h1] at h2; cases h2
  obtain ⟨⟨n, pool⟩, h1, h2⟩ := exists_run (n := Node.start Ex.cfg 946684800100)
    ([.call (.receive (Ex.strange [Ex.odd 11 true, Ex.odd 12 true, Ex.odd 13 true]))] ++ go 20)
    (fun s => s.pool.isEmpty && decide (s.node.store.getBundle "b" = some (Ex.strange [Ex.odd 11 true, Ex.odd 12 true, Ex.odd 13 true])) &&
      s.node.agents.isEmpty && ((s.node.store.getMetadata "b").all fun p => !p.has .forwardPending) &&
      (s.node.events.any fun e => match e with | .called (.receive b) => decide (b = Ex.strange [Ex.odd 11 true, Ex.odd 12 true, Ex.odd 13 true]) | _ => false) &&
      s.node.events.all fun e => match e with | .called _ => true | .accepted _ => true | _ => false) (by decide +kernel)
  simp only [Bool.and_eq_true, List.isEmpty_iff, decide_eq_true_eq, List.any_eq_true, List.all_eq_true] at h2
  obtain ⟨⟨⟨⟨⟨rfl, h2⟩, h3⟩, h4⟩, e, h5, h6⟩, h7⟩ := h2
  have hi : Idle "b" n := by
    refine ⟨fun p hp => ?_, (fun a ha => by rw [h3] at ha; cases ha), fun e he ht => ?_⟩
    · rw [hp] at h4; simpa using h4
    · have := h7 e he
      cases e <;> simp [TakenUp] at this ht
  refine ⟨Ex.cfg, 946684800100, n, Ex.strange [Ex.odd 11 true, Ex.odd 12 true, Ex.odd 13 true], h1, h2, by decide, ?_, idle hi, fun t ht alone => ?_⟩
  · split at h6
    · rw [← of_decide_eq_true h6]; exact h5
    · cases h6
  · have := (ignored_always h1 ⟨hi, by simp⟩ (by rintro ⟨r, hr, -⟩; cases h7 _ hr) ht alone).1
    exact ⟨idle this, this.silent⟩

end Dtn.Props
