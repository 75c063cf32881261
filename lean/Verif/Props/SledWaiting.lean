import Verif.Lemmas.SledWaitingRun
import Verif.Lemmas.SledCronExample
import Verif.Lemmas.SledStranded
import Verif.Props.SledCron
import Verif.Props.Waiting
/-! C148: no bundle that is kept for another node is forgotten by a node with the persistent store. -/

namespace Dtn.Props
open Proc Spec
open Routing (Notification Answer)

variable {cfg : Config} {clock : Nat} {bid : String} {pc : PeerCfg}

/-- C148 (part). Take any history of a node with the persistent store, in which the process was stopped and started at any points, and a
node at rest at its end, in which the bundle waits if it is in the database. Whatever calls the node gets from then on, in whatever
order their tasks run, and whatever fails: when all tasks have ended, the bundle waits to be forwarded if it is in the database, if the
bundles stored under its id were for other nodes. Missing: a stop of the process while tasks are running, for which it is
false (`C148_stopped_violated`), and bundles with unknown blocks that ask to be removed. -/
theorem C148_waiting_at_rest_partial {n m : Node} (before : OnSled.Reaches ⟨Node.start cfg clock, []⟩ ⟨n, []⟩)
    (waits : n.store.getBundle bid ≠ none → WaitsToGo bid n) (run : SledThroughout (KeptForOthers cfg bid) ⟨n, []⟩ ⟨m, []⟩)
    (stored : m.store.getBundle bid ≠ none) : WaitsToGo bid m := by
  refine (OnSled.settled_rest before ?_ run).resolve_left stored
  by_cases h : n.store.getBundle bid = none
  · exact .inl h
  · exact .inr (waits h)

/-- After a restart, the bundle comes in and is handed over in vain, another one comes in, and the janitor runs. -/
example : ∃ n m, OnSled.Reaches ⟨Node.start Ex.cfg 946684800100, []⟩ ⟨n, []⟩ ∧ (n.store.getBundle "b" ≠ none → WaitsToGo "b" n) ∧
    SledThroughout (KeptForOthers Ex.cfg "b") ⟨n, []⟩ ⟨m, []⟩ ∧ m.store.getBundle "b" ≠ none ∧
    .called (.receive (Ex.bundle 5 1 20)) ∈ newEvents n m ∧ .called .janitor ∈ newEvents n m ∧ ∃ t, .sending t ∈ newEvents n m := by
  obtain ⟨n, tasks, m, h1, h2, h3⟩ := OnSled.exists_sled (n := Node.start Ex.cfg 946684800100) [.restart 946684800150] (fun s => s)
    ([.call (.receive Ex113.other), .cla true] ++ List.replicate 4 (.run 0 none true "r") ++ [.call (.receive (Ex.bundle 5 1 20))] ++
      List.replicate 90 (.next (some (Ex.answer false)) false "r") ++ [.call .janitor] ++ List.replicate 90 (.next (some (Ex.answer false)) false "r"))
    (fun _ => Ex140.kept)
    (fun s m => s.pool.isEmpty && (s.node.store.getBundle "b").isNone && (m.store.getBundle "b").isSome &&
      ((newEvents s.node m).any fun e => match e with | .called (.receive b) => decide (b = Ex.bundle 5 1 20) | _ => false) &&
      ((newEvents s.node m).any fun e => match e with | .called .janitor => true | _ => false) &&
      ((newEvents s.node m).any fun e => match e with | .sending _ => true | _ => false))
    (by decide +kernel)
  simp only [Bool.and_eq_true, List.any_eq_true, List.isEmpty_iff, Option.isNone_iff_eq_none] at h3
  obtain ⟨⟨⟨⟨⟨rfl, h0⟩, h3⟩, e1, h4, h5⟩, e2, h6, h7⟩, e3, h8, h9⟩ := h3
  refine ⟨n, m, h1, fun h => absurd h0 h, h2.weaken fun m h b hb => Ex140.kept_of h b hb, (fun h => by rw [h] at h3; cases h3), ?_, ?_, ?_⟩
  · split at h5
    · rw [← of_decide_eq_true h5]; exact h4
    · cases h5
  · split at h7
    · exact h6
    · cases h7
  · split at h9
    · exact ⟨_, h8⟩
    · cases h9

/-- C148 (continued). Once a node is at rest and a bundle in its database waits, it goes on waiting as long as it is in the database,
at every moment of every execution in which it does not come in again, also if the process is stopped and started again at any times,
except in the middle of the removal of the bundle itself. -/
theorem C148_goes_on_waiting_partial {n : Node} (before : OnSled.Reaches ⟨Node.start cfg clock, []⟩ ⟨n, []⟩) (waits : WaitsToGo bid n) {t : Sys}
    (run : SledKept bid (fun m => KeptForOthers cfg bid m ∧ NotBroughtAgain n bid m) ⟨n, []⟩ t)
    (stored : t.node.store.getBundle bid ≠ none) : WaitsToGo bid t.node :=
  (OnSled.settled_after before (.inr waits) run).resolve_left stored

/-- The process is stopped while the janitor has handed over the bundle; afterwards the janitor runs again. -/
example : ∃ n t, OnSled.Reaches ⟨Node.start Ex.cfg 946684800100, []⟩ ⟨n, []⟩ ∧ WaitsToGo "b" n ∧
    SledKept "b" (fun m => KeptForOthers Ex.cfg "b" m ∧ NotBroughtAgain n "b" m) ⟨n, []⟩ t ∧
    (∃ x, .sending x ∈ newEvents n t.node) ∧ t.node.clock = 946684800300 ∧ t.node.store.getBundle "b" ≠ none := by
  obtain ⟨n, tasks, m, h1, h2, h3⟩ := OnSled.exists_sled (n := Node.start Ex.cfg 946684800100)
    ([.call (.receive (Ex.bundle 5 1 20)), .cla true] ++ OnSled.going 90) (fun s => s)
    ([.call .janitor] ++ List.replicate 90 (.next (some (Ex.answer false)) false "r"))
    (fun n m => Ex140.kept m && Ex140.alone n m)
    (fun s m => s.pool.isEmpty && ((s.node.store.getMetadata "b").any fun p => p.has .forwardPending && !p.has .deleted) &&
      ((newEvents s.node m).any fun e => match e with | .sending _ => true | _ => false) && (m.store.getBundle "b").isSome) (by decide +kernel)
  simp only [Bool.and_eq_true, List.isEmpty_iff, Bool.not_eq_true', Option.any_eq_true, List.any_eq_true] at h3
  obtain ⟨⟨⟨rfl, p, h5, h6⟩, e, h7, h8⟩, h9⟩ := h3
  have h2' := (h2.weaken (J := fun m => KeptForOthers Ex.cfg "b" m ∧ NotBroughtAgain n "b" m) fun m h => by
    rw [Bool.and_eq_true] at h
    exact ⟨Ex140.kept_of h.1, Ex140.alone_of h.2⟩)
  refine ⟨n, ⟨OnSled.restarted m 946684800300, []⟩, h1, ⟨p, h5, h6⟩, (h2'.kept).restart _ h2'.last, ?_, rfl, fun h => ?_⟩
  · split at h8
    · exact ⟨_, h7⟩
    · cases h8
  · rw [show m.store.getBundle "b" = none from h] at h9; cases h9

/-- C148 (offered again and again). Once a node with its janitor is at rest and a bundle in its database waits, also one that an earlier
process has received, the bundle is taken to the router again and again, until it leaves the database, comes in again, there is no
convergence layer, or the process is stopped. -/
theorem C148_again_and_again_partial {f : Nat → Cron.Sys} (before : Cron.History pc cfg clock (f 0)) (run : JanitorRun (.sled pc) f)
    (parallel : cfg.parallel = true) {i k : Nat} (later : i ≤ k)
    (rest : (f i).phase = .waiting ∧ (f i).others = []) (waits : WaitsToGo bid (f i).node)
    (quiet : ∀ j, i ≤ j → j ≤ k → KeptForOthers cfg bid (f j).node ∧ NotBroughtAgain (f i).node bid (f j).node) :
    ∃ j, k ≤ j ∧ ((∃ bp a, bp.id = bid ∧ .asked bp a ∈ newEvents (f k).node (f j).node) ∨ (f j).node.store.getBundle bid = none ∨
      (f j).node.claActive = false ∨ ¬ KeptForOthers cfg bid (f j).node ∨ ¬ NotBroughtAgain (f i).node bid (f j).node) := by
  refine Classical.byContradiction fun hno => ?_
  have all : ∀ j, k ≤ j → (f j).node.store.getBundle bid ≠ none ∧ (f j).node.claActive = true ∧ KeptForOthers cfg bid (f j).node ∧
      NotBroughtAgain (f i).node bid (f j).node := by
    refine fun j hj => ⟨fun h => hno ⟨j, hj, .inr (.inl h)⟩, ?_, ?_, ?_⟩
    · cases h : (f j).node.claActive with
      | true => rfl
      | false => exact absurd ⟨j, hj, .inr (.inr (.inl h))⟩ hno
    · exact Classical.byContradiction fun h => hno ⟨j, hj, .inr (.inr (.inr (.inl h)))⟩
    · exact Classical.byContradiction fun h => hno ⟨j, hj, .inr (.inr (.inr (.inr h)))⟩
  have cond : ∀ d, KeptForOthers cfg bid (f (i + d)).node ∧ NotBroughtAgain (f i).node bid (f (i + d)).node := by
    intro d
    rcases Nat.le_total (i + d) k with h | h
    · exact quiet _ (by omega) h
    · exact (all _ h).2.2
  have before' : OnSled.Reaches ⟨Node.start cfg clock, []⟩ ⟨(f i).node, []⟩ := by
    obtain ⟨pool, h1, h2⟩ := (sled_run before run i).flat
    rw [rest.1, rest.2] at h2
    have : pool = [] := (List.nil_perm.mp (by simpa [Cron.Phase.own] using h2))
    rw [this] at h1; exact h1
  have still : ∀ j, k ≤ j → WaitsToLeave bid (f j).node := by
    intro j hj
    obtain ⟨d, rfl⟩ := Nat.exists_eq_add_of_le (show i ≤ j by omega)
    obtain ⟨pool, h, -⟩ := Cron.run_sled (J := fun m => KeptForOthers cfg bid m ∧ NotBroughtAgain (f i).node bid m) (fun _ _ h => h) run i cond d
    rw [rest.1, rest.2] at h
    exact ⟨(all _ hj).2.1, (OnSled.settled_after before' (.inr waits) h.kept).resolve_left (all _ hj).1⟩
  obtain ⟨j, hj, h | h⟩ := C139_offered_again before run parallel k bid
  · exact hno ⟨j, hj, .inl h⟩
  · exact h (still j hj)

/-- A process finds a bundle in its database that waits. -/
example : ∃ (s : Cron.Sys) (f : Nat → Cron.Sys), Cron.History Ex.peerCfg Ex.cfg 946684800100 (f 0) ∧
    f 0 = ⟨OnSled.restarted s.node 946684800200, .waiting, []⟩ ∧ JanitorRun (.sled Ex.peerCfg) f ∧ Ex.cfg.parallel = true ∧
    ((f 0).phase = .waiting ∧ (f 0).others = []) ∧ WaitsToGo "b" (f 0).node ∧
    (∀ j, 0 ≤ j → j ≤ 0 → KeptForOthers Ex.cfg "b" (f j).node ∧ NotBroughtAgain (f 0).node "b" (f j).node) ∧
    (f 0).node.store.getBundle "b" ≠ none := by
  obtain ⟨s, t, h1, h2, h3⟩ := Cron.exists_life (pc := Ex.peerCfg) (cfg := Ex.cfg) (clock := 946684800100) (Ex.arrives (Ex.bundle 5 1 20)) 946684800200 []
    (fun s _ => Ex140.kept s.node && (s.node.store.getBundle "b").isSome &&
      (s.node.store.getMetadata "b").any fun (p : Pack) => p.has .forwardPending && !p.has .deleted) (by decide +kernel)
  obtain ⟨f, k1, k2, -⟩ := Cron.exists_forever (su := .sled Ex.peerCfg) ⟨OnSled.restarted s.node 946684800200, .waiting, []⟩
  simp only [Bool.and_eq_true, Option.any_eq_true, Bool.not_eq_true'] at h3
  obtain ⟨⟨h3, h6⟩, p, h4, h5⟩ := h3
  refine ⟨s, f, by rw [k1]; exact h1.restart _, k1, k2, rfl, by rw [k1]; exact ⟨rfl, rfl⟩, by rw [k1]; exact ⟨p, h4, h5⟩, fun j _ h => ?_, ?_⟩
  · obtain rfl : j = 0 := by omega
    exact ⟨by rw [k1]; exact Ex140.kept_of h3, fun e he => by simp [newEvents] at he⟩
  · rw [k1]; intro h
    rw [show s.node.store.getBundle "b" = none from h] at h6; cases h6

/-- C148 is violated if the process is stopped while a bundle is processed: the bundle is in the database, is for another node, and
does not wait for anything. It stays like this whatever happens, also if it is received again and whenever the process is restarted,
unless an application submits it anew, or a status report gets its id. -/
theorem C148_stopped_violated : ∃ (cfg : Config) (clock : Nat) (n : Node) (b : Bundle), OnSled.Reaches ⟨Node.start cfg clock, []⟩ ⟨n, []⟩ ∧
    n.store.getBundle b.id = some b ∧ b.primary.destination.nodeId ≠ cfg.hostEid.nodeId ∧ Plain b ∧ .called (.receive b) ∈ n.events ∧
    ∀ t, OnSled.Reaches ⟨n, []⟩ t → (∀ e ∈ newEvents n t.node, originated b.id e = false) →
      ¬ WaitsToGo b.id t.node ∧ ∀ e ∈ newEvents n t.node, handled b.id e = false := by
  obtain ⟨⟨n, pool⟩, -, h1, -, h2⟩ := OnSled.exists_moves (n := Node.start Ex.cfg 946684800100)
    ([.call (.receive (Ex.bundle 5 1 20))] ++ List.replicate 3 (.run 0 none true "r") ++ [.restart 946684800200]) [] id
    (fun s _ => s.pool.isEmpty && decide (s.node.store.getBundle "b" = some (Ex.bundle 5 1 20)) &&
      s.node.agents.isEmpty && ((s.node.store.getMetadata "b").any fun p => !p.has .forwardPending) &&
      (s.node.events.any fun e => match e with | .called (.receive b) => decide (b = Ex.bundle 5 1 20) | _ => false)) (by decide +kernel)
  simp only [Bool.and_eq_true, List.isEmpty_iff, decide_eq_true_eq, List.any_eq_true, Option.any_eq_true, Bool.not_eq_true'] at h2
  obtain ⟨⟨⟨⟨rfl, h2⟩, h3⟩, p, h4, h5⟩, e, h6, h7⟩ := h2
  refine ⟨Ex.cfg, 946684800100, n, Ex.bundle 5 1 20, h1, h2, by decide, (fun c hc hu => ?_), ?_, fun t ht alone => ?_⟩
  · have := List.all_eq_true.mp (show (Ex.bundle 5 1 20).canonicals.all (fun c => !c.flags.remove) = true from by decide) c hc
    simpa using this
  · split at h7
    · rw [← of_decide_eq_true h7]; exact h6
    · cases h7
  · have st : OnSled.Stranded n "b" n := by
      refine ⟨(OnSled.between h1 (.refl _)).1, List.prefix_rfl, by rw [h4]; simp, fun q hq => ?_, fun a ha => by rw [h3] at ha; cases ha⟩
      rw [h4] at hq; cases hq; exact h5
    have l := (OnSled.reaches_stranded h1 ht st rfl (by
      rintro ⟨e, he, ho⟩
      have := alone e he
      rw [show (Ex.bundle 5 1 20).id = "b" from rfl, ho] at this; cases this)).1
    refine ⟨?_, ?_⟩
    · rintro ⟨q, k1, k2, -⟩
      rw [l.stranded.mark q k1] at k2; cases k2
    · obtain ⟨es, he, hs⟩ := l.silent
      rw [newEvents_eq (show t.node.events = n.events ++ es from he)]
      exact hs

end Dtn.Props
