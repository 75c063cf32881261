import Verif.Lemmas.CronExample
import Verif.Lemmas.Peers
/-! C136, C137: the janitor runs again and again, and does its work. -/

namespace Dtn.Props
open Spec Proc

variable {pc : PeerCfg} {cfg : Config} {clock : Nat}

/-- Where the janitor does not stop. -/
theorem janitor_on {s : Cron.Sys} (run : JanitorThroughout (.mem pc) (fun n => cfg.parallel = true ∨ AllReadable n) (Cron.start cfg clock) s) :
    Cron.Reaches (.mem pc) (Cron.start cfg clock) s ∧
      Cron.Runs (fun n => n.cfg = cfg ∧ (cfg.parallel = true ∨ AllReadable n)) s.phase ∧ (cfg.parallel = true ∨ AllReadable s.node) := by
  induction run with
  | refl h => exact ⟨.refl _, trivial, h⟩
  | @step t u _ st hi ih =>
    obtain ⟨h1, h2, h3⟩ := ih
    refine ⟨h1.step st, Cron.runs_step (Cron.steady_janitor ?_) st ⟨(Cron.flat_reaches h1).good.2, h3⟩ h2, hi⟩
    rintro n ⟨rfl, h⟩
    by_cases hp : n.cfg.parallel = true
    · exact .inl hp
    · exact .inr fun m im => im.2.resolve_left hp

/-- C136 (parallel processing). The task of the janitor never stops, whatever bundles the node receives, and whatever else
happens. -/
theorem C136_never_stops (parallel : cfg.parallel = true) {s : Cron.Sys} (run : Cron.Reaches (.mem pc) (Cron.start cfg clock) s) :
    s.phase ≠ .stopped := by
  have : JanitorThroughout (.mem pc) (fun n => cfg.parallel = true ∨ AllReadable n) (Cron.start cfg clock) s := by
    induction run with
    | refl => exact .refl (.inl parallel)
    | step _ st ih => exact ih.step st (.inl parallel)
  exact (janitor_on this).2.1.not_stopped

/-- A run in which the processing of a bundle panics: it is received, waits, and the router then names a neighbour. The janitor goes
on, and waits for its timer in the end. -/
example : ∃ s, Ex.cfg.parallel = true ∧ Cron.Reaches (.mem Ex.peerCfg) (Cron.start Ex.cfg 946684800100) s ∧ s.phase = .waiting ∧
    (s.node.store.getBundle "b").isSome ∧ ∃ bp x, .asked bp (some x) ∈ s.node.events ∧ x.clas ≠ [] := by
  obtain ⟨s, h1, h2⟩ := Cron.exists_state (su := .mem Ex.peerCfg) (s := Cron.start Ex.cfg 946684800100)
    (Ex.arrives Ex.unreadable ++ [.tick] ++ List.replicate 8 (.main none true "r") ++
      List.replicate 6 (.started 0 (some (Ex.answer false)) true "r") ++ [.ended])
    (fun s => (match s.phase with | .waiting => true | _ => false) && (s.node.store.getBundle "b").isSome &&
      s.node.events.any fun e => match e with | .asked _ (some x) => !x.clas.isEmpty | _ => false) (by decide +kernel)
  simp only [Bool.and_eq_true, List.any_eq_true] at h2
  obtain ⟨⟨h2, h3⟩, e, he, h4⟩ := h2
  refine ⟨s, rfl, h1, ?_, h3, ?_⟩
  · split at h2
    · assumption
    · cases h2
  · split at h4
    · rename_i bp x
      exact ⟨bp, x, he, by simpa using h4⟩
    · cases h4

/-- C136 (one bundle after the other). Without parallel processing, this needs that the previous node blocks of all bundles in the
store can be read. -/
theorem C136_never_stops_partial {s : Cron.Sys} (run : JanitorThroughout (.mem pc) AllReadable (Cron.start cfg clock) s) : s.phase ≠ .stopped := by
  have : JanitorThroughout (.mem pc) (fun n => cfg.parallel = true ∨ AllReadable n) (Cron.start cfg clock) s := by
    induction run with
    | refl h => exact .refl (.inr h)
    | step _ st h ih => exact ih.step st (.inr h)
  exact (janitor_on this).2.1.not_stopped

/-- A bundle is received and forwarded by the janitor. -/
example : ∃ s, JanitorThroughout (.mem Ex.peerCfg) AllReadable (Cron.start { Ex.cfg with parallel := false } 946684800100) s ∧
    (∃ p started, s.phase = .round (some p) started) ∧ (∃ t, .sending t ∈ s.node.events) := by
  obtain ⟨s, h1, h2⟩ := Cron.exists_janitorThroughout (su := .mem Ex.peerCfg) (s := Cron.start { Ex.cfg with parallel := false } 946684800100)
    Ex.allReadable (fun _ => Ex.allReadable_of)
    (Ex.arrives (Ex.bundle 5 1 20) ++ [.tick] ++ List.replicate 14 (.main (some (Ex.answer false)) true "r") ++ [.started 0 none true "r"])
    (fun s => (match s.phase with | .round (some _) _ => true | _ => false) && s.node.events.any fun e => match e with | .sending _ => true | _ => false)
    (by decide +kernel)
  simp only [Bool.and_eq_true, List.any_eq_true] at h2
  obtain ⟨h2, e, he, h4⟩ := h2
  refine ⟨s, h1, ?_, ?_⟩
  · split at h2
    · exact ⟨_, _, by assumption⟩
    · cases h2
  · split at h4
    · exact ⟨_, he⟩
    · cases h4

/-- C136 is violated without parallel processing: once a bundle has been received whose previous node block cannot be read, and the
router names a neighbour for it in a run of the janitor, there will never be another run. -/
theorem C136_stopped_violated : ∃ (pc : PeerCfg) (cfg : Config) (clock : Nat) (s : Cron.Sys), cfg.parallel = false ∧
    Cron.Reaches (.mem pc) (Cron.start cfg clock) s ∧ .called .janitor ∈ s.node.events ∧
    ∀ t, Cron.Reaches (.mem pc) s t → t.phase = .stopped ∧ .called .janitor ∉ newEvents s.node t.node := by
  obtain ⟨s, h1, h2⟩ := Cron.exists_state (su := .mem Ex.peerCfg) (s := Cron.start { Ex.cfg with parallel := false } 946684800100)
    (Ex.arrives Ex.unreadable ++ [.tick] ++ List.replicate 12 (.main (some (Ex.answer false)) true "r"))
    (fun s => (match s.phase with | .stopped => true | _ => false) && decide (.called .janitor ∈ s.node.events)) (by decide +kernel)
  simp only [Bool.and_eq_true, decide_eq_true_eq] at h2
  obtain ⟨h2, h3⟩ := h2
  have hs : s.phase = .stopped := by
    split at h2
    · assumption
    · cases h2
  refine ⟨_, _, _, s, rfl, h1, h3, ?_⟩
  have : ∀ t, Cron.Reaches (.mem Ex.peerCfg) s t → t.phase = .stopped ∧ ∃ es, t.node.events = s.node.events ++ es ∧ .called .janitor ∉ es := by
    intro t ht
    induction ht with
    | refl => exact ⟨hs, [], by simp, by simp⟩
    | @step t u ht st ih =>
      obtain ⟨k1, es, k2, k3⟩ := ih
      obtain ⟨k4, es', k5, k6⟩ := Cron.stopped_step st k1
        (fun p hp => Cron.noCalls_reaches (Cron.plain_mem _) (h1.join ht) (by intro p hp; cases hp) p (List.mem_append_right _ hp))
      exact ⟨k4, es ++ es', by rw [k5, k2, List.append_assoc], by simp [k3, k6]⟩
  intro t ht
  obtain ⟨k1, es, k2, k3⟩ := this t ht
  exact ⟨k1, by rw [newEvents_eq k2]; exact k3⟩

/-- The janitor does not stop in a whole execution. -/
theorem always_on {f : Nat → Cron.Sys} (begins : f 0 = Cron.start cfg clock) (run : JanitorRun (.mem pc) f)
    (safe : cfg.parallel = true ∨ ∀ i, AllReadable (f i).node) (i : Nat) : (f i).phase ≠ .stopped := by
  have : JanitorThroughout (.mem pc) (fun n => cfg.parallel = true ∨ AllReadable n) (Cron.start cfg clock) (f i) := by
    induction i with
    | zero => rw [begins]; exact .refl (safe.imp id fun h => by have := h 0; rwa [begins] at this)
    | succ i ih => exact ih.step (run.steps i) (safe.imp id fun h => h _)
  exact (janitor_on this).2.1.not_stopped

/-- What holds in all states of an execution. -/
theorem flat_run {f : Nat → Cron.Sys} (begins : f 0 = Cron.start cfg clock) (run : JanitorRun (.mem pc) f) (i : Nat) : Cron.Flat cfg clock (f i) := by
  have before : Cron.Reaches (.mem pc) (Cron.start cfg clock) (f 0) := by rw [begins]; exact .refl _
  exact Cron.flat_reaches (before.join (by simpa using Cron.run_reaches run 0 i))

theorem held_run {f : Nat → Cron.Sys} (begins : f 0 = Cron.start cfg clock) (run : JanitorRun (.mem pc) f) (i : Nat) : Cron.Held (f i) := by
  have := Cron.run_reaches run 0 i
  rw [Nat.zero_add, begins] at this
  exact Cron.held_reaches (Cron.fair_mem _) this (Cron.held_start _ _)

/-- Events are only added. -/
theorem run_past {f : Nat → Cron.Sys} (begins : f 0 = Cron.start cfg clock) (run : JanitorRun (.mem pc) f) {i j : Nat} (h : i ≤ j) :
    (f i).node.events <+: (f j).node.events := by
  obtain ⟨k, rfl⟩ := Nat.exists_eq_add_of_le h
  clear h
  induction k with
  | zero => exact List.prefix_rfl
  | succ k ih => exact ih.trans ((flat_run begins run (i + k)).base (run.steps _)).past

/-- C136 (again and again). In an execution that goes on for ever, a new run of the janitor begins again and again: no run blocks for
ever, whatever the other tasks do, and even if they make no step at all. -/
theorem C136_again_and_again {f : Nat → Cron.Sys} (begins : f 0 = Cron.start cfg clock) (run : JanitorRun (.mem pc) f)
    (safe : cfg.parallel = true ∨ ∀ i, AllReadable (f i).node) (i : Nat) :
    ∃ j, i ≤ j ∧ .called .janitor ∈ newEvents (f i).node (f j).node := by
  obtain ⟨j, n, o, hij, h1, h2⟩ := Cron.begins_again (held_run begins run) run (always_on begins run safe) i
  refine ⟨j + 1, by omega, ?_⟩
  obtain ⟨k, rfl⟩ := Nat.exists_eq_add_of_le hij
  have hp := run_past begins run (i := i) (j := i + k) (by omega)
  rw [h1] at hp
  refine newEvents_left (m := n) hp ?_ ?_
  · rw [h2]; exact List.prefix_append _ _
  · rw [h2]
    rw [newEvents_eq (es := [.called .janitor]) rfl]
    exact List.mem_singleton.mpr rfl

/-- Such executions exist: every state that can be reached lies on one. -/
example {s : Cron.Sys} (h : Cron.Reaches (.mem pc) (Cron.start cfg clock) s) :
    ∃ (f : Nat → Cron.Sys) (i : Nat), f 0 = Cron.start cfg clock ∧ JanitorRun (.mem pc) f ∧ f i = s := by
  obtain ⟨f, i, h1, h2, h3, -⟩ := Cron.exists_run h (Cron.held_reaches (Cron.fair_mem _) h (Cron.held_start _ _))
  exact ⟨f, i, h1, h3, h2⟩

/-- C137 (expired bundles). A bundle in the store whose lifetime has ended is gone sooner or later, whatever else the node does,
unless it is overdue no longer (since the clock is set back, or another bundle takes its place). -/
theorem C137_expired_removed {f : Nat → Cron.Sys} (begins : f 0 = Cron.start cfg clock) (run : JanitorRun (.mem pc) f)
    (safe : cfg.parallel = true ∨ ∀ i, AllReadable (f i).node) (i deadline : Nat) (bid : String) :
    ∃ j, i ≤ j ∧ ((f j).node.store.getBundle bid = none ∨ ¬ Overdue bid deadline (f j).node) := by
  refine Classical.byContradiction fun hno => ?_
  have stored : ∀ j, i ≤ j → (f j).node.store.getBundle bid ≠ none := fun j hj h => hno ⟨j, hj, .inl h⟩
  have overdue : ∀ j, i ≤ j → Overdue bid deadline (f j).node := fun j hj => Classical.byContradiction fun h => hno ⟨j, hj, .inr h⟩
  obtain ⟨-, -, -, -, h⟩ := Cron.owed_again (held_run begins run) (fun j => (flat_run begins run j).base (run.steps j)) run
    (always_on begins run safe) (i := i) (D := fun _ _ => False)
    (I := fun m => m.store.getBundle bid ≠ none ∧ Overdue bid deadline m ∧ Good m)
    (fun j hj => ⟨stored j hj, overdue j hj, (flat_run begins run j).good.1⟩)
    (fun _ _ _ _ h => h) (fun n0 => Cron.will_expired (fun m im => ⟨im.1.1, im.1.2.2.inv, im.1.2.1⟩) n0)
  exact h

/-- A bundle is overdue, on a node on which nothing has failed so far. -/
example : ∃ (f : Nat → Cron.Sys) (i : Nat), f 0 = Cron.start Ex.cfg 946684800100 ∧ JanitorRun (.mem Ex.peerCfg) f ∧ Ex.cfg.parallel = true ∧
    (f i).node.store.getBundle "b" ≠ none ∧ Overdue "b" 2000 (f i).node := by
  obtain ⟨s, h1, h2⟩ := Cron.exists_state (su := .mem Ex.peerCfg) (s := Cron.start Ex.cfg 946684800100)
    (Ex.arrives (Ex.bundle 5 1 20) ++ [.clock 946684803000]) (fun s => (s.node.store.getBundle "b").isSome && decide (2000 ≤ s.node.dtnNow) &&
      (s.node.store.getMetadata "b").any fun (p : Pack) => !p.has .deleted && decide (p.creationTime + p.lifetime < 2000) && decide (p.lifetime ≠ 0)) (by decide +kernel)
  obtain ⟨f, i, k1, k2, k3, -⟩ := Cron.exists_run h1 (Cron.held_reaches (Cron.fair_mem _) h1 (Cron.held_start _ _))
  simp only [Bool.and_eq_true, decide_eq_true_eq, Option.any_eq_true, Bool.not_eq_true'] at h2
  obtain ⟨⟨h2, h3⟩, p, h4, ⟨h5, h6⟩, h7⟩ := h2
  refine ⟨f, i, k1, k3, rfl, ?_, ⟨p, ?_, h5, by omega, h7, h6⟩, ?_⟩
  · rw [k2]; intro h; rw [h] at h2; cases h2
  · rw [k2]; exact h4
  · rw [k2]; exact h3

/-- C137 is violated without parallel processing: once the janitor has stopped, a bundle that is overdue may stay in the store for
ever. -/
theorem C137_kept_for_ever_violated : ∃ (pc : PeerCfg) (cfg : Config) (clock : Nat) (f : Nat → Cron.Sys) (i : Nat), cfg.parallel = false ∧
    f 0 = Cron.start cfg clock ∧ JanitorRun (.mem pc) f ∧
    ∀ j, i ≤ j → (f j).node.store.getBundle "b" ≠ none ∧ Overdue "b" 2000 (f j).node := by
  obtain ⟨s, h1, h2⟩ := Cron.exists_state (su := .mem Ex.peerCfg) (s := Cron.start { Ex.cfg with parallel := false } 946684800100)
    (Ex.arrives Ex.unreadable ++ [.tick] ++ List.replicate 12 (.main (some (Ex.answer false)) true "r") ++ [.clock 946684803000])
    (fun s => (match s.phase with | .stopped => true | _ => false) && ((s.node.store.getBundle "b").isSome && decide (2000 ≤ s.node.dtnNow) &&
      (s.node.store.getMetadata "b").any fun (p : Pack) => !p.has .deleted && decide (p.creationTime + p.lifetime < 2000) && decide (p.lifetime ≠ 0))) (by decide +kernel)
  obtain ⟨f, i, k1, k2, k3, k4⟩ := Cron.exists_run h1 (Cron.held_reaches (Cron.fair_mem _) h1 (Cron.held_start _ _))
  rw [Bool.and_eq_true] at h2
  obtain ⟨h0, h2⟩ := h2
  have hs : s.phase = .stopped := by
    split at h0
    · assumption
    · cases h0
  simp only [Bool.and_eq_true, decide_eq_true_eq, Option.any_eq_true, Bool.not_eq_true'] at h2
  obtain ⟨⟨h2, h3⟩, p, h4, ⟨h5, h6⟩, h7⟩ := h2
  refine ⟨_, _, _, f, i, rfl, k1, k3, fun j hj => ?_⟩
  rw [k4 hs j hj]
  exact ⟨(by intro h; rw [h] at h2; cases h2), ⟨p, h4, h5, by omega, h7, h6⟩, h3⟩

/-- C137 (waiting bundles). At any time, a bundle that waits to be forwarded is taken to the router later on, unless it ceases to
wait or there is no convergence layer any more. -/
theorem C137_offered_again {f : Nat → Cron.Sys} (begins : f 0 = Cron.start cfg clock) (run : JanitorRun (.mem pc) f)
    (safe : cfg.parallel = true ∨ ∀ i, AllReadable (f i).node) (i : Nat) (bid : String) :
    ∃ j, i ≤ j ∧ ((∃ bp a, bp.id = bid ∧ .asked bp a ∈ newEvents (f i).node (f j).node) ∨ ¬ WaitsToLeave bid (f j).node) := by
  refine Classical.byContradiction fun hno => ?_
  have waits : ∀ j, i ≤ j → WaitsToLeave bid (f j).node := fun j hj => Classical.byContradiction fun h => hno ⟨j, hj, .inr h⟩
  obtain ⟨j, k, h1, h2, h4, bp, a, h3, h5⟩ := Cron.owed_again (held_run begins run)
    (fun j => (flat_run begins run j).base (run.steps j)) run (always_on begins run safe) (i := i) (D := fun n0 m => AskedFor n0 bid m)
    (I := fun m => WaitsToLeave bid m ∧ (cfg.parallel = true ∨ AllReadable m) ∧ Good m ∧ m.cfg = cfg)
    (fun j hj => ⟨waits j hj, safe.imp id fun h => h j, (flat_run begins run j).good⟩) (fun _ _ _ b h => h.mono b)
    (fun n0 => will_janitor (par := cfg.parallel)
      (fun m im => ⟨im.1.2.2.1, im.2, im.1.1.1, im.1.1.2, by rw [im.1.2.2.2]; exact im.1.2.1⟩) (fun m im => by rw [im.1.2.2.2]) fun _ h => h)
  exact hno ⟨k, by omega, .inl ⟨bp, a, h3, newEvents_left (run_past begins run h1) h4 h5⟩⟩

/-- A bundle waits. -/
example : ∃ (f : Nat → Cron.Sys) (i : Nat), f 0 = Cron.start Ex.cfg 946684800100 ∧ JanitorRun (.mem Ex.peerCfg) f ∧ Ex.cfg.parallel = true ∧
    WaitsToLeave "b" (f i).node := by
  obtain ⟨s, h1, h2⟩ := Cron.exists_state (su := .mem Ex.peerCfg) (s := Cron.start Ex.cfg 946684800100)
    (Ex.arrives (Ex.bundle 5 1 20)) (fun s => s.node.claActive &&
      (s.node.store.getMetadata "b").any fun (p : Pack) => p.has .forwardPending && !p.has .deleted) (by decide +kernel)
  obtain ⟨f, i, k1, k2, k3, -⟩ := Cron.exists_run h1 (Cron.held_reaches (Cron.fair_mem _) h1 (Cron.held_start _ _))
  simp only [Bool.and_eq_true, Option.any_eq_true, Bool.not_eq_true'] at h2
  obtain ⟨h2, p, h3, h4⟩ := h2
  exact ⟨f, i, k1, k3, rfl, by rw [k2]; exact ⟨h2, p, h3, h4⟩⟩

/-- C137 (neighbours). A neighbour that is not configured and has not been seen for too long is taken out of the table sooner or
later, unless it is seen again. -/
theorem C137_lost_neighbours_dropped {f : Nat → Cron.Sys} (begins : f 0 = Cron.start cfg clock) (run : JanitorRun (.mem pc) f)
    (safe : cfg.parallel = true ∨ ∀ i, AllReadable (f i).node) (i : Nat) (name : String) :
    ∃ j, i ≤ j ∧ ((∀ p, (name, p) ∉ (f j).node.peers) ∨
      ∃ p, (name, p) ∈ (f j).node.peers ∧ Alive pc ((f j).node.clock / 1000) p) := by
  obtain ⟨j, n, o, hij, h1, h2⟩ := Cron.begins_again (held_run begins run) run (always_on begins run safe) i
  by_cases h : ∃ p, (name, p) ∈ (f j).node.peers ∧ Alive pc ((f j).node.clock / 1000) p
  · exact ⟨j, hij, .inr h⟩
  refine ⟨j + 1, by omega, .inl fun p hp => h ?_⟩
  rw [h2] at hp
  obtain ⟨hm, hc⟩ := List.mem_filter.mp (show (name, p) ∈ (n.peers.process pc (n.clock / 1000)).1 from hp)
  rw [h1]
  exact ⟨p, hm, (Peers.alive_iff _ _ _).mp (by simpa using hc)⟩

/-- A neighbour has been lost. -/
example : ∃ (f : Nat → Cron.Sys) (i : Nat), f 0 = Cron.start Ex.cfg 946684800100 ∧ JanitorRun (.mem Ex.peerCfg) f ∧ Ex.cfg.parallel = true ∧
    (f i).node.peers = [("n7", Ex.neighbour)] ∧ ¬ Alive Ex.peerCfg ((f i).node.clock / 1000) Ex.neighbour := by
  obtain ⟨s, h1, h2⟩ := Cron.exists_state (su := .mem Ex.peerCfg) (s := Cron.start Ex.cfg 946684800100) [.peers [("n7", Ex.neighbour)]]
    (fun s => decide (s.node.peers = [("n7", Ex.neighbour)]) && !decide (Alive Ex.peerCfg (s.node.clock / 1000) Ex.neighbour)) (by decide +kernel)
  obtain ⟨f, i, k1, k2, k3, -⟩ := Cron.exists_run h1 (Cron.held_reaches (Cron.fair_mem _) h1 (Cron.held_start _ _))
  simp only [Bool.and_eq_true, decide_eq_true_eq, Bool.not_eq_true', decide_eq_false_iff_not] at h2
  exact ⟨f, i, k1, k3, rfl, by rw [k2]; exact h2.1, by rw [k2]; exact h2.2⟩

/-- C137 (neighbours that are there). When a run of the janitor begins, neighbours that are configured or have been seen recently
stay in the table as they are. -/
theorem C137_other_neighbours_kept {s t : Cron.Sys} (before : Cron.Reaches (.mem pc) (Cron.start cfg clock) s) (st : Cron.Step (.mem pc) s t)
    (new : .called .janitor ∈ newEvents s.node t.node) (name : String) (p : Peer) (known : (name, p) ∈ s.node.peers)
    (there : Alive pc (s.node.clock / 1000) p) : (name, p) ∈ t.node.peers := by
  rcases Cron.calls_janitor (Cron.noCalls_reaches (Cron.plain_mem _) before (by intro p hp; cases hp)) st new with ⟨n, o, rfl, rfl⟩
  exact List.mem_filter.mpr ⟨known, by simpa [Cron.Setup.mem] using (Peers.alive_iff _ _ _).mpr there⟩

/-- A run of the janitor begins beside a neighbour that has just been seen. -/
example : ∃ s t, Cron.Reaches (.mem Ex.peerCfg) (Cron.start Ex.cfg 946684800100) s ∧ Cron.Step (.mem Ex.peerCfg) s t ∧
    .called .janitor ∈ newEvents s.node t.node ∧ ("n7", { Ex.neighbour with lastContact := 946684800 }) ∈ s.node.peers ∧
    Alive Ex.peerCfg (s.node.clock / 1000) { Ex.neighbour with lastContact := 946684800 } := by
  refine ⟨⟨{ Node.start Ex.cfg 946684800100 with peers := [("n7", { Ex.neighbour with lastContact := 946684800 })] }, .waiting, []⟩, _,
    (Cron.Reaches.refl _).step (.inr (.change _ _ _ _ (.peers _ _))), .inl (.tick _ _), ?_, List.mem_singleton.mpr rfl, by decide +kernel⟩
  rw [newEvents_eq (es := [.called .janitor]) rfl]
  exact List.mem_singleton.mpr rfl

end Dtn.Props
