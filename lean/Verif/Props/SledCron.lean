import Verif.Lemmas.Peers
import Verif.Lemmas.SledCron
import Verif.Lemmas.SledCronExample
/-! C139: the janitor runs again and again, and does its work, with the persistent store. -/

namespace Dtn.Props
open Spec Proc

variable {pc : PeerCfg} {cfg : Config} {clock : Nat}

/-- C139 (never stops). With parallel processing, the task of the janitor never stops, whatever is in the database after a
restart, whatever bundles the node receives, and whatever else happens. -/
theorem C139_never_stops (parallel : cfg.parallel = true) {s : Cron.Sys} (run : Cron.History pc cfg clock s) : s.phase ≠ .stopped := by
  intro h
  have := run.on parallel
  unfold Cron.On at this
  rw [h] at this
  exact this

/-- The processing of a bundle panics, since it has been removed in the meantime, in a process that found it in its database. The janitor
goes on, and waits for its timer in the end. -/
example : ∃ s t, Ex.cfg.parallel = true ∧ Cron.History Ex.peerCfg Ex.cfg 946684800100 s ∧ (s.node.store.getBundle "b").isSome ∧
    Cron.Reaches (.sled Ex.peerCfg) ⟨OnSled.restarted s.node 946684800200, .waiting, []⟩ t ∧ t.phase = .waiting ∧
    t.node.store.getBundle "b" = none ∧ ∃ bp x, .asked bp (some x) ∈ newEvents s.node t.node ∧ x.clas ≠ [] := by
  obtain ⟨s, t, h1, h2, h3⟩ := Cron.exists_life (pc := Ex.peerCfg) (cfg := Ex.cfg) (clock := 946684800100) (Ex.arrives (Ex.bundle 5 1 20)) 946684800200
    ([.tick] ++ List.replicate 5 (.main none true "r") ++ [.call (.remove "b"), .other 0 none true "r", .other 0 none true "r"] ++
      List.replicate 3 (.main none true "r") ++ List.replicate 4 (.started 0 (some (Ex.answer false)) true "r") ++ [.ended])
    (fun s t => (s.node.store.getBundle "b").isSome && (match t.phase with | .waiting => true | _ => false) && (t.node.store.getBundle "b").isNone &&
      (newEvents s.node t.node).any fun e => match e with | .asked _ (some x) => !x.clas.isEmpty | _ => false) (by decide +kernel)
  simp only [Bool.and_eq_true, List.any_eq_true, Option.isNone_iff_eq_none] at h3
  obtain ⟨⟨⟨h3, h4⟩, h5⟩, e, he, h6⟩ := h3
  refine ⟨s, t, rfl, h1, h3, h2, ?_, h5, ?_⟩
  · split at h4
    · assumption
    · cases h4
  · split at h6
    · rename_i bp x
      exact ⟨bp, x, he, by simpa using h6⟩
    · cases h6

/-- C139 is violated without parallel processing: a bundle that is removed while the janitor is about to forward it stops the janitor for
good, if the router names a neighbour for it. And since what the database says of the bundle stays as it is, the janitor stops
again in its first run after a restart, though nobody calls anything. -/
theorem C139_stopped_violated : ∃ (pc : PeerCfg) (cfg : Config) (clock now : Nat) (s t : Cron.Sys), cfg.parallel = false ∧
    Cron.History pc cfg clock s ∧ s.node.store.getBundle "b" = none ∧
    (∀ u, Cron.Reaches (.sled pc) s u → u.phase = .stopped ∧ .called .janitor ∉ newEvents s.node u.node) ∧
    Cron.Reaches (.sled pc) ⟨OnSled.restarted s.node now, .waiting, []⟩ t ∧
    (∀ c, .called c ∈ newEvents s.node t.node → c = .janitor) ∧
    ∀ u, Cron.Reaches (.sled pc) t u → u.phase = .stopped ∧ .called .janitor ∉ newEvents t.node u.node := by
  obtain ⟨s, t, h1, h2, h3⟩ := Cron.exists_life (pc := Ex.peerCfg) (cfg := { Ex.cfg with parallel := false }) (clock := 946684800100)
    (Ex.arrives (Ex.bundle 5 1 20) ++ [.tick] ++ List.replicate 5 (.main none true "r") ++
      [.call (.remove "b"), .other 0 none true "r", .other 0 none true "r"] ++ List.replicate 5 (.main (some (Ex.answer false)) true "r"))
    946684800200 ([.tick] ++ List.replicate 10 (.main (some (Ex.answer false)) true "r"))
    (fun s t => (match s.phase with | .stopped => true | _ => false) && (match t.phase with | .stopped => true | _ => false) &&
      (s.node.store.getBundle "b").isNone &&
      (newEvents s.node t.node).all fun e => match e with | .called c => decide (c = .janitor) | _ => true) (by decide +kernel)
  simp only [Bool.and_eq_true, Option.isNone_iff_eq_none] at h3
  obtain ⟨⟨⟨h3, h4⟩, h5⟩, h6⟩ := h3
  have hs : s.phase = .stopped := by
    split at h3
    · assumption
    · cases h3
  have ht : t.phase = .stopped := by
    split at h4
    · assumption
    · cases h4
  have stays : ∀ {s : Cron.Sys}, Cron.History Ex.peerCfg { Ex.cfg with parallel := false } 946684800100 s → s.phase = .stopped →
      ∀ u, Cron.Reaches (.sled Ex.peerCfg) s u → u.phase = .stopped ∧ .called .janitor ∉ newEvents s.node u.node := by
    intro s h1 hs
    have : ∀ t, Cron.Reaches (.sled Ex.peerCfg) s t → t.phase = .stopped ∧ ∃ es, t.node.events = s.node.events ++ es ∧ .called .janitor ∉ es := by
      intro t ht
      induction ht with
      | refl => exact ⟨hs, [], by simp, by simp⟩
      | @step t u ht st ih =>
        obtain ⟨k1, es, k2, k3⟩ := ih
        obtain ⟨k4, es', k5, k6⟩ := Cron.stopped_step st k1 (fun p hp => (h1.join ht).noCalls p (List.mem_append_right _ hp))
        exact ⟨k4, es ++ es', by rw [k5, k2, List.append_assoc], by simp [k3, k6]⟩
    intro t ht
    obtain ⟨k1, es, k2, k3⟩ := this t ht
    exact ⟨k1, by rw [newEvents_eq k2]; exact k3⟩
  refine ⟨_, _, _, _, s, t, rfl, h1, h5, stays h1 hs, h2, fun c hc => ?_, stays ((h1.restart _).join h2) ht⟩
  simpa using List.all_eq_true.mp h6 _ hc

/-- What holds in all states of an execution. -/
theorem sled_run {f : Nat → Cron.Sys} (before : Cron.History pc cfg clock (f 0)) (run : JanitorRun (.sled pc) f) (i : Nat) :
    Cron.History pc cfg clock (f i) := before.join (by simpa using Cron.run_reaches run 0 i)

theorem sled_past {f : Nat → Cron.Sys} (before : Cron.History pc cfg clock (f 0)) (run : JanitorRun (.sled pc) f) {i j : Nat} (h : i ≤ j) :
    (f i).node.events <+: (f j).node.events := by
  obtain ⟨k, rfl⟩ := Nat.exists_eq_add_of_le h
  clear h
  induction k with
  | zero => exact List.prefix_rfl
  | succ k ih => exact ih.trans ((sled_run before run (i + k)).base (run.steps _)).past

/-- C139 (again and again). As long as the process is not stopped, a new run of the janitor begins again and again. -/
theorem C139_again_and_again {f : Nat → Cron.Sys} (before : Cron.History pc cfg clock (f 0)) (run : JanitorRun (.sled pc) f)
    (parallel : cfg.parallel = true) (i : Nat) : ∃ j, i ≤ j ∧ .called .janitor ∈ newEvents (f i).node (f j).node := by
  obtain ⟨j, n, o, hij, h1, h2⟩ := Cron.begins_again (fun i => (sled_run before run i).held) run
    (fun i => C139_never_stops parallel (sled_run before run i)) i
  refine ⟨j + 1, by omega, ?_⟩
  have hp := sled_past before run hij
  rw [h1] at hp
  refine newEvents_left (m := n) hp ?_ ?_
  · rw [h2]; exact List.prefix_append _ _
  · rw [h2]
    rw [newEvents_eq (es := [.called .janitor]) rfl]
    exact List.mem_singleton.mpr rfl

/-- Such executions exist: every state that can be reached lies on one. -/
example {s t : Cron.Sys} (before : Cron.History pc cfg clock s) (h : Cron.Reaches (.sled pc) s t) :
    ∃ (f : Nat → Cron.Sys) (i : Nat), f 0 = s ∧ JanitorRun (.sled pc) f ∧ f i = t := by
  obtain ⟨f, i, h1, h2, h3, -⟩ := Cron.exists_run h (before.join h).held
  exact ⟨f, i, h1, h3, h2⟩

/-- C139 (expired bundles). A bundle in the database whose lifetime has ended is gone sooner or later, also if it was received
by an earlier process, unless it is overdue no longer (since the clock is set back, or another bundle takes its place). -/
theorem C139_expired_removed {f : Nat → Cron.Sys} (before : Cron.History pc cfg clock (f 0)) (run : JanitorRun (.sled pc) f)
    (parallel : cfg.parallel = true) (i deadline : Nat) (bid : String) :
    ∃ j, i ≤ j ∧ ((f j).node.store.getBundle bid = none ∨ ¬ Overdue bid deadline (f j).node) := by
  refine Classical.byContradiction fun hno => ?_
  have stored : ∀ j, i ≤ j → (f j).node.store.getBundle bid ≠ none := fun j hj h => hno ⟨j, hj, .inl h⟩
  have overdue : ∀ j, i ≤ j → Overdue bid deadline (f j).node := fun j hj => Classical.byContradiction fun h => hno ⟨j, hj, .inr h⟩
  obtain ⟨-, -, -, -, h⟩ := Cron.owed_again (fun i => (sled_run before run i).held) (fun j => (sled_run before run j).base (run.steps j)) run
    (fun i => C139_never_stops parallel (sled_run before run i)) (i := i) (D := fun _ _ => False)
    (I := fun m => m.store.getBundle bid ≠ none ∧ Overdue bid deadline m ∧ Good m)
    (fun j hj => ⟨stored j hj, overdue j hj, (sled_run before run j).good.1⟩)
    (fun _ _ _ _ h => h) (fun n0 => Cron.sled_will_expired (fun m im => ⟨im.1.1, im.1.2.2.inv, im.1.2.1⟩) n0)
  exact h

/-- A process finds a bundle in its database that is overdue. -/
example : ∃ (s : Cron.Sys) (f : Nat → Cron.Sys), Cron.History Ex.peerCfg Ex.cfg 946684800100 s ∧
    f 0 = ⟨OnSled.restarted s.node 946684803000, .waiting, []⟩ ∧ JanitorRun (.sled Ex.peerCfg) f ∧ Ex.cfg.parallel = true ∧
    (f 0).node.store.getBundle "b" ≠ none ∧ Overdue "b" 2000 (f 0).node := by
  obtain ⟨s, t, h1, h2, h3⟩ := Cron.exists_life (pc := Ex.peerCfg) (cfg := Ex.cfg) (clock := 946684800100) (Ex.arrives (Ex.bundle 5 1 20)) 946684803000 []
    (fun s _ => (s.node.store.getBundle "b").isSome &&
      (s.node.store.getMetadata "b").any fun (p : Pack) => !p.has .deleted && decide (p.creationTime + p.lifetime < 2000) && decide (p.lifetime ≠ 0)) (by decide +kernel)
  obtain ⟨f, k1, k2, -⟩ := Cron.exists_forever (su := .sled Ex.peerCfg) ⟨OnSled.restarted s.node 946684803000, .waiting, []⟩
  simp only [Bool.and_eq_true, decide_eq_true_eq, Option.any_eq_true, Bool.not_eq_true'] at h3
  obtain ⟨h3, p, h4, ⟨h5, h6⟩, h7⟩ := h3
  refine ⟨s, f, h1, k1, k2, rfl, ?_, ⟨p, ?_, h5, by omega, h7, h6⟩, ?_⟩
  · rw [k1]; intro h; rw [show s.node.store.getBundle "b" = none from h] at h3; cases h3
  · rw [k1]; exact h4
  · rw [k1]; show 2000 ≤ 946684803000 - 946684800000; omega

/-- C139 (waiting bundles). At any time, a bundle that waits to be forwarded is taken to the router later on, also if it was received
by an earlier process, unless it ceases to wait or there is no convergence layer any more. -/
theorem C139_offered_again {f : Nat → Cron.Sys} (before : Cron.History pc cfg clock (f 0)) (run : JanitorRun (.sled pc) f)
    (parallel : cfg.parallel = true) (i : Nat) (bid : String) :
    ∃ j, i ≤ j ∧ ((∃ bp a, bp.id = bid ∧ .asked bp a ∈ newEvents (f i).node (f j).node) ∨ ¬ WaitsToLeave bid (f j).node) := by
  refine Classical.byContradiction fun hno => ?_
  have waits : ∀ j, i ≤ j → WaitsToLeave bid (f j).node := fun j hj => Classical.byContradiction fun h => hno ⟨j, hj, .inr h⟩
  obtain ⟨j, k, h1, h2, h4, bp, a, h3, h5⟩ := Cron.owed_again (fun i => (sled_run before run i).held)
    (fun j => (sled_run before run j).base (run.steps j)) run (fun i => C139_never_stops parallel (sled_run before run i)) (i := i)
    (D := fun n0 m => AskedFor n0 bid m) (I := fun m => WaitsToLeave bid m ∧ m.store.Inv ∧ m.cfg = cfg)
    (fun j hj => ⟨waits j hj, (sled_run before run j).good.1.inv, (sled_run before run j).good.2⟩) (fun _ _ _ b h => h.mono b)
    (fun n0 => OnSled.will_janitor (fun m im => ⟨im.1.2.1, im.2, im.1.1.1, im.1.1.2, by rw [im.1.2.2]; exact parallel⟩) fun _ h => h)
  exact hno ⟨k, by omega, .inl ⟨bp, a, h3, newEvents_left (sled_past before run h1) h4 h5⟩⟩

/-- A process finds a bundle in its database that waits. -/
example : ∃ (s : Cron.Sys) (f : Nat → Cron.Sys), Cron.History Ex.peerCfg Ex.cfg 946684800100 s ∧
    f 0 = ⟨OnSled.restarted s.node 946684800200, .waiting, []⟩ ∧ JanitorRun (.sled Ex.peerCfg) f ∧ Ex.cfg.parallel = true ∧
    WaitsToLeave "b" (f 0).node := by
  obtain ⟨s, t, h1, h2, h3⟩ := Cron.exists_life (pc := Ex.peerCfg) (cfg := Ex.cfg) (clock := 946684800100) (Ex.arrives (Ex.bundle 5 1 20)) 946684800200 []
    (fun s _ => s.node.claActive && (s.node.store.getMetadata "b").any fun (p : Pack) => p.has .forwardPending && !p.has .deleted) (by decide +kernel)
  obtain ⟨f, k1, k2, -⟩ := Cron.exists_forever (su := .sled Ex.peerCfg) ⟨OnSled.restarted s.node 946684800200, .waiting, []⟩
  simp only [Bool.and_eq_true, Option.any_eq_true, Bool.not_eq_true'] at h3
  obtain ⟨h3, p, h4, h5⟩ := h3
  exact ⟨s, f, h1, k1, k2, rfl, by rw [k1]; exact ⟨h3, p, h4, h5⟩⟩

/-- C139 (neighbours). A neighbour that is not configured and has not been seen for too long is taken out of the table sooner or
later, unless it is seen again. -/
theorem C139_lost_neighbours_dropped {f : Nat → Cron.Sys} (before : Cron.History pc cfg clock (f 0)) (run : JanitorRun (.sled pc) f)
    (parallel : cfg.parallel = true) (i : Nat) (name : String) :
    ∃ j, i ≤ j ∧ ((∀ p, (name, p) ∉ (f j).node.peers) ∨
      ∃ p, (name, p) ∈ (f j).node.peers ∧ Alive pc ((f j).node.clock / 1000) p) := by
  obtain ⟨j, n, o, hij, h1, h2⟩ := Cron.begins_again (fun i => (sled_run before run i).held) run
    (fun i => C139_never_stops parallel (sled_run before run i)) i
  by_cases h : ∃ p, (name, p) ∈ (f j).node.peers ∧ Alive pc ((f j).node.clock / 1000) p
  · exact ⟨j, hij, .inr h⟩
  refine ⟨j + 1, by omega, .inl fun p hp => h ?_⟩
  rw [h2] at hp
  obtain ⟨hm, hc⟩ := List.mem_filter.mp (show (name, p) ∈ (n.peers.process pc (n.clock / 1000)).1 from hp)
  rw [h1]
  exact ⟨p, hm, (Peers.alive_iff _ _ _).mp (by simpa using hc)⟩

/-- A neighbour has been lost. -/
example : ∃ f : Nat → Cron.Sys, Cron.History Ex.peerCfg Ex.cfg 946684800100 (f 0) ∧ JanitorRun (.sled Ex.peerCfg) f ∧ Ex.cfg.parallel = true ∧
    (f 0).node.peers = [("n7", Ex.neighbour)] ∧ ¬ Alive Ex.peerCfg ((f 0).node.clock / 1000) Ex.neighbour := by
  obtain ⟨s, h1, h2⟩ := Cron.exists_state (su := .sled Ex.peerCfg) (s := Cron.start Ex.cfg 946684800100) [.peers [("n7", Ex.neighbour)]]
    (fun s => decide (s.node.peers = [("n7", Ex.neighbour)]) && !decide (Alive Ex.peerCfg (s.node.clock / 1000) Ex.neighbour)) (by decide +kernel)
  obtain ⟨f, k1, k2, -⟩ := Cron.exists_forever (su := .sled Ex.peerCfg) s
  simp only [Bool.and_eq_true, decide_eq_true_eq, Bool.not_eq_true', decide_eq_false_iff_not] at h2
  exact ⟨f, by rw [k1]; exact Cron.History.start.join h1, k2, rfl, by rw [k1]; exact h2.1, by rw [k1]; exact h2.2⟩

end Dtn.Props
