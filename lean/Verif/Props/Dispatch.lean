import Verif.Lemmas.ProcOnly
import Verif.Lemmas.ProcExample
/-!
What a single call of bundle processing does.

The node `n` is in any state it can get into by any execution (`Reaches .any ⟨Node.start cfg clock, []⟩ ⟨n, tasks⟩`). From
there one call runs to its end, with all tasks it starts, in any order, with any answers of the router and any outcome of
transfers, while nothing else happens but the passing of time (`Reaches .quiet ⟨n, [call]⟩ ⟨m, []⟩`).
-/

namespace Dtn.Props
open Proc Routing Spec

/-- C13 (first part). A bundle submitted with a source that is neither anonymous nor registered is not in the store
afterwards, and all that happened is its removal and perhaps the creation of status reports. -/
theorem C13_foreign_source {cfg : Config} {clock : Nat} {n m : Node} {tasks : List Prog} {b : Bundle}
    (before : Reaches .any ⟨Node.start cfg clock, []⟩ ⟨n, tasks⟩)
    (foreign : b.primary.source ≠ .none ∧ b.primary.source ∉ n.agents.eids)
    (run : Reaches .quiet ⟨n, [(Call.send b).prog]⟩ ⟨m, []⟩) :
    m.store.getBundle b.id = none ∧ ∀ e ∈ newEvents n m, (∃ r, e = .report r) ∨ ∃ c, e = .removed b.id c :=
  send_foreign (good_always before).1 (by rintro (h | h); exacts [foreign.1 h, foreign.2 h]) run

/-- C13 (second part). Every other bundle that is submitted is dispatched: the router is told about it. -/
theorem C13_own_source {cfg : Config} {clock : Nat} {n m : Node} {tasks : List Prog} {b : Bundle}
    (before : Reaches .any ⟨Node.start cfg clock, []⟩ ⟨n, tasks⟩)
    (own : b.primary.source = .none ∨ b.primary.source ∈ n.agents.eids)
    (run : Reaches .quiet ⟨n, [(Call.send b).prog]⟩ ⟨m, []⟩) :
    .note (.incomingBundle b) ∈ newEvents n m :=
  send_dispatches (good_always before).1 own run

/-- Both cases of C13. -/
example : (∃ n tasks m, Reaches .any ⟨Ex.start, []⟩ ⟨n, tasks⟩ ∧
      Reaches .quiet ⟨n, [(Call.send Ex.asking).prog]⟩ ⟨m, []⟩ ∧
      (Ex.asking.primary.source ≠ .none ∧ Ex.asking.primary.source ∉ n.agents.eids)) ∧
    ∃ n tasks m, Reaches .any ⟨Ex.start, []⟩ ⟨n, tasks⟩ ∧
      Reaches .quiet ⟨n, [(Call.send Ex.asking).prog]⟩ ⟨m, []⟩ ∧ Ex.asking.primary.source ∈ n.agents.eids := by
  constructor
  · obtain ⟨n, ps, m, h1, h2, h3⟩ := exists_quiet (n := Ex.start) [] (fun _ => (Call.send Ex.asking).prog) 60 none true "r"
      (fun n _ => decide (Ex.asking.primary.source ≠ .none ∧ Ex.asking.primary.source ∉ n.agents.eids)) (by decide +kernel)
    exact ⟨n, ps, m, h1, h2, of_decide_eq_true h3⟩
  · obtain ⟨n, ps, m, h1, h2, h3⟩ := exists_quiet (n := Ex.start) [.register (.dtn "n2" "a")]
      (fun _ => (Call.send Ex.asking).prog) 60 (some (Ex.answer false)) true "r"
      (fun n _ => decide (Ex.asking.primary.source ∈ n.agents.eids)) (by decide +kernel)
    exact ⟨n, ps, m, h1, h2, of_decide_eq_true h3⟩

/-- C14. A bundle that a node takes on is handed to the application agent registered for its destination, once there is
one, and to no agent otherwise; the router is asked about it if and only if its destination is not on this node. An
administrative record for a registered endpoint must be readable. -/
theorem C14_dispatch {cfg : Config} {clock : Nat} {n m : Node} {tasks : List Prog} {b : Bundle} {c : Call}
    (before : Reaches .any ⟨Node.start cfg clock, []⟩ ⟨n, tasks⟩) (takes : TakesOn n b c)
    (readable : b.primary.destination ∈ n.agents.eids → b.isAdmin = true → HasRecord cfg b)
    (run : Reaches .quiet ⟨n, [c.prog]⟩ ⟨m, []⟩) :
    (b.primary.destination ∈ n.agents.eids → ∃ ch, .delivered b.primary.destination b ch ∈ newEvents n m) ∧
    (∀ e b' ch, .delivered e b' ch ∈ newEvents n m → e = b.primary.destination ∧ b' = b ∧ e ∈ n.agents.eids) ∧
    ((∃ bp a, .asked bp a ∈ newEvents n m ∧ bp.id = b.id) ↔ b.primary.destination.nodeId ≠ cfg.hostEid.nodeId) := by
  obtain ⟨i, hcfg⟩ := good_always before
  simp only at i hcfg
  subst hcfg
  obtain ⟨n', hl, hb, -, hd, hnd, hloc, hrem⟩ := takesOn_run i takes readable run
  have hsplit := newEvents_append hl.past hb.past
  refine ⟨fun h => ?_, ?_, ?_, ?_⟩
  · obtain ⟨ch, h⟩ := hd h
    exact ⟨ch, newEvents_right hl.past hb.past h⟩
  · intro e b' ch h
    have key : .delivered e b' ch ∈ newEvents n n' := by
      rw [hsplit] at h
      rcases List.mem_append.mp h with h | h
      · exact h
      · by_cases hh : b.primary.destination.nodeId = n.cfg.hostEid.nodeId
        · obtain ⟨t, rfl⟩ := hloc hh
          rw [newEvents_eq (es := []) (by simp [Node.at])] at h
          simp at h
        · obtain ⟨bp, -, hr, i', hk⟩ := hrem hh
          exact (forward_events i' hr _ h).elim
    have := hl.all _ key
    refine ⟨this.1, this.2, Classical.byContradiction fun hne => ?_⟩
    rw [this.1] at hne
    exact hnd hne _ _ _ key
  · rintro ⟨bp, a, h, -⟩ hh
    obtain ⟨t, rfl⟩ := hloc hh
    have : newEvents n (n'.at t) = newEvents n n' := rfl
    rw [this] at h
    exact hl.all _ h
  · intro hh
    obtain ⟨bp, hid, hr, i', hk, -⟩ := hrem hh
    obtain ⟨a, ha⟩ := forward_asks i' (bp := bp) (by rw [hid]; exact hk) hr
    exact ⟨_, a, newEvents_left hl.past hb.past ha, hid⟩

/-- A received bundle for a registered endpoint on another node (as with a group), and one for a registered endpoint of this
node. -/
example : (∃ n tasks m b, Reaches .any ⟨Ex.start, []⟩ ⟨n, tasks⟩ ∧ Reaches .quiet ⟨n, [(Call.receive b).prog]⟩ ⟨m, []⟩ ∧
      TakesOn n b (.receive b) ∧ b.primary.destination ∈ n.agents.eids ∧ b.isAdmin = false ∧
      b.primary.destination.nodeId ≠ Ex.cfg.hostEid.nodeId) ∧
    ∃ n tasks m b, Reaches .any ⟨Ex.start, []⟩ ⟨n, tasks⟩ ∧ Reaches .quiet ⟨n, [(Call.receive b).prog]⟩ ⟨m, []⟩ ∧
      TakesOn n b (.receive b) ∧ b.primary.destination ∈ n.agents.eids ∧ HasRecord Ex.cfg b ∧
      b.primary.destination.nodeId = Ex.cfg.hostEid.nodeId := by
  constructor
  · obtain ⟨n, ps, m, h1, h2, h3⟩ := exists_quiet (n := Ex.start) [.register (.dtn "n3" "x")]
      (fun _ => (Call.receive Ex.asking).prog) 80 (some (Ex.answer false)) true "r"
      (fun n _ => decide (n.store.getBundle Ex.asking.id = none ∧ Ex.asking.primary.destination ∈ n.agents.eids))
      (by decide +kernel)
    obtain ⟨h3, h4⟩ := of_decide_eq_true h3
    refine ⟨n, ps, m, _, h1, h2, .inl ⟨rfl, h3, ?_⟩, h4, by decide +kernel, by decide +kernel⟩
    unfold UnknownBlock
    decide +kernel
  · obtain ⟨n, ps, m, h1, h2, h3⟩ := exists_quiet (n := Ex.start) [.register (.dtn "n1" "x")]
      (fun _ => (Call.receive Ex.record).prog) 80 (some (Ex.answer false)) true "r"
      (fun n _ => decide (n.store.getBundle Ex.record.id = none ∧ Ex.record.primary.destination ∈ n.agents.eids))
      (by decide +kernel)
    obtain ⟨h3, h4⟩ := of_decide_eq_true h3
    refine ⟨n, ps, m, _, h1, h2, .inl ⟨rfl, h3, ?_⟩, h4, ⟨_, rfl, _, rfl, [7], rfl, rfl⟩, by decide +kernel⟩
    unfold UnknownBlock
    decide +kernel

/-- C15 (second part). Forwarding a stored bundle whose hop limit is used up hands nothing to a convergence layer; the
bundle is deleted, unless the router names no recipient or does not answer. -/
theorem C15_limit_used_up {cfg : Config} {clock : Nat} {n m : Node} {tasks : List Prog} {bp : Pack} {b : Bundle}
    (before : Reaches .any ⟨Node.start cfg clock, []⟩ ⟨n, tasks⟩) (stored : n.store.getBundle bp.id = some b)
    {limit count : Nat} (hops : hopCount b = some (limit, count)) (small : count < 255) (usedUp : limit < count + 1)
    (run : Reaches .quiet ⟨n, [forward bp .done]⟩ ⟨m, []⟩) :
    (∀ t, .sending t ∉ newEvents n m) ∧
    (m.store.getBundle bp.id = none ∨
      ∃ bp' a, .asked bp' a ∈ newEvents n m ∧ bp'.id = bp.id ∧ ∀ x, a = some x → x.clas = []) :=
  forward_hopeless (good_always before).1 stored
    (.inr ⟨_, _, hops, by rw [Nat.mod_eq_of_lt (by omega)]; exact usedUp⟩) run

example : ∃ n tasks m, Reaches .any ⟨Ex.start, []⟩ ⟨n, tasks⟩ ∧
    Reaches .quiet ⟨n, [forward (Pack.ofBundle n.clock (Ex.bundle 5 5 0)) .done]⟩ ⟨m, []⟩ ∧
    n.store.getBundle "b" = some (Ex.bundle 5 5 0) ∧ hopCount (Ex.bundle 5 5 0) = some (5, 5) := by
  obtain ⟨n, ps, m, h1, h2, h3⟩ := exists_quiet (n := Ex.start) ([.call (.receive (Ex.bundle 5 5 0))] ++ go 3)
    (fun n => forward (Pack.ofBundle n.clock (Ex.bundle 5 5 0)) .done) 80 (some (Ex.answer false)) true "r"
    (fun n _ => decide (n.store.getBundle "b" = some (Ex.bundle 5 5 0))) (by decide +kernel)
  exact ⟨n, ps, m, h1, h2, of_decide_eq_true h3, by decide +kernel⟩

/-- C16 (second part). Forwarding a stored bundle past its lifetime hands nothing to a convergence layer; the bundle is
deleted, unless the router names no recipient or does not answer. -/
theorem C16_expired_deleted {cfg : Config} {clock : Nat} {n m : Node} {tasks : List Prog} {bp : Pack} {b : Bundle}
    (before : Reaches .any ⟨Node.start cfg clock, []⟩ ⟨n, tasks⟩) (stored : n.store.getBundle bp.id = some b)
    (over : LifetimeOver n.dtnNow b.primary) (run : Reaches .quiet ⟨n, [forward bp .done]⟩ ⟨m, []⟩) :
    (∀ t, .sending t ∉ newEvents n m) ∧
    (m.store.getBundle bp.id = none ∨
      ∃ bp' a, .asked bp' a ∈ newEvents n m ∧ bp'.id = bp.id ∧ ∀ x, a = some x → x.clas = []) :=
  forward_hopeless (good_always before).1 stored (.inl over) run

example : ∃ n tasks m, Reaches .any ⟨Ex.start, []⟩ ⟨n, tasks⟩ ∧
    Reaches .quiet ⟨n, [forward (Pack.ofBundle n.clock (Ex.bundle 5 1 0)) .done]⟩ ⟨m, []⟩ ∧
    n.store.getBundle "b" = some (Ex.bundle 5 1 0) ∧ LifetimeOver n.dtnNow (Ex.bundle 5 1 0).primary := by
  obtain ⟨n, ps, m, h1, h2, h3⟩ := exists_quiet (n := Ex.start)
    ([.call (.receive (Ex.bundle 5 1 0))] ++ go 3 ++ [.clock 946684801005])
    (fun n => forward (Pack.ofBundle n.clock (Ex.bundle 5 1 0)) .done) 80 (some (Ex.answer false)) true "r"
    (fun n _ => decide (n.store.getBundle "b" = some (Ex.bundle 5 1 0) ∧
      (Ex.bundle 5 1 0).primary.creationTime ≠ 0 ∧
      (Ex.bundle 5 1 0).primary.creationTime + (Ex.bundle 5 1 0).primary.lifetime ≤ n.dtnNow)) (by decide +kernel)
  obtain ⟨h3, h4⟩ := of_decide_eq_true h3
  exact ⟨n, ps, m, h1, h2, h3, h4⟩

/-- C19 (part). A received bundle that is new goes on to dispatch with exactly those of its blocks that are not both
unknown and flagged for removal, in order. Missing: more than one such block or one that comes after a known block, for
which it is false (`C19_wrong_block_violated`, `C19_aborts_violated`). -/
theorem C19_unknown_blocks_partial {cfg : Config} {clock : Nat} {n m : Node} {tasks : List Prog} {b : Bundle}
    (before : Reaches .any ⟨Node.start cfg clock, []⟩ ⟨n, tasks⟩) (new : n.store.getBundle b.id = none)
    (simple : InFront b.canonicals)
    (keep : ∀ c ∈ b.canonicals, UnknownBlock c → c.flags.deleteBundle = false)
    (run : Reaches .quiet ⟨n, [(Call.receive b).prog]⟩ ⟨m, []⟩) :
    .note (.incomingBundle { b with canonicals := keptBlocks b.canonicals }) ∈ newEvents n m :=
  receive_kept (good_always before).1 new simple keep run

example : ∃ m, Reaches .quiet ⟨Ex.start, [(Call.receive (Ex.strange [Ex.odd 12 false, Ex.odd 11 true, Ex.known])).prog]⟩ ⟨m, []⟩ ∧
    InFront (Ex.strange [Ex.odd 12 false, Ex.odd 11 true, Ex.known]).canonicals ∧
    keptBlocks (Ex.strange [Ex.odd 12 false, Ex.odd 11 true, Ex.known]).canonicals =
      [Ex.odd 12 false, Ex.known, Ex.payload] := by
  obtain ⟨m, h⟩ := exists_quiet_from Ex.start (Call.receive (Ex.strange [Ex.odd 12 false, Ex.odd 11 true, Ex.known])).prog
    80 (some (Ex.answer false)) true "r" (fun _ => true) (by decide +kernel)
  refine ⟨m, h.1, .inr ⟨[Ex.odd 12 false], Ex.odd 11 true, [Ex.known, Ex.payload], rfl, ?_, ?_, ?_⟩, by decide +kernel⟩
  all_goals unfold UnknownBlock; decide +kernel

/-- C19 (second part). A received bundle that is new and has an unknown block that asks for deletion is not in the store
afterwards and not dispatched: all that happens is its reception and removal, and the creation of status reports. -/
theorem C19_deleted {cfg : Config} {clock : Nat} {n m : Node} {tasks : List Prog} {b : Bundle}
    (before : Reaches .any ⟨Node.start cfg clock, []⟩ ⟨n, tasks⟩) (new : n.store.getBundle b.id = none)
    (asks : ∃ c ∈ b.canonicals, UnknownBlock c ∧ c.flags.deleteBundle = true)
    (run : Reaches .quiet ⟨n, [(Call.receive b).prog]⟩ ⟨m, []⟩) :
    m.store.getBundle b.id = none ∧
    ∀ e ∈ newEvents n m, (∃ r, e = .report r) ∨ e = .accepted b ∨ ∃ c, e = .removed b.id c :=
  receive_deleted (good_always before).1 new asks run

example : ∃ m, Reaches .quiet ⟨Ex.start, [(Call.receive (Ex.strange [Ex.known, Ex.fatal])).prog]⟩ ⟨m, []⟩ ∧
    ∃ c ∈ (Ex.strange [Ex.known, Ex.fatal]).canonicals, UnknownBlock c ∧ c.flags.deleteBundle = true := by
  obtain ⟨m, h⟩ := exists_quiet_from Ex.start (Call.receive (Ex.strange [Ex.known, Ex.fatal])).prog
    80 (some (Ex.answer false)) true "r" (fun _ => true) (by decide +kernel)
  refine ⟨m, h.1, Ex.fatal, by decide +kernel, ?_⟩
  unfold UnknownBlock
  decide +kernel

/-- C19 is false as it stands: with a known block before the unknown one that asks for removal, the known one is removed. -/
theorem C19_wrong_block_violated : ∃ m, Reaches .quiet
      ⟨Ex.start, [(Call.receive (Ex.strange [Ex.known, Ex.odd 11 true])).prog]⟩ ⟨m, []⟩ ∧
    keptBlocks (Ex.strange [Ex.known, Ex.odd 11 true]).canonicals = [Ex.known, Ex.payload] ∧
    m.store.getBundle "b" = some { Ex.strange [Ex.known, Ex.odd 11 true] with canonicals := [Ex.odd 11 true, Ex.payload] } := by
  obtain ⟨m, h1, h2⟩ := exists_quiet_from Ex.start (Call.receive (Ex.strange [Ex.known, Ex.odd 11 true])).prog
    80 (some ⟨[], false⟩) true "r"
    (fun m => decide (m.store.getBundle "b" =
      some { Ex.strange [Ex.known, Ex.odd 11 true] with canonicals := [Ex.odd 11 true, Ex.payload] })) (by decide +kernel)
  exact ⟨m, h1, by decide +kernel, of_decide_eq_true h2⟩

/-- C19 is false as it stands: with three unknown blocks that ask for removal, reception can abort. -/
theorem C19_aborts_violated : ∃ n, Reaches .quiet
    ⟨Ex.start, [(Call.receive (Ex.strange [Ex.odd 11 true, Ex.odd 12 true, Ex.odd 13 true])).prog]⟩ ⟨n, [.panic]⟩ :=
  exists_quiet_panic _ _ 5 none true "r" (by decide +kernel)

/-- C21 (part). A bundle taken out of the store because of an administrative record is the one that a status report in
that bundle refers to. Missing: that the report asserts delivery, which is false (`C21_received_violated`). -/
theorem C21_subject_partial {cfg : Config} {clock : Nat} {s : Sys}
    (run : Reaches .any ⟨Node.start cfg clock, []⟩ s) {bid : String} {b : Bundle} {r : AdminRecord}
    (removed : Event.removed bid (.statusReport b r) ∈ s.node.events) :
    Carries cfg b r ∧ ∃ status, r = .statusReport status bid := by
  obtain ⟨i, hcfg⟩ := good_always run
  obtain ⟨l, r', h⟩ := List.append_of_mem removed
  obtain ⟨h1, status, h2, -⟩ := i.removed _ _ _ _ h
  exact ⟨hcfg ▸ h1, status, h2⟩

/-- C21 (part). Taking on an administrative record for an endpoint of this node removes no bundle but the record itself
and the bundle that a status report in it refers to. -/
theorem C21_nothing_else {cfg : Config} {clock : Nat} {n m : Node} {tasks : List Prog} {b : Bundle} {c : Call}
    (before : Reaches .any ⟨Node.start cfg clock, []⟩ ⟨n, tasks⟩) (takes : TakesOn n b c) (record : HasRecord cfg b)
    (here : b.primary.destination.nodeId = cfg.hostEid.nodeId)
    (run : Reaches .quiet ⟨n, [c.prog]⟩ ⟨m, []⟩) {bid : String} (stored : n.store.getBundle bid ≠ none) :
    m.store.getBundle bid ≠ none ∨ bid = b.id ∨ ∃ status, Carries cfg b (.statusReport status bid) := by
  obtain ⟨i, hcfg⟩ := good_always before
  simp only at i hcfg
  subst hcfg
  obtain ⟨n', hl, hb, i', -, -, hloc, -⟩ := takesOn_run i takes (fun _ _ => record) run
  obtain ⟨t, rfl⟩ := hloc here
  have hbase := (quiet_good i (by simpa using rg_call Good.acts c) run).1
  rcases hbase.kept bid stored with h | ⟨cause, h⟩
  · exact .inl h
  · right
    have hm : Event.removed bid cause ∈ (n'.at t).events := by
      rw [newEvents_of_prefix hbase.past]; exact List.mem_append_right _ h
    have he : newEvents n (n'.at t) = newEvents n n' := rfl
    rw [he] at h
    rcases hl.all _ h with h | ⟨status, rfl⟩
    · exact .inl h
    · obtain ⟨l, r', hs⟩ := List.append_of_mem hm
      obtain ⟨h1, -⟩ := i'.removed _ _ _ _ hs
      rw [hbase.cfg] at h1
      exact .inr ⟨status, h1⟩

/-- C21 is false as it stands: a status report that asserts reception only removes its subject. -/
theorem C21_received_violated : ∃ n tasks m, Reaches .any ⟨Ex.start, []⟩ ⟨n, tasks⟩ ∧
    Reaches .quiet ⟨n, [(Call.receive Ex.record).prog]⟩ ⟨m, []⟩ ∧
    n.store.getBundle "b" = some (Ex.bundle 5 1 0) ∧ m.store.getBundle "b" = none ∧
    Carries Ex.cfg Ex.record (.statusReport [true, false, false, false] "b") := by
  obtain ⟨n, ps, m, h1, h2, h3⟩ := exists_quiet (n := Ex.start)
    ([.register (.dtn "n1" "x"), .call (.receive (Ex.bundle 5 1 0))] ++ go 80 (some ⟨[], false⟩))
    (fun _ => (Call.receive Ex.record).prog) 80 none true "r"
    (fun n m => decide (n.store.getBundle "b" = some (Ex.bundle 5 1 0) ∧ m.store.getBundle "b" = none)) (by decide +kernel)
  obtain ⟨h3, h4⟩ := of_decide_eq_true h3
  exact ⟨n, ps, m, h1, h2, h3, h4, rfl, _, rfl, [7], rfl, rfl⟩

/-- The same execution meets the hypotheses of the two theorems before: the bundle is taken on, and the removal takes
place. -/
example : ∃ n tasks m, Reaches .any ⟨Ex.start, []⟩ ⟨n, tasks⟩ ∧ Reaches .quiet ⟨n, [(Call.receive Ex.record).prog]⟩ ⟨m, []⟩ ∧
    TakesOn n Ex.record (.receive Ex.record) ∧ n.store.getBundle "b" ≠ none ∧
    ∃ r, Event.removed "b" (.statusReport Ex.record r) ∈ m.events := by
  obtain ⟨n, ps, m, h1, h2, h3⟩ := exists_quiet (n := Ex.start)
    ([.register (.dtn "n1" "x"), .call (.receive (Ex.bundle 5 1 0))] ++ go 80 (some ⟨[], false⟩))
    (fun _ => (Call.receive Ex.record).prog) 80 none true "r"
    (fun n m => decide (n.store.getBundle "s" = none ∧ n.store.getBundle "b" ≠ none ∧
      Event.removed "b" (.statusReport Ex.record (.statusReport [true, false, false, false] "b")) ∈ m.events))
    (by decide +kernel)
  obtain ⟨h3, h4, h5⟩ := of_decide_eq_true h3
  refine ⟨n, ps, m, h1, h2, .inl ⟨rfl, h3, ?_⟩, h4, _, h5⟩
  unfold UnknownBlock
  decide +kernel

/-- C22 (first part). If no transfer succeeds, the bundle is still stored, unchanged, and pending for the next janitor
run, unless lifetime, hop limit or age ended it, or the router named no recipient and asked to delete it. -/
theorem C22_failure_keeps {cfg : Config} {clock : Nat} {n m : Node} {tasks : List Prog} {bp : Pack} {b : Bundle}
    (before : Reaches .any ⟨Node.start cfg clock, []⟩ ⟨n, tasks⟩) (stored : n.store.getBundle bp.id = some b)
    (run : Reaches .quiet ⟨n, [forward bp .done]⟩ ⟨m, []⟩) (failed : ∀ t, .outcome t true ∉ newEvents n m) :
    (m.store.getBundle bp.id = some b ∧ bp.id ∈ m.store.forwarding) ∨
    ∃ c, .removed bp.id c ∈ newEvents n m ∧ ((∃ b now, c = .lifetime b now) ∨ (∃ b, c = .hops b) ∨
      (∃ b age, c = .age b age) ∨ ∃ bp' a, c = .router bp' a ∧ a.clas = [] ∧ a.delete = true ∧
        .asked bp' (some a) ∈ newEvents n m) := by
  rcases forward_ends (good_always before).1 stored run with ⟨t, h⟩ | h | h
  · exact absurd h (failed t)
  · exact .inl h
  · exact .inr h

/-- A transfer fails. -/
example : ∃ n tasks m t, Reaches .any ⟨Ex.start, []⟩ ⟨n, tasks⟩ ∧
    Reaches .quiet ⟨n, [forward (Pack.ofBundle n.clock (Ex.bundle 5 1 0)) .done]⟩ ⟨m, []⟩ ∧
    n.store.getBundle "b" = some (Ex.bundle 5 1 0) ∧ .outcome t false ∈ newEvents n m ∧
    ∀ t, .outcome t true ∉ newEvents n m := by
  obtain ⟨n, ps, m, h1, h2, h3⟩ := exists_quiet (n := Ex.start) ([.call (.receive (Ex.bundle 5 1 0))] ++ go 3)
    (fun n => forward (Pack.ofBundle n.clock (Ex.bundle 5 1 0)) .done) 80 (some (Ex.answer true)) false "r"
    (fun n m => decide (n.store.getBundle "b" = some (Ex.bundle 5 1 0)) && (newEvents n m).any (isOutcome false) &&
      (newEvents n m).all fun e => !isOutcome true e) (by decide +kernel)
  simp only [Bool.and_eq_true, decide_eq_true_eq, List.any_eq_true, List.all_eq_true] at h3
  obtain ⟨⟨h3, e, he, ho⟩, h4⟩ := h3
  cases e <;> simp [isOutcome] at ho
  subst ho
  exact ⟨n, ps, m, _, h1, h2, h3, he, fun t ht => by simpa [isOutcome] using h4 _ ht⟩

/-- C22 (second part). Forwarding removes the bundle only if lifetime, hop limit or age ended it, or if the router asked
for it, or if the bundle is itself a status report about this bundle. -/
theorem C22_removed_only_if_asked {cfg : Config} {clock : Nat} {n m : Node} {tasks : List Prog} {bp : Pack}
    (before : Reaches .any ⟨Node.start cfg clock, []⟩ ⟨n, tasks⟩)
    (run : Reaches .quiet ⟨n, [forward bp .done]⟩ ⟨m, []⟩) {c : Cause} (removed : .removed bp.id c ∈ newEvents n m) :
    (∃ b now, c = .lifetime b now) ∨ (∃ b, c = .hops b) ∨ (∃ b age, c = .age b age) ∨
    (∃ bp' a, c = .router bp' a ∧ a.delete = true ∧ .asked bp' (some a) ∈ m.events) ∨
    ∃ b r, c = .statusReport b r ∧ Carries cfg b r := by
  obtain ⟨i, hcfg⟩ := good_always before
  simp only at i hcfg
  subst hcfg
  have hrg : ∀ p ∈ [forward bp .done], RG Good Base p (fun _ _ => True) n := by
    simpa using rg_forward Good.acts (fun _ _ _ => trivial) fun _ => rg_end (.inr ⟨_, rfl⟩)
  obtain ⟨hbase, i', -⟩ := quiet_good i hrg run
  have hm : Event.removed bp.id c ∈ m.events := by
    rw [newEvents_of_prefix hbase.past]; exact List.mem_append_right _ removed
  obtain ⟨l, r', hs⟩ := List.append_of_mem hm
  have hj := i'.removed _ _ _ _ hs
  rcases forward_events i run _ removed with ⟨-, (h | h | h) | ⟨bp', a, rfl⟩⟩ | ⟨b, r, rfl⟩
  · exact .inl h
  · exact .inr (.inl h)
  · exact .inr (.inr (.inl h))
  · obtain ⟨-, h1, h2, -⟩ := hj
    exact .inr (.inr (.inr (.inl ⟨bp', a, rfl, h1, by rw [hs]; exact List.mem_append_left _ h2⟩)))
  · have h1 := hj.1
    rw [hbase.cfg] at h1
    exact .inr (.inr (.inr (.inr ⟨b, r, rfl, h1⟩)))

example : ∃ n tasks m bp a, Reaches .any ⟨Ex.start, []⟩ ⟨n, tasks⟩ ∧
    Reaches .quiet ⟨n, [forward (Pack.ofBundle n.clock (Ex.bundle 5 1 0)) .done]⟩ ⟨m, []⟩ ∧
    .removed "b" (.router bp a) ∈ newEvents n m := by
  obtain ⟨n, ps, m, h1, h2, h3⟩ := exists_quiet (n := Ex.start) ([.call (.receive (Ex.bundle 5 1 0))] ++ go 3)
    (fun n => forward (Pack.ofBundle n.clock (Ex.bundle 5 1 0)) .done) 80 (some (Ex.answer true)) true "r"
    (fun n m => (newEvents n m).any fun e => match e with | .removed b (.router _ _) => decide (b = "b") | _ => false)
    (by decide +kernel)
  obtain ⟨e, he, ho⟩ := List.any_eq_true.mp h3
  split at ho
  · have := of_decide_eq_true ho; subst this; exact ⟨n, ps, m, _, _, h1, h2, he⟩
  · cases ho

/-- C24 is false as it stands: a bundle is deleted by a client while a task is about to forward it. That task marks it as
pending again, although its contents are gone. -/
theorem C24_stays_deleted_violated : ∃ n tasks m, Reaches .any ⟨Ex.start, []⟩ ⟨n, tasks⟩ ∧
    Reaches .quiet ⟨n, tasks⟩ ⟨m, []⟩ ∧
    n.store.getBundle "b" = none ∧ (n.store.getMetadata "b").map (fun p => p.has .deleted) = some true ∧
    m.store.getBundle "b" = none ∧ "b" ∈ m.store.forwarding := by
  obtain ⟨n, ps, m, h1, h2, h3⟩ := exists_rest (n := Ex.start)
    ([.call (.receive (Ex.bundle 5 1 0))] ++ go 9 ++ [.call (.remove "b"), .run 1 none true "r", .run 1 none true "r"])
    80 none true "r"
    (fun n m => decide (n.store.getBundle "b" = none ∧ (n.store.getMetadata "b").map (fun p => p.has .deleted) = some true ∧
      m.store.getBundle "b" = none ∧ "b" ∈ m.store.forwarding)) (by decide +kernel)
  exact ⟨n, ps, m, h1, h2, of_decide_eq_true h3⟩

/-- C72. A stored bundle stays stored, whatever happens, until a removal of it is recorded. -/
theorem C72_stored_until_removed {cfg : Config} {clock : Nat} {s t : Sys}
    (before : Reaches .any ⟨Node.start cfg clock, []⟩ s) (run : Reaches .any s t) {bid : String}
    (stored : s.node.store.getBundle bid ≠ none) :
    t.node.store.getBundle bid ≠ none ∨ ∃ c, .removed bid c ∈ newEvents s.node t.node :=
  (base_between before run).kept bid stored

example : ∃ s t, Reaches .any ⟨Ex.start, []⟩ s ∧ Reaches .any s t ∧ s.node.store.getBundle "b" ≠ none ∧
    t.node.store.getBundle "b" = none := by
  obtain ⟨n, ps, m, h1, h2, h3⟩ := exists_rest (n := Ex.start) ([.call (.receive (Ex.bundle 5 1 0))] ++ go 9)
    80 (some (Ex.answer true)) true "r"
    (fun n m => decide (n.store.getBundle "b" ≠ none ∧ m.store.getBundle "b" = none)) (by decide +kernel)
  exact ⟨_, _, h1, h2.toAny, of_decide_eq_true h3⟩

end Dtn.Props
