import Verif.Lemmas.ProcJanitor
import Verif.Lemmas.ProcExample
/-! C12 for the janitor as a task among others: for which bundles it asks the router. -/

namespace Dtn.Props
open Proc Routing Spec

private theorem newEvents_of_swept {n m : Node} (h : Swept n m) :
    n.events <+: m.events ∧ ∀ e ∈ newEvents n m, ∃ bid p now, e = .removed bid (.expired p now) := by
  obtain ⟨es, h1, h2⟩ := h.events
  exact ⟨⟨es, h1.symm⟩, by rw [newEvents_eq h1]; exact h2⟩

private theorem asked_none {es : List Event} (h : ∀ e ∈ es, ∃ bid p now, e = .removed bid (.expired p now)) : askedIds es = [] := by
  unfold askedIds
  rw [List.filterMap_eq_nil_iff]
  intro e he
  obtain ⟨bid, p, now, rfl⟩ := h e he
  rfl

private theorem asked_new {n m : Node} {ids : List String} (hp : n.events <+: m.events) (h : askedIds m.events = askedIds n.events ++ ids) :
    askedIds (newEvents n m) = ids := by
  obtain ⟨es, he⟩ := hp
  rw [newEvents_eq he.symm]
  rw [← he, askedIds_append] at h
  exact List.append_cancel_left h

/-- C12 (janitor as a task). In a janitor run with an accepting convergence layer that has the node for itself, first only
expired bundles are removed. The router is then asked for a way for exactly the bundles whose metadata say that they are to be
forwarded and not deleted, once each, if bundles are processed in parallel; if they are processed one after the other, it is asked in order of
creation time, and all are asked for unless a panic stops the run early. -/
theorem C12_janitor_run {cfg : Config} {clock : Nat} {n m : Node} {tasks : List Prog}
    (before : Reaches .any ⟨Node.start cfg clock, []⟩ ⟨n, tasks⟩) (active : n.claActive = true)
    (run : Reaches .quiet ⟨n, [Call.janitor.prog]⟩ ⟨m, []⟩) :
    ∃ (mid : Node) (pool : List Prog) (ps : List Pack), Reaches .quiet ⟨n, [Call.janitor.prog]⟩ ⟨mid, pool⟩ ∧ Reaches .quiet ⟨mid, pool⟩ ⟨m, []⟩ ∧
      (∀ e ∈ newEvents n mid, ∃ bid p now, e = .removed bid (.expired p now)) ∧
      ps.Perm (mid.store.packs.filter fun p => p.has .forwardPending && !p.has .deleted) ∧ (ps.map Pack.id).Nodup ∧
      ps.Pairwise (fun a b => a.creationTime ≤ b.creationTime) ∧
      (cfg.parallel = true → (askedIds (newEvents n m)).Perm (ps.map Pack.id)) ∧
      (cfg.parallel = false → askedIds (newEvents n m) <+: ps.map Pack.id) := by
  obtain ⟨i, hcfg⟩ := good_always before
  simp only at i hcfg
  obtain ⟨mid, pool, ⟨hsw, ps, rfl, hperm, hsort⟩, h1, h2⟩ := (alone_processBundles i.inv active).ended run
  obtain ⟨-, g1, p1⟩ := quiet_good i (fun p hp => by rw [List.mem_singleton.mp hp]; exact rg_call Good.acts .janitor) h1
  simp only at g1 p1
  obtain ⟨b2, -, -⟩ := quiet_good g1 p1 h2
  obtain ⟨hpre, hexp⟩ := newEvents_of_swept hsw
  have kn : Knows (ps.map Pack.id) mid := by
    intro id hid
    obtain ⟨p, hp, rfl⟩ := List.mem_map.mp hid
    have hp := (List.mem_filter.mp (hperm.mem_iff.mp hp)).1
    rw [(MemStore.mem_packs_iff g1.inv p).mp hp]
    simp
  have hpar : mid.cfg.parallel = cfg.parallel := by rw [hsw.cfg, hcfg]
  have hnew : askedIds (newEvents n m) = askedIds (newEvents mid m) := by
    rw [newEvents_append hpre b2.past, askedIds_append, asked_none hexp, List.nil_append]
  refine ⟨mid, _, ps, h1, h2, hexp, hperm, ?_, hsort, ?_, ?_⟩
  · rw [(hperm.map Pack.id).nodup_iff]
    exact List.Pairwise.sublist (List.filter_sublist.map _) (MemStore.nodup_packs_ids g1.inv)
  · intro hp
    rw [hpar, hp] at h2 p1
    obtain ⟨now, e1, e2⟩ := PoolAsks.ended (K := ps.map Pack.id) g1 kn p1
      ⟨ps.map Pack.id, [], asking_forwardAll ps (fun p hp => List.mem_map_of_mem hp), rfl, by rw [List.append_nil]⟩ h2
    rw [hnew, asked_new b2.past e1]
    exact e2.symm
  · intro hp
    rw [hpar, hp] at h2 p1
    obtain ⟨now, rest, e1, e2, -⟩ := Ordered.reaches (K := ps.map Pack.id) (s := ⟨mid, _⟩) (l := []) (r := []) rfl (by simp)
      (ordered_forwardAll ps (fun p hp => List.mem_map_of_mem hp)) g1 kn p1 h2
    rw [hnew, asked_new b2.past e1, e2]
    exact List.prefix_append _ _

/-- C12 (janitor as a task). Without an accepting convergence layer only expired bundles are removed. -/
theorem C12_janitor_idle_run {cfg : Config} {clock : Nat} {n m : Node} {tasks : List Prog}
    (before : Reaches .any ⟨Node.start cfg clock, []⟩ ⟨n, tasks⟩) (idle : n.claActive = false)
    (run : Reaches .quiet ⟨n, [Call.janitor.prog]⟩ ⟨m, []⟩) :
    ∀ e ∈ newEvents n m, ∃ bid p now, e = .removed bid (.expired p now) := by
  obtain ⟨i, -⟩ := good_always before
  obtain ⟨mid, pool, ⟨hsw, rfl⟩, -, h2⟩ := (alone_processBundles_idle i.inv idle).ended run
  obtain ⟨t, ht, -⟩ := quiet_ended (.inr ⟨_, rfl⟩) h2
  simp only at ht
  subst ht
  exact (newEvents_of_swept hsw).2

/-- A bundle that was received waits for being forwarded. -/
example : ∃ n tasks m, Reaches .any ⟨Ex.start, []⟩ ⟨n, tasks⟩ ∧ n.claActive = true ∧
    Reaches .quiet ⟨n, [Call.janitor.prog]⟩ ⟨m, []⟩ ∧ askedIds (newEvents n m) = ["b"] := by
  obtain ⟨n, ps, m, h1, h2, h3⟩ := exists_quiet (n := Ex.start)
    ([.call (.receive (Ex.bundle 5 1 0))] ++ go 60) (fun _ => Call.janitor.prog) 80 (some (Ex.answer false)) true "r"
    (fun n m => decide (n.claActive = true ∧ askedIds (newEvents n m) = ["b"])) (by decide +kernel)
  obtain ⟨h3, h4⟩ := of_decide_eq_true h3
  exact ⟨n, ps, m, h1, h3, h2, h4⟩

/-- A stored bundle has expired; the router is not asked. -/
example : ∃ n tasks m, Reaches .any ⟨Ex.start, []⟩ ⟨n, tasks⟩ ∧ n.claActive = false ∧
    Reaches .quiet ⟨n, [Call.janitor.prog]⟩ ⟨m, []⟩ ∧ newEvents n m ≠ [] := by
  obtain ⟨n, ps, m, h1, h2, h3⟩ := exists_quiet (n := Ex.start)
    ([.call (.receive (Ex.bundle 5 1 0))] ++ go 60 ++ [.cla false, .clock 946684810000])
    (fun _ => Call.janitor.prog) 80 (some (Ex.answer false)) true "r"
    (fun n m => decide (n.claActive = false ∧ newEvents n m ≠ [])) (by decide +kernel)
  obtain ⟨h3, h4⟩ := of_decide_eq_true h3
  exact ⟨n, ps, m, h1, h3, h2, h4⟩

end Dtn.Props
