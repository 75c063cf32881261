import Verif.Lemmas.Epidemic
/-!
Properties C32-C34: epidemic routing.
-/

namespace Dtn.Props
open Spec Routing

/-- A peer offering MTCP, for the examples. -/
def exNeighbour (node : String) : Peer :=
  Peer.new 100 (.dtn node "") (.ipv4 "10.0.0.1") .dynamic none [("mtcp", none)]

/-- The convergence layers of the examples. -/
def exRunning : List Cla := [{ name := "mtcp", port := 16162 }]

/-- The bundle pack of the examples, from node `src` to node `dst`. -/
def exRoutedPack (dst : String) : Pack :=
  { source := .dtn "src" "x", destination := .dtn dst "y", receivedTime := 0, creationTime := 5, lifetime := 60000,
    id := "dtn://src/x-5-0", administrative := false, size := 10, constraints := {} }

/-- Request for the bundle of the examples with the given neighbours. -/
def exAsk (nodes : List String) (dst : String) : Cmd :=
  .senderForBundle (nodes.map exNeighbour) exRunning (exRoutedPack dst)

/-! ## C32 -/

/-- C32: take any history in which the router, asked for a bundle, selects node `n`, and asked again for the same bundle
selects `n` again. Then a failure for this bundle and `n` was reported in between. -/
theorem C32_epidemic_at_most_once_unless_failed (pre mid : List Cmd) (ps1 ps2 : List Peer) (r1 r2 : List Cla)
    (bp1 bp2 : Pack) (l1 l2 : List (Pack × Option Answer)) (a1 a2 : Answer) (n : String)
    (h1 : (Epidemic.Task.run {} (pre ++ [.senderForBundle ps1 r1 bp1])).log = l1 ++ [(bp1, some a1)])
    (h2 : (Epidemic.Task.run {} (pre ++ [.senderForBundle ps1 r1 bp1] ++ mid ++ [.senderForBundle ps2 r2 bp2])).log =
      l2 ++ [(bp2, some a2)])
    (hid : bp1.id = bp2.id) (hn1 : n ∈ selected a1) (hn2 : n ∈ selected a2) :
    Cmd.notify (.sendingFailed bp1.id n) ∈ mid := by
  apply Classical.byContradiction
  intro hno
  rw [Epidemic.Task.run_append] at h1
  obtain ⟨_, c, c', _, hs, hcore⟩ := Epidemic.Task.step_answer h1
  obtain ⟨_, _, h3, _⟩ := Epidemic.loop_spec bp1 r1 ps1 c [] c' a1 hs
  have hc' : c'.contains bp1.id n = true := by
    rcases h3 n hn1 with h | h
    · simp at h
    · exact h
  have hmid := Epidemic.Task.run_contains mid
    (Epidemic.Task.run {} (pre ++ [.senderForBundle ps1 r1 bp1])) bp1.id n (by
      intro x hx
      rw [Epidemic.Task.run_append] at hx
      change ((Epidemic.Task.run {} pre).step _).core = some x at hx
      rw [hcore] at hx
      injection hx with hx
      rw [← hx]; exact hc') hno
  rw [Epidemic.Task.run_append, Epidemic.Task.run_append _ _ mid] at h2
  obtain ⟨_, d, d', hd, hs2, _⟩ := Epidemic.Task.step_answer h2
  have hdc := hmid d hd
  obtain ⟨h4, _⟩ := Epidemic.loop_spec bp2 r2 ps2 d [] d' a2 hs2
  rcases h4 n hn2 with h | ⟨h, _⟩
  · simp at h
  · rw [← hid, hdc] at h; cases h

/-- C32, within one answer: no peer is selected twice. -/
theorem C32_epidemic_no_duplicates (pre : List Cmd) (ps : List Peer) (r : List Cla) (bp : Pack)
    (l : List (Pack × Option Answer)) (a : Answer)
    (h : (Epidemic.Task.run {} (pre ++ [.senderForBundle ps r bp])).log = l ++ [(bp, some a)]) :
    (selected a).Nodup := by
  rw [Epidemic.Task.run_append] at h
  obtain ⟨_, c, c', _, hs, _⟩ := Epidemic.Task.step_answer h
  exact Epidemic.loop_nodup bp r ps c [] c' a hs (by simp) (by simp)

/-- Asked twice with a failure for `n1` in between: `n1` is selected again, `n2` is not. -/
example : ((Epidemic.Task.run {} [exAsk ["n1", "n2"] "d", .notify (.sendingFailed "dtn://src/x-5-0" "n1"),
      exAsk ["n1", "n2", "n3"] "d"]).log.map fun x => (x.2.map selected).getD []) =
    [["n1", "n2"], ["n1", "n3"]] := by decide

/-! ## C33 -/

/-- C33: after the router was told that a bundle came in from node `n`, it selects `n` for this bundle only if a failure
for the bundle and `n` was reported since. -/
theorem C33_epidemic_not_back_to_sender (pre mid : List Cmd) (b : Bundle) (n : String) (ps : List Peer) (r : List Cla)
    (bp : Pack) (l : List (Pack × Option Answer)) (a : Answer) (note : Notification)
    (hnote : (note = .incomingBundle b ∧ (Spec.previousNode b).bind EID.node = some n) ∨
      note = .incomingBundleWithoutPreviousNode b.id n)
    (hn : n ≠ "") (hid : bp.id = b.id)
    (h : (Epidemic.Task.run {} (pre ++ [.notify note] ++ mid ++ [.senderForBundle ps r bp])).log =
      l ++ [(bp, some a)])
    (hsel : n ∈ selected a) : Cmd.notify (.sendingFailed b.id n) ∈ mid := by
  apply Classical.byContradiction
  intro hno
  have hafter : ∀ c : Epidemic, (c.notify note).contains b.id n = true := by
    intro c
    rcases hnote with ⟨rfl, hp⟩ | rfl
    · change (Routing.previousNode b).bind EID.node = some n at hp
      simp only [Epidemic.notify]
      cases hpn : Routing.previousNode b with
      | none => rw [hpn] at hp; simp at hp
      | some e =>
        rw [hpn] at hp
        simp only [Option.bind_some] at hp
        simp [hp, Epidemic.contains_incomingBundle, hn]
    · simp [Epidemic.notify, Epidemic.contains_incomingBundle, hn]
  have hmid := Epidemic.Task.run_contains mid (Epidemic.Task.run {} (pre ++ [.notify note])) b.id n (by
      intro x hx
      rw [Epidemic.Task.run_append] at hx
      change ((Epidemic.Task.run {} pre).step _).core = some x at hx
      unfold Epidemic.Task.step at hx
      cases hc : (Epidemic.Task.run {} pre).core with
      | none => rw [hc] at hx; simp [hc] at hx
      | some c =>
        rw [hc] at hx
        simp only [Option.some.injEq] at hx
        rw [← hx]; exact hafter c) hno
  rw [Epidemic.Task.run_append, Epidemic.Task.run_append _ _ mid] at h
  obtain ⟨_, d, d', hd, hs2, _⟩ := Epidemic.Task.step_answer h
  have hdc := hmid d hd
  obtain ⟨h4, _⟩ := Epidemic.loop_spec bp r ps d [] d' a hs2
  rcases h4 n hsel with h | ⟨h, _⟩
  · simp at h
  · rw [hid, hdc] at h; cases h

/-- The bundle of the examples as it came in from node `n1`. -/
def exIncoming : Bundle :=
  { primary := { bid := "dtn://src/x-5-0", source := .dtn "src" "x", destination := .dtn "d" "y",
                 reportTo := .dtn "src" "x", creationTime := 5, lifetime := 60000 }
    canonicals := [{ btype := 1, num := 1, data := .data [1] },
                   { btype := 6, num := 2, data := .previousNode (.dtn "n1" "") }] }

example : (Spec.previousNode exIncoming).bind EID.node = some "n1" ∧
    ((Epidemic.Task.run {} [.notify (.incomingBundle exIncoming), exAsk ["n1", "n2"] "d"]).log.map
      fun x => (x.2.map selected).getD []) = [["n2"]] := by decide

/-! ## C34 -/

/-- C34, for histories in which direct delivery was not chosen for the bundle before: let the agent be running, the peers'
node names distinct and the destination a node. Then the request is answered; if a usable peer not yet served is the
destination, exactly it is selected and deletion requested; otherwise exactly the usable peers not yet served are
selected and deletion is not requested. "Served" refers to the history of answers and notifications only.
Missing: `C34_unselected_peer_counts_as_served_violated`. -/
theorem C34_epidemic_serves_new_peers_partial (cmds : List Cmd) (ps : List Peer) (r : List Cla) (bp : Pack) (d : String)
    (hrun : (Epidemic.Task.run {} cmds).core ≠ none)
    (hnd : (ps.map Peer.nodeName).Nodup) (hd : bp.destination.node = some d)
    (hno : ∀ ps r bp' a, (Cmd.senderForBundle ps r bp', some a) ∈ answered {} cmds → bp'.id = bp.id →
      a.delete = false) :
    let new := fun p => Usable r p ∧ served bp.id p.nodeName (answered {} cmds) = false
    ∃ a, (Epidemic.Task.run {} (cmds ++ [.senderForBundle ps r bp])).log =
        (Epidemic.Task.run {} cmds).log ++ [(bp, some a)] ∧
      (∀ s ∈ a.clas, ∃ p ∈ ps, new p ∧ SendsTo r p s) ∧
      ((∃ p ∈ ps, new p ∧ p.nodeName = d) → selected a = [d] ∧ a.delete = true) ∧
      ((∀ p ∈ ps, new p → p.nodeName ≠ d) →
        (∀ n, n ∈ selected a ↔ ∃ p ∈ ps, new p ∧ p.nodeName = n) ∧ a.delete = false) := by
  intro new
  cases hcore : (Epidemic.Task.run {} cmds).core with
  | none => exact absurd hcore hrun
  | some c =>
    have hserved := Epidemic.Task.contains_eq_served cmds bp.id hno c hcore
    have hlog : ∀ c' a, c.senderForBundle ps r bp = some (c', a) →
        (Epidemic.Task.run {} (cmds ++ [.senderForBundle ps r bp])).log =
          (Epidemic.Task.run {} cmds).log ++ [(bp, some a)] := by
      intro c' a h
      rw [Epidemic.Task.run_append]
      show ((Epidemic.Task.run {} cmds).step _).log = _
      unfold Epidemic.Task.step
      rw [hcore]; simp only [h]
    by_cases hdir : ∃ p ∈ ps, new p ∧ p.nodeName = d
    · obtain ⟨q, hq, ⟨hu, hns⟩, hqd⟩ := hdir
      have hsome := (Peer.firstCla_isSome_iff q r).2 hu
      obtain ⟨s, hs⟩ := Option.isSome_iff_exists.1 hsome
      obtain ⟨c', hloop⟩ := Epidemic.loop_direct bp r ps c [] q (by rw [hd, hqd]) hnd hq
        (by rw [hserved]; exact hns) s hs
      refine ⟨_, hlog c' _ hloop, ?_, ?_, ?_⟩
      · intro s' hs'
        simp only [List.mem_singleton] at hs'
        subst hs'
        exact ⟨q, hq, ⟨hu, hns⟩, Peer.firstCla_sendsTo hs⟩
      · intro _
        have : s.nextHop.node.getD "" = d := by rw [Peer.firstCla_nextHop hs]; exact hqd
        simp [selected, this]
      · intro h; exact absurd hqd (h q hq ⟨hu, hns⟩)
    · have hnone : ∀ p ∈ ps, c.contains bp.id p.nodeName = false → Usable r p → p.nodeName ≠ d := by
        intro p hp hc hu h
        exact hdir ⟨p, hp, ⟨hu, by rw [← hserved]; exact hc⟩, h⟩
      obtain ⟨c', hloop, _⟩ := Epidemic.loop_relay bp r ps c [] d hd hnd hnone
      refine ⟨_, hlog c' _ hloop, ?_, fun h => absurd h hdir, ?_⟩
      · intro s hs
        simp only [List.nil_append, List.mem_filterMap, List.mem_filter] at hs
        obtain ⟨p, ⟨hp, hc⟩, hf⟩ := hs
        refine ⟨p, hp, ⟨(Peer.firstCla_isSome_iff p r).1 (by rw [hf]; rfl), ?_⟩, Peer.firstCla_sendsTo hf⟩
        rw [← hserved]; simpa using hc
      · intro _
        refine ⟨?_, rfl⟩
        intro n
        simp only [selected, List.nil_append, List.mem_map, List.mem_filterMap, List.mem_filter]
        constructor
        · rintro ⟨s, ⟨p, ⟨hp, hc⟩, hf⟩, rfl⟩
          refine ⟨p, hp, ⟨(Peer.firstCla_isSome_iff p r).1 (by rw [hf]; rfl), ?_⟩, ?_⟩
          · rw [← hserved]; simpa using hc
          · rw [Peer.firstCla_nextHop hf]; rfl
        · rintro ⟨p, hp, ⟨hu, hns⟩, rfl⟩
          obtain ⟨s, hs⟩ := Option.isSome_iff_exists.1 ((Peer.firstCla_isSome_iff p r).2 hu)
          refine ⟨s, ⟨p, ⟨hp, ?_⟩, hs⟩, ?_⟩
          · rw [hserved, hns]; rfl
          · rw [Peer.firstCla_nextHop hs]; rfl

/-- A history that meets the hypotheses, and the answer: `n1` has been served, `n4` is unusable. -/
example : let cmds := [exAsk ["n1"] "d", .notify (.droppedPeer (.dtn "n9" ""))]
    (Epidemic.Task.run {} cmds).core ≠ none ∧
    served "dtn://src/x-5-0" "n1" (answered {} cmds) = true ∧ served "dtn://src/x-5-0" "n2" (answered {} cmds) = false ∧
    (Epidemic.Task.run {} (cmds ++ [.senderForBundle
        ((["n1", "n2", "n3"].map exNeighbour) ++ [{ exNeighbour "n4" with claList := [] }]) exRunning
        (exRoutedPack "d")])).log.map (fun x => (x.2.map fun a => (selected a, a.delete)).getD ([], false)) =
      [(["n1"], false), (["n2", "n3"], false)] := by decide

/-- The destination is a neighbour: only it is selected. -/
example : (Epidemic.Task.run {} [exAsk ["n1", "d", "n2"] "d"]).log.map
      (fun x => (x.2.map fun a => (selected a, a.delete)).getD ([], false)) = [(["d"], true)] := by decide

/-- C34 (last sentence) is false: `n1` comes before the destination `d` in the peer table. The answer is `d` alone, and
the transfer to `d` fails. When the router is asked again and `d` is gone, `n1` is not selected although it is usable and
was never selected, and never will be. -/
theorem C34_unselected_peer_counts_as_served_violated :
    let cmds := [exAsk ["n1", "d"] "d", .notify (.sendingFailed "dtn://src/x-5-0" "d")]
    Usable exRunning (exNeighbour "n1") ∧
    served "dtn://src/x-5-0" "n1" (answered {} cmds) = false ∧
    (∀ x ∈ answered {} cmds, ∀ a, x.2 = some a → "n1" ∉ selected a) ∧
    ∀ more : List Cmd, Cmd.notify (.sendingFailed "dtn://src/x-5-0" "n1") ∉ more →
      ∀ l a, (Epidemic.Task.run {} (cmds ++ more ++ [exAsk ["n1"] "d"])).log = l ++ [(exRoutedPack "d", some a)] →
        a = { clas := [], delete := false } := by
  refine ⟨⟨("mtcp", none), by decide, { name := "mtcp", port := 16162 }, by decide, by decide⟩, by decide,
    ?_, ?_⟩
  · intro x hx a ha
    have : answered {} [exAsk ["n1", "d"] "d", .notify (.sendingFailed "dtn://src/x-5-0" "d")] =
        [(exAsk ["n1", "d"] "d", some { clas := [{ tx := { name := "mtcp", port := 16162 }, dest := "10.0.0.1:16162", claName := "mtcp", nextHop := .dtn "d" "" }], delete := true }),
         (.notify (.sendingFailed "dtn://src/x-5-0" "d"), none)] := by decide
    rw [this] at hx
    simp only [List.mem_cons, List.not_mem_nil, or_false] at hx
    rcases hx with rfl | rfl
    · injection ha with ha; subst ha; decide
    · cases ha
  · intro more hmore l a h
    rw [Epidemic.Task.run_append, Epidemic.Task.run_append] at h
    obtain ⟨_, c, c', hc, hs, _⟩ := Epidemic.Task.step_answer h
    have := Epidemic.Task.run_contains more
      (Epidemic.Task.run {} [exAsk ["n1", "d"] "d", .notify (.sendingFailed "dtn://src/x-5-0" "d")])
      "dtn://src/x-5-0" "n1" (by
        intro c hc
        have h2 : (Epidemic.Task.run {} [exAsk ["n1", "d"] "d",
          .notify (.sendingFailed "dtn://src/x-5-0" "d")]).core = some { history := [("dtn://src/x-5-0", ["n1"])] } := by
            decide
        rw [h2] at hc; injection hc with hc; subst hc; decide) hmore c hc
    have hnn : (exNeighbour "n1").nodeName = "n1" := by decide
    have hid : (exRoutedPack "d").id = "dtn://src/x-5-0" := by decide
    simp only [Epidemic.senderForBundle, List.map_cons, List.map_nil, Epidemic.loop, hnn, hid, this, Bool.not_true,
      Bool.false_eq_true, if_false, Option.some.injEq, Prod.mk.injEq] at hs
    exact hs.2.symm

end Dtn.Props
