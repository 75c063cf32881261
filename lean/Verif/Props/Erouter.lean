import Verif.Lemmas.Erouter
import Verif.Props.Epidemic
/-!
C121: the external routing program `dtnerouting`. C122: what external routers know about the neighbours.
-/

namespace Dtn.Props
open Spec Spec.ErouterSpec Routing Routing.External Erouter

/-- The packets of the examples: some peers with the given layers. -/
def exTell (ps : List (String × List String)) : News :=
  .peerState (ps.map fun x => (x.1, Peer.new 100 (.dtn x.1 "") (.ipv4 "10.0.0.1") .dynamic none (x.2.map fun c => (c, none))))

/-- Two peers with one layer each. -/
def exTwoPeers : News := exTell [("n1", ["mtcp"]), ("n2", ["mtcp"])]

theorem exTell_well {a b : String} (h : a ≠ b) (x y : List String) (news : List News)
    (hn : ∀ z ∈ news, ∀ ps e p, z ≠ .peerState ps ∧ z ≠ .encountered e p) : WellTold (exTell [(a, x), (b, y)] :: news) := by
  refine ⟨?_, ?_⟩
  · intro ps hp
    rcases List.mem_cons.mp hp with hp | hp
    · unfold exTell at hp
      cases hp
      refine ⟨by simp [AList.WF, AList.keys, h], ?_⟩
      intro k p hk
      simp only [List.map_cons, List.map_nil, List.mem_cons, Prod.mk.injEq, List.not_mem_nil, or_false] at hk
      rcases hk with ⟨rfl, rfl⟩ | ⟨rfl, rfl⟩ <;> rfl
    · exact absurd rfl (hn _ hp ps .none (Peer.new 0 .none (.ipv4 "") .dynamic none [])).1
  · intro e p hp
    rcases List.mem_cons.mp hp with hp | hp
    · cases hp
    · exact absurd rfl (hn _ hp [] e p).2

/-! ## C121 -/

/-- C121: while the program runs, every request for a bundle whose destination is a node is answered, with a reply that names this
bundle; with flooding every request is answered. -/
theorem C121_answered (st : Strategy) (news : List News) (clas : List String) (bp : Pack) (runs : Runs st news)
    (dest : st = .flooding ∨ bp.destination.node ≠ none) : ∃ r, Replied st news clas bp r ∧ r.bp = bp := by
  obtain ⟨r0, h0⟩ := Option.ne_none_iff_exists'.mp runs
  have hs := (after_told news h0).1
  cases hc : r0.choose clas bp with
  | some x => exact ⟨x.2, replied_iff.mpr ⟨r0, x.1, h0, hc⟩, (choose_same (r' := x.1) hc).2.2⟩
  | none =>
    exfalso
    unfold Router.choose at hc
    rw [hs] at hc
    cases st with
    | flooding => cases hc
    | epidemic =>
      simp only at hc
      split at hc
      · rename_i hv
        obtain ⟨hd, -⟩ := (visitAll_none _ _).mp hv
        rcases dest with h | h
        · cases h
        · exact h hd
      · cases hc

/-- C121: every hop in a reply leads to a neighbour that the node has told of, at the address told last, over a layer that the
neighbour has and that was named in the request. -/
theorem C121_known_peers (st : Strategy) (news : List News) (clas : List String) (bp : Pack) (r : Reply) (well : WellTold news)
    (replied : Replied st news clas bp r) : ∀ h ∈ r.clas, ∃ n p, told n news = some p ∧ HopTo clas p h := by
  obtain ⟨r0, r1, h0, hc⟩ := replied_iff.mp replied
  have w := (after_named news well h0).1
  intro h hh
  unfold Router.choose at hc
  split at hc
  · cases hc
    simp only [flood, List.mem_flatMap, List.mem_map, List.mem_filter] at hh
    obtain ⟨p, hp, c, ⟨hc1, hc2⟩, rfl⟩ := hh
    obtain ⟨n, hn⟩ := mem_values h0 hp w
    exact ⟨n, p, hn, rfl, rfl, hc1, by simpa [hop] using hc2⟩
  · split at hc
    · cases hc
    · rename_i t ht
      cases hc
      obtain ⟨p, hp, hto⟩ := visitAll_hops ht (by simp) h hh
      obtain ⟨n, hn⟩ := mem_values h0 hp w
      exact ⟨n, p, hn, hto⟩

/-- C121: with flooding, all of these hops are in the reply, and deletion is never asked for. -/
theorem C121_flooding (news : List News) (clas : List String) (bp : Pack) (r : Reply) (replied : Replied .flooding news clas bp r) :
    (∀ n p h, told n news = some p → HopTo clas p h → h ∈ r.clas) ∧ r.delete = false := by
  obtain ⟨r0, r1, h0, hc⟩ := replied_iff.mp replied
  unfold Router.choose at hc
  rw [(after_told news h0).1] at hc
  cases hc
  refine ⟨fun n p h hn hto => ?_, rfl⟩
  obtain ⟨h1, h2, h3, h4⟩ := hto
  simp only [flood, List.mem_flatMap, List.mem_map, List.mem_filter]
  refine ⟨p, values_of_told h0 hn, (h.agent, h.port), ⟨h3, by simpa using h4⟩, ?_⟩
  simp [hop, ← h1, ← h2]

/-- C121: with the epidemic strategy, a reply names no neighbour twice. A neighbour that was named for a bundle is named again for
it only if a failure of this transfer or a timeout of a request about this bundle was reported in between. -/
theorem C121_at_most_once (pre mid : List News) (clas1 clas2 : List String) (bp1 bp2 : Pack) (r1 r2 : Reply) (n : String)
    (first : Replied .epidemic pre clas1 bp1 r1) (second : Replied .epidemic (pre ++ .request clas1 bp1 :: mid) clas2 bp2 r2)
    (same : bp1.id = bp2.id) : (names r1).Nodup ∧
    (n ∈ names r1 → n ∈ names r2 → News.failed bp1.id n ∈ mid ∨ ∃ bp, News.timeout bp ∈ mid ∧ bp.id = bp1.id) := by
  obtain ⟨r0, r0', h0, hc⟩ := replied_iff.mp first
  obtain ⟨r3, r3', h3, hc3⟩ := replied_iff.mp second
  have hs := (after_told pre h0).1
  have hs3 := (after_told _ h3).1
  have hstep : r0.step (.request clas1 bp1) = some (r0', some r1) := by simp [Router.step, hc]
  have hstep3 : r3.step (.request clas2 bp2) = some (r3', some r2) := by simp [Router.step, hc3]
  refine ⟨?_, fun hn1 hn2 => ?_⟩
  · unfold Router.choose at hc
    rw [hs] at hc
    simp only at hc
    split at hc
    · cases hc
    · rename_i t ht
      cases hc
      exact (visitAll_core ht).2.1
  · apply Classical.byContradiction
    intro hno
    rw [not_or] at hno
    have k1 := step_core hs hstep bp1.id n
    obtain ⟨a, ha, -, -, k1⟩ := k1
    cases ha
    have hmid : after (some r0') mid = some r3 := by
      rw [after_append, h0] at h3
      change after ((some r0).bind fun r => (r.step (.request clas1 bp1)).map Prod.fst) mid = _ at h3
      rwa [Option.bind_some, hstep] at h3
    have k2 := core_stays ((choose_same hc).1.trans hs) hmid ((k1 rfl).1 hn1).2 hno.1 fun bp hb he => hno.2 ⟨bp, hb, he⟩
    obtain ⟨a, ha, -, -, k3⟩ := step_core hs3 hstep3 bp2.id n
    cases ha
    have := ((k3 rfl).1 hn2).1
    rw [← same, k2] at this
    cases this

/-- C121: a neighbour from which a bundle came is not named for it, unless a failure or a timeout was reported in between. -/
theorem C121_not_back (pre mid : List News) (clas : List String) (b : Bundle) (bp : Pack) (r : Reply) (n : String) (note : News)
    (came : (note = .incoming b ∧ (Spec.previousNode b).bind EID.node = some n) ∨ note = .incomingWithout b.id n) (name : n ≠ "")
    (same : bp.id = b.id) (replied : Replied .epidemic (pre ++ note :: mid) clas bp r) (named : n ∈ names r) :
    News.failed b.id n ∈ mid ∨ ∃ bp, News.timeout bp ∈ mid ∧ bp.id = b.id := by
  obtain ⟨r3, r3', h3, hc3⟩ := replied_iff.mp replied
  have hs3 := (after_told _ h3).1
  have hstep3 : r3.step (.request clas bp) = some (r3', some r) := by simp [Router.step, hc3]
  apply Classical.byContradiction
  intro hno
  rw [not_or] at hno
  rw [after_append] at h3
  cases h0 : after (start .epidemic) pre with
  | none => rw [h0, after_none] at h3; cases h3
  | some r0 =>
    rw [h0] at h3
    change after ((some r0).bind fun r => (r.step note).map Prod.fst) mid = _ at h3
    rw [Option.bind_some] at h3
    have hs := (after_told pre h0).1
    cases hx : r0.step note with
    | none => rw [hx] at h3; rw [Option.map_none, after_none] at h3; cases h3
    | some y =>
      obtain ⟨r1, o⟩ := y
      rw [hx] at h3
      have hc : r1.core.contains b.id n = true ∧ r1.strategy = .epidemic := by
        have k := step_core hs hx b.id n
        rcases came with ⟨rfl, hp⟩ | rfl
        · change (Routing.previousNode b).bind EID.node = some n at hp
          simp only at k
          refine ⟨by rw [k]; simp [hp, name], ?_⟩
          simp only [Router.step, hp] at hx
          cases hx; exact (keeps_strategy _ _).1.trans hs
        · simp only at k
          refine ⟨by rw [k]; simp [name], ?_⟩
          cases hx; exact (keeps_strategy _ _).1.trans hs
      have k2 := core_stays hc.2 h3 hc.1 hno.1 fun bp hb he => hno.2 ⟨bp, hb, he⟩
      obtain ⟨a, ha, -, -, k3⟩ := step_core hs3 hstep3 bp.id n
      cases ha
      have := ((k3 rfl).1 named).1
      rw [same, k2] at this
      cases this

/-- C121, if deletion was not asked for with this bundle before: with the epidemic strategy, if the destination is a neighbour that
has not got the bundle and has a layer of those in the request, it is named and deletion is asked for; otherwise exactly the
neighbours with such a layer that have not got the bundle are named, and deletion is not asked for. Missing: that only the destination
is named (`C121_direct_violated`). -/
theorem C121_new_peers_partial (news : List News) (clas : List String) (bp : Pack) (r : Reply) (d : String) (well : WellTold news)
    (dest : bp.destination.node = some d) (replied : Replied .epidemic news clas bp r)
    (kept : ∀ clas bp' a, (News.request clas bp', some a) ∈ replies (start .epidemic) news → bp'.id = bp.id → a.delete = false) :
    let new := fun n => ∃ p, told n news = some p ∧ Offers clas p ∧ got bp.id n (replies (start .epidemic) news) = false
    (new d → d ∈ names r ∧ r.delete = true) ∧ (¬ new d → (∀ n, n ∈ names r ↔ new n) ∧ r.delete = false) := by
  intro new
  obtain ⟨r0, r1, h0, hc⟩ := replied_iff.mp replied
  obtain ⟨w, named⟩ := after_named news well h0
  have hg := fun n => core_got kept h0 n
  have htold : ∀ n p, told n news = some p → p.nodeName = n := by
    intro n p hp
    rw [← (after_told news h0).2] at hp
    exact named n p (AList.mem_of_get? hp)
  unfold Router.choose at hc
  rw [(after_told news h0).1] at hc
  simp only at hc
  split at hc
  · cases hc
  · rename_i t ht
    cases hc
    refine ⟨?_, ?_⟩
    · rintro ⟨p, hp, ho, hgot⟩
      exact (visitAll_direct dest ht ⟨p, values_of_told h0 hp, htold d p hp, ho⟩ (by rw [hg]; exact hgot)).symm
    · intro hnew
      obtain ⟨t', k1, k2, k3⟩ := visitAll_relay (clas := clas) dest (AList.values r0.peers) { core := r0.core } (values_names w named) (by
        intro p hp hcon ho he
        obtain ⟨n, hn⟩ := mem_values h0 hp w
        refine hnew ⟨p, ?_, ho, ?_⟩
        · rw [← he, htold n p hn]; exact hn
        · rw [← hg, ← he]; exact hcon)
      rw [ht] at k1
      cases k1
      refine ⟨fun n => ?_, k2⟩
      change n ∈ t.clas.map name ↔ _
      rw [k3]
      simp only [List.nil_append, List.mem_map, List.mem_filterMap, List.mem_filter, Bool.not_eq_true']
      constructor
      · rintro ⟨h, ⟨p, ⟨hp, hcon⟩, hf⟩, rfl⟩
        obtain ⟨m, hm⟩ := mem_values h0 hp w
        have e1 := hopTo_name (firstHop_to hf)
        rw [e1]
        refine ⟨p, by rw [htold m p hm]; exact hm, firstHop_some.mp (by rw [hf]; rfl), ?_⟩
        rw [← hg]; exact hcon
      · rintro ⟨p, hp, ho, hgot⟩
        obtain ⟨h, hf⟩ := Option.isSome_iff_exists.mp (firstHop_some.mpr ho)
        refine ⟨h, ⟨p, ⟨values_of_told h0 hp, ?_⟩, hf⟩, ?_⟩
        · rw [htold n p hp, hg]; exact hgot
        · rw [hopTo_name (firstHop_to hf), htold n p hp]

/-- Two neighbours are told of, the bundle came from one; the other is named. After a failure it is named again, else not. -/
example : WellTold [exTwoPeers, .incomingWithout "dtn://src/x-5-0" "n1"] ∧
    (replies (start .epidemic) [exTwoPeers, .incomingWithout "dtn://src/x-5-0" "n1", .request ["mtcp"] (exRoutedPack "d"),
      .request ["mtcp"] (exRoutedPack "d"), .failed "dtn://src/x-5-0" "n2", .request ["mtcp"] (exRoutedPack "d")]).map
        (fun x => (x.2.map names).getD []) = [[], [], ["n2"], [], [], ["n2"]] :=
  ⟨exTell_well (by decide) _ _ _ (by simp), by decide +kernel⟩

/-- The destination is told of and named alone. -/
example : (replies (start .epidemic) [exTwoPeers, .request ["mtcp"] (exRoutedPack "n2")]).map
    (fun x => x.2.map fun r => (names r, r.delete)) = [none, some (["n2"], true)] := by decide +kernel

/-- C121 is violated: if the destination is a neighbour, deletion is asked for, but the neighbours that come after it in the table
are named as well. Built-in epidemic routing names the destination only. -/
theorem C121_direct_violated : ∃ news clas bp r, WellTold news ∧ Replied .epidemic news clas bp r ∧ bp.destination.node = some "n1" ∧
    r.delete = true ∧ names r = ["n1", "n2"] :=
  ⟨[exTwoPeers], ["mtcp"], exRoutedPack "n1", _, exTell_well (by decide) _ _ _ (by simp), rfl, rfl, by decide, by decide⟩

/-- C121 is violated: a request for a bundle without destination node ends the program, if there is a neighbour it could name; the
request and all later ones are not answered. -/
theorem C121_ends_violated : ∃ news clas bp, WellTold news ∧ Runs .epidemic news ∧
    ∀ more clas' bp' r, ¬ Replied .epidemic (news ++ .request clas bp :: more) clas' bp' r := by
  refine ⟨[exTwoPeers], ["mtcp"], { exRoutedPack "d" with destination := .none }, exTell_well (by decide) _ _ _ (by simp),
    by unfold Runs; decide +kernel, ?_⟩
  intro more clas' bp' r h
  obtain ⟨r0, -, h0, -⟩ := replied_iff.mp h
  have : after (start .epidemic) [exTwoPeers, .request ["mtcp"] { exRoutedPack "d" with destination := .none }] = none := by decide +kernel
  rw [show [exTwoPeers] ++ News.request ["mtcp"] { exRoutedPack "d" with destination := .none } :: more =
    [exTwoPeers, .request ["mtcp"] { exRoutedPack "d" with destination := .none }] ++ more from rfl, after_append, this, after_none] at h0
  cases h0

/-- C121 is violated: with flooding, a neighbour with two of the layers gets the bundle twice. -/
theorem C121_flooding_twice_violated : ∃ news clas bp r, WellTold news ∧ Replied .flooding news clas bp r ∧ names r = ["n1", "n1", "n2"] :=
  ⟨[exTell [("n1", ["mtcp", "tcp"]), ("n2", ["mtcp"])]], ["mtcp", "tcp"], exRoutedPack "d", _,
    exTell_well (by decide) _ _ _ (by simp), rfl, by decide⟩

/-- The layers of a node that also pulls over http. -/
def exPulling : List Cla := [{ name := "httppull", port := 0, accepting := false }, { name := "mtcp", port := 16162 }]

/-- `k` requests, each followed by a failure. -/
def exRounds : Nat → List News
  | 0 => []
  | k + 1 => exRounds k ++ [.request (exPulling.map Cla.name) (exRoutedPack "d"), .failed "dtn://src/x-5-0" "n1"]

/-- C121 is violated: the request also names layers that accept no bundles, and the program picks the first layer that the neighbour
announces. So a neighbour that announces http pull before MTCP never gets a bundle: every transfer fails, and the program names the same
layer again. Built-in routing uses MTCP. -/
theorem C121_not_accepting_violated : ∃ p : Peer, ∃ ps : Peers, AList.get? ps "n1" = some p ∧ Usable exPulling p ∧
    (∃ s, p.firstCla exPulling = some s ∧ s.claName = "mtcp") ∧
    ∀ k, ∃ r, Replied .epidemic (.peerState ps :: exRounds k) (exPulling.map Cla.name) (exRoutedPack "d") r ∧
      ∀ order, ∃ s, (unpack exPulling ⟨⟨r.bp, order⟩, r.clas, r.delete⟩).clas = [s] ∧ s.tx.accepting = false := by
  let p : Peer := Peer.new 100 (.dtn "n1" "") (.ipv4 "10.0.0.1") .dynamic none [("httppull", none), ("mtcp", none)]
  refine ⟨p, [("n1", p)], rfl, ⟨("mtcp", none), by simp [p, Peer.new], { name := "mtcp", port := 16162 }, by simp [exPulling], rfl, rfl⟩,
    ⟨_, rfl, by decide⟩, ?_⟩
  have hst : ∀ k, after (start .epidemic) (.peerState [("n1", p)] :: exRounds k) =
      some { strategy := .epidemic, peers := [("n1", p)], core := if k = 0 then {} else { history := [("dtn://src/x-5-0", [])] } } := by
    intro k
    induction k with
    | zero => rfl
    | succ k ih =>
      simp only [exRounds]
      rw [← List.cons_append, after_append, ih]
      by_cases hk : k = 0
      · subst hk; decide +kernel
      · simp only [hk, if_false, Nat.succ_ne_zero]; decide +kernel
  intro k
  have : ∃ r r1, (Router.choose { strategy := .epidemic, peers := [("n1", p)], core := if k = 0 then {} else { history := [("dtn://src/x-5-0", [])] } }
      (exPulling.map Cla.name) (exRoutedPack "d")) = some (r1, r) ∧ r.clas = [hop p ("httppull", none)] := by
    by_cases hk : k = 0
    · subst hk; exact ⟨_, _, rfl, by decide⟩
    · simp only [hk, if_false]; exact ⟨_, _, rfl, by decide⟩
  obtain ⟨r, r1, h1, h2⟩ := this
  refine ⟨r, replied_iff.mpr ⟨_, r1, hst k, h1⟩, fun order => ?_⟩
  refine ⟨_, by simp only [unpack, h2]; rfl, by decide⟩

/-- C121, for bundles whose destinations are not among the neighbours and with layers that all accept bundles: a program with the
epidemic strategy that is told and asked the same as a built-in epidemic router makes the node use the same senders, in some order.
Missing: the destination as neighbour (`C121_direct_violated`) and layers that accept nothing (`C121_not_accepting_violated`). -/
theorem C121_same_as_builtin_partial (news : List News) (cmds : List Cmd) (ps : List Peer) (running : List Cla) (bp : Pack) (d : String)
    (well : WellTold news) (runs : Runs .epidemic news) (alike : Alike news cmds)
    (nodup : ps.Nodup) (peers : ∀ p, p ∈ ps ↔ ∃ n, told n news = some p) (accepting : ∀ c ∈ running, c.accepting = true)
    (dest : bp.destination.node = some d) (far : ∀ p ∈ ps, p.nodeName ≠ d) :
    ∃ r a, Replied .epidemic news (running.map Cla.name) bp r ∧
      (Epidemic.Task.run {} (cmds ++ [.senderForBundle ps running bp])).log = (Epidemic.Task.run {} cmds).log ++ [(bp, some a)] ∧
      ∀ order, ((unpack running ⟨⟨r.bp, order⟩, r.clas, r.delete⟩).clas).Perm a.clas ∧
        (unpack running ⟨⟨r.bp, order⟩, r.clas, r.delete⟩).delete = a.delete := by
  obtain ⟨r0, h0⟩ := Option.ne_none_iff_exists'.mp runs
  obtain ⟨c, c1, c2⟩ := alike_core alike well h0
  obtain ⟨r1, reply, c', a, k1, k2, -, k4, k5, k6⟩ := ask_alike well h0 c2 nodup peers accepting dest far
  refine ⟨reply, a, replied_iff.mpr ⟨r0, r1, h0, k1⟩, ?_, fun order => ⟨k6, k4.trans k5.symm⟩⟩
  rw [Epidemic.Task.run_append]
  change (Epidemic.Task.step _ _).log = _
  simp only [Epidemic.Task.step, c1, k2]

/-- Two neighbours; the bundle came from one, and a transfer to the other failed. -/
example : ∃ news cmds, ∃ ps : List Peer, WellTold news ∧ Runs .epidemic news ∧ Alike news cmds ∧ ps.length = 2 ∧ ps.Nodup ∧
    (∀ p, p ∈ ps ↔ ∃ n, told n news = some p) ∧ cmds.length = 4 := by
  let p : String → Peer := fun n => Peer.new 100 (.dtn n "") (.ipv4 "10.0.0.1") .dynamic none [("mtcp", none)]
  let m : Cla := { name := "mtcp", port := 16162 }
  let bp := exRoutedPack "d"
  let news := [exTwoPeers, .incomingWithout bp.id "n1", .request [m.name] bp, .failed bp.id "n2", .request [m.name] bp]
  have hnd : [p "n1", p "n2"].Nodup := by decide +kernel
  have htold : ∀ xs : List News, (∀ x ∈ xs, (∃ b n, x = .incomingWithout b n) ∨ (∃ b n, x = .failed b n) ∨ ∃ c q, x = .request c q) →
      ∀ q, q ∈ [p "n1", p "n2"] ↔ ∃ n, told n (exTwoPeers :: xs) = some q := by
    intro xs hx q
    have : ∀ n, told n (exTwoPeers :: xs) = AList.get? [("n1", p "n1"), ("n2", p "n2")] n := by
      intro n
      induction xs using List.reverseRecOn with
      | nil => rfl
      | append_singleton xs x ih =>
        have hl := hx x (by simp)
        rw [← List.cons_append, told_append]
        rcases hl with ⟨b, n, rfl⟩ | ⟨b, n, rfl⟩ | ⟨c, q, rfl⟩ <;> exact ih fun y hy => hx y (by simp [hy])
    constructor
    · intro h
      simp only [List.mem_cons, List.not_mem_nil, or_false] at h
      rcases h with rfl | rfl
      · exact ⟨"n1", (this _).trans rfl⟩
      · exact ⟨"n2", (this _).trans rfl⟩
    · rintro ⟨n, hn⟩
      rw [this] at hn
      have := AList.mem_of_get? hn
      simp only [List.mem_cons, Prod.mk.injEq, List.not_mem_nil, or_false] at this ⊢
      rcases this with ⟨-, h⟩ | ⟨-, h⟩
      · exact .inl h
      · exact .inr h
  have hd : ∃ d, bp.destination.node = some d ∧ ∀ q ∈ [p "n1", p "n2"], q.nodeName ≠ d := ⟨"d", rfl, by decide +kernel⟩
  have hacc : ∀ c ∈ [m], c.accepting = true := by decide
  have a0 : Alike [exTwoPeers] [] := .peers (xs := []) .start trivial
  have a1 := Alike.note a0 (.incomingWithout bp.id "n1")
  have a2 := Alike.ask (r := [m]) (bp := bp) a1 hnd (htold [_] (by simp)) hacc hd
  have a3 := Alike.note a2 (.failed bp.id "n2")
  have a4 := Alike.ask (r := [m]) (bp := bp) a3 hnd (htold [_, _, _] (by simp)) hacc hd
  exact ⟨news, _, _, exTell_well (by decide) _ _ _ (by simp), by unfold Runs; decide +kernel, a4, rfl, hnd,
    htold [.incomingWithout bp.id "n1", .request [m.name] bp, .failed bp.id "n2", .request [m.name] bp] (by simp), rfl⟩

/-! ## C122 -/

/-- C122, for beacons, the periodic check, and failed transfers that remove no peer: after any sequence of these, what a connected
program was told about a neighbour agrees with the node's table. Missing: the removal of a peer after failed transfers, and peers that
are added or removed otherwise (`C122_failed_peer_violated`, `C122_session_violated`, `C122_http_violated`). -/
theorem C122_follows_partial (ps : Peers) (changes : List Change) (table : Table ps) (announced : AllAnnounced ps changes) (n : String) :
    Agree (told n (tellAll ps changes).2) (AList.get? (tellAll ps changes).1 n) :=
  tellAll_agree table announced n

/-- C122: whatever happens, the node tells about peers under their own names. -/
theorem C122_well_told (ps : Peers) (changes : List Change) (table : Table ps) : WellTold (tellAll ps changes).2 :=
  tellAll_well table changes

/-- C122: so, after such changes, the program names only neighbours of the table, at their addresses and over their layers. -/
theorem C122_replies_partial (ps : Peers) (changes : List Change) (st : Strategy) (clas : List String) (bp : Pack) (r : Reply)
    (table : Table ps) (announced : AllAnnounced ps changes) (replied : Replied st (tellAll ps changes).2 clas bp r) :
    ∀ h ∈ r.clas, ∃ n p, AList.get? (tellAll ps changes).1 n = some p ∧ HopTo clas p h := by
  intro h hh
  obtain ⟨n, p, hp, h1, h2, h3, h4⟩ := C121_known_peers st _ clas bp r (tellAll_well table changes) replied h hh
  have := tellAll_agree table announced n
  rw [hp] at this
  cases hg : AList.get? (tellAll ps changes).1 n with
  | none => rw [hg] at this; exact this.elim
  | some q =>
    rw [hg] at this
    obtain ⟨e1, e2, e3⟩ := this
    exact ⟨n, q, hg, h1.trans e1, h2.trans e2, e3 ▸ h3, h4⟩

/-- A neighbour of the examples. -/
def exToldPeer (n : String) : Peer := Peer.new 100 (.dtn n "") (.ipv4 "10.0.0.1") .dynamic none [("mtcp", none)]

/-- The table of the examples. -/
theorem exToldPeer_table : Table [("n1", exToldPeer "n1")] := by
  refine ⟨by simp [AList.WF, AList.keys], ?_⟩
  intro k p h
  simp only [List.mem_cons, Prod.mk.injEq, List.not_mem_nil, or_false] at h
  obtain ⟨rfl, rfl⟩ := h
  rfl

/-- A second neighbour appears, a transfer to the first fails, the first times out. -/
example : ∃ changes, AllAnnounced [("n1", exToldPeer "n1")] changes ∧ (tellAll [("n1", exToldPeer "n1")] changes).1 = [("n2", { exToldPeer "n2" with lastContact := 150 })] ∧
    (tellAll [("n1", exToldPeer "n1")] changes).2.length = 3 := by
  refine ⟨[.beacon { exToldPeer "n2" with lastContact := 150 }, .fail "n1", .check ⟨60, false⟩ 170], ⟨trivial, ?_, trivial, trivial⟩,
    by decide +kernel, by decide +kernel⟩
  intro k
  have h1 : (tell [("n1", exToldPeer "n1")] (.beacon { exToldPeer "n2" with lastContact := 150 })).1 =
    [("n2", { exToldPeer "n2" with lastContact := 150 }), ("n1", exToldPeer "n1")] := by decide +kernel
  have h2 : (tell [("n2", { exToldPeer "n2" with lastContact := 150 }), ("n1", exToldPeer "n1")] (.fail "n1")).1 =
    [("n1", { exToldPeer "n1" with fails := 1 }), ("n2", { exToldPeer "n2" with lastContact := 150 })] := by decide +kernel
  rw [h1, h2]
  by_cases e1 : "n1" = k <;> by_cases e2 : "n2" = k <;> simp [Peers.known, AList.contains, AList.get?, e1, e2]

/-- C122 is violated: after four failed transfers the node removes a neighbour, but the program is not told: it goes on to name the
neighbour for every new bundle. -/
theorem C122_failed_peer_violated : ∃ ps changes, Table ps ∧ (tellAll ps changes).1 = [] ∧
    ∃ r, Replied .epidemic (tellAll ps changes).2 ["mtcp"] (exRoutedPack "d") r ∧ names r = ["n1"] :=
  ⟨[("n1", exToldPeer "n1")], [.fail "n1", .fail "n1", .fail "n1", .fail "n1"], exToldPeer_table, by decide +kernel, _, rfl,
    by decide +kernel⟩

/-- C122 is violated: a neighbour that connects over tcp is in the table, but the program is not told and does not name it, even when
it is the destination. -/
theorem C122_session_violated : ∃ changes p, AList.get? (tellAll [] changes).1 "n1" = some p ∧
    ∃ r, Replied .epidemic (tellAll [] changes).2 ["mtcp"] (exRoutedPack "n1") r ∧ names r = [] :=
  ⟨[.session (exToldPeer "n1")], exToldPeer "n1", by decide +kernel, _, rfl, by decide +kernel⟩

/-- C122 is violated: the program is not told when a neighbour is added or deleted over http. -/
theorem C122_http_violated : (∃ changes p, AList.get? (tellAll [] changes).1 "n1" = some p ∧
      ∃ r, Replied .epidemic (tellAll [] changes).2 ["mtcp"] (exRoutedPack "n1") r ∧ names r = []) ∧
    ∃ ps changes, Table ps ∧ (tellAll ps changes).1 = [] ∧
      ∃ r, Replied .epidemic (tellAll ps changes).2 ["mtcp"] (exRoutedPack "d") r ∧ names r = ["n1"] :=
  ⟨⟨[.httpAdd (exToldPeer "n1")], exToldPeer "n1", by decide +kernel, _, rfl, by decide +kernel⟩,
    ⟨[("n1", exToldPeer "n1")], [.httpDel "n1"], exToldPeer_table, by decide +kernel, _, rfl, by decide +kernel⟩⟩

end Dtn.Props
