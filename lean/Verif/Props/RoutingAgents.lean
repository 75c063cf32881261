import Verif.Lemmas.RoutingAgents
/-!
Properties C37, C38, C65 and C67: static routing, flooding, sink, and all agents staying alive.
-/

namespace Dtn.Props
open Spec Routing

/-- A peer offering MTCP, for the examples. -/
def exAgentPeer (node : String) : Peer :=
  Peer.new 100 (.dtn node "") (.ipv4 "10.0.0.1") .dynamic none [("mtcp", none)]

/-- A peer offering a layer that does not run here. -/
def exAgentDeaf (node : String) : Peer :=
  Peer.new 100 (.dtn node "") (.ipv4 "10.0.0.1") .dynamic none [("lora", none)]

/-- The running layers of the examples. -/
def exAgentRunning : List Cla := [{ name := "mtcp", port := 16162 }]

/-- The bundle pack of the examples. -/
def exAgentPack (dst : EID) : Pack :=
  { source := .dtn "me" "x", destination := dst, receivedTime := 0, creationTime := 5, lifetime := 60000,
    id := "dtn://me/x-5-0", administrative := false, size := 10, constraints := {} }

/-- Pattern matching of the examples: equality or `*`. -/
def exGlob (pat s : String) : Bool := pat = "*" || pat = s

/-- A routes file. -/
def exFile : List (List Char) :=
  ["# routes".toList, "10 * dtn://d/y dtn://n1/".toList, "".toList, "  20\tdtn://me/x * dtn://n2/  # backup".toList]

/-! ## C67 -/

/-- C67: the agent has the routes `rs` after reading a file exactly if the file consists of empty lines, comments and
lines `index source destination via`, and `rs` are those lines in order. Any other file is not accepted (the agent's task
panics). -/
theorem C67_routes_file (lines : List (List Char)) (rs : List Route) :
    (StaticRouting.start (some lines)).routes = some rs ↔ FileMeans lines rs :=
  StaticRouting.load_iff lines rs

/-- C67: a file means at most one list of routes. -/
theorem C67_routes_file_unambiguous (lines : List (List Char)) (rs rs' : List Route) (h : FileMeans lines rs)
    (h' : FileMeans lines rs') : rs = rs' := by
  have := ((StaticRouting.load_iff lines rs).mpr h).symm.trans ((StaticRouting.load_iff lines rs').mpr h')
  injection this

/-- C67: what the agent prints for a route is read back as the same route: indices up to 65535 and patterns without
blanks. -/
theorem C67_printed_route_read_back (r : Route) (hi : r.idx < 65536) (hs : IsWord r.src.toList) (hd : IsWord r.dst.toList)
    (hv : IsWord r.via.toList) :
    (StaticRouting.start (some
      [(toString r.idx).toList ++ [' '] ++ r.src.toList ++ [' '] ++ r.dst.toList ++ [' '] ++ r.via.toList])).routes =
      some [r] := by
  rw [C67_routes_file]
  refine .route ?_ .nil
  have hdig := StaticRouting.toDigits_digit r.idx
  have htx : (toString r.idx).toList = Nat.toDigits 10 r.idx := by
    show (Nat.repr r.idx).toList = _
    simp [Nat.repr]
  have hne : Nat.toDigits 10 r.idx ≠ [] := Nat.toDigits_ne_nil
  have hbl : Blanks [' '] := by intro c hc; simp at hc; subst hc; unfold Blank; decide
  refine ⟨[], (toString r.idx).toList, [' '], r.src.toList, [' '], r.dst.toList, [' '], r.via.toList, [], by simp,
    by intro c hc; simp at hc, hbl, by simp, hbl, by simp, hbl, by simp, ?_, hs, hd, hv, by simp, ?_, by simp, by simp,
    by simp⟩
  · rw [htx]
    refine ⟨hne, ?_⟩
    intro c hc hb
    have h1 := hdig c hc
    have h2 : 48 ≤ c.toNat := h1.1
    have h3 : c.toNat ≤ 57 := h1.2
    unfold Blank White at hb
    simp only [List.mem_cons, List.not_mem_nil, or_false] at hb
    omega
  · rw [htx]
    exact ⟨_, .inl rfl, hne, hdig, (Nat.ofDigitChars_ten_toDigits ..).symm, hi⟩

example : (StaticRouting.start (some exFile)).routes =
    some [{ idx := 10, src := "*", dst := "dtn://d/y", via := "dtn://n1/" },
      { idx := 20, src := "dtn://me/x", dst := "*", via := "dtn://n2/" }] := by decide

example : FileMeans exFile [{ idx := 10, src := "*", dst := "dtn://d/y", via := "dtn://n1/" },
      { idx := 20, src := "dtn://me/x", dst := "*", via := "dtn://n2/" }] := by
  rw [← C67_routes_file]; decide

/-! ## C37 -/

/-- C37: after any history of requests, reloads and notifications, the answer to a request depends on the routes file in
force: if `r` is the first route whose patterns match the bundle and whose via is a usable neighbour, the answer is that
one neighbour; if no route applies, nobody is selected and deletion is not asked for. -/
theorem C37_static_first_route (glob : String → String → Bool) (file : Option (List (List Char)))
    (ops : List StaticRouting.Op) (peers : List Peer) (running : List Cla) (bp : Pack)
    (log : List (Pack × Option Answer)) (a : Answer)
    (h : (StaticRouting.run glob (StaticRouting.start file) (ops ++ [.request peers running bp])).log =
      log ++ [(bp, some a)]) :
    ∃ rs, RoutesInForce file ops rs ∧
      (∀ r, FirstRoute glob peers running bp rs r → ∃ p ∈ peers, ∃ s, p.eid.print = r.via ∧ SendsTo running p s ∧
        a = { clas := [s], delete := !bp.destination.isNonSingleton }) ∧
      ((∀ r ∈ rs, ¬ Applies glob peers running bp r) → a = { clas := [], delete := false }) := by
  rw [StaticRouting.run_append] at h
  change (StaticRouting.step glob (StaticRouting.run glob (StaticRouting.start file) ops) _).log = _ at h
  cases hr : (StaticRouting.run glob (StaticRouting.start file) ops).routes with
  | none =>
    simp only [StaticRouting.step, hr] at h
    have := (List.append_inj' h rfl).2
    simp at this
  | some rs =>
    simp only [StaticRouting.step, hr] at h
    have := (List.append_inj' h rfl).2
    simp at this
    refine ⟨rs, StaticRouting.routes_run glob file ops rs hr, ?_⟩
    rw [← this]
    exact StaticRouting.answer_spec glob peers running bp rs

/-- `n1` is the via of the first matching route but cannot be used, so the second route is taken. -/
example : ((StaticRouting.run exGlob (StaticRouting.start (some exFile))
    [.request [exAgentPeer "n1", exAgentPeer "n2"] exAgentRunning (exAgentPack (.dtn "d" "y")),
     .request [exAgentPeer "n2", exAgentDeaf "n1"] exAgentRunning (exAgentPack (.dtn "d" "y")),
     .request [exAgentPeer "n3"] exAgentRunning (exAgentPack (.dtn "d" "y")),
     .command "reload" (some ["1 * * dtn://n3/".toList]),
     .request [exAgentPeer "n3"] exAgentRunning (exAgentPack (.dtn "d" "~y"))]).log.map
      fun x => x.2.map fun a => (a.clas.map (·.nextHop), a.delete)) =
    [some ([.dtn "n1" ""], true), some ([.dtn "n2" ""], true), some ([], false), some ([.dtn "n3" ""], false)] := by decide

/-! ## C38 -/

/-- C38: after any history without shutdown, flooding answers a request with one task for each usable peer, in the order
of the peer table, and does not ask for deletion. -/
theorem C38_flooding_all_usable (cmds : List Cmd) (peers : List Peer) (running : List Cla) (bp : Pack)
    (hs : Cmd.shutdown ∉ cmds) :
    ∃ log a usable, (Routing.Task.run flooding { core := some () } (cmds ++ [.senderForBundle peers running bp])).log =
        log ++ [(.senderForBundle peers running bp, some a)] ∧
      usable.Sublist peers ∧ (∀ p ∈ peers, p ∈ usable ↔ Usable running p) ∧
      List.Forall₂ (SendsTo running) usable a.clas ∧ a.delete = false := by
  obtain ⟨h1, _⟩ := Task.run_alive flooding { core := some () } cmds hs (fun _ _ _ _ _ => rfl) rfl (by simp)
  obtain ⟨c, hc⟩ := Option.isSome_iff_exists.mp h1
  refine ⟨(Routing.Task.run flooding { core := some () } cmds).log, floodingAnswer peers running,
    peers.filter fun p => (p.firstCla running).isSome, ?_, List.filter_sublist, ?_, ?_, rfl⟩
  · rw [Task.run_append]
    change (Task.step flooding _ _).log = _
    simp only [Task.step, hc]
    rfl
  · intro p hp
    simp only [List.mem_filter, hp, true_and]
    exact Peer.firstCla_isSome_iff p running
  · show List.Forall₂ _ _ (peers.filterMap fun p => p.firstCla running)
    induction peers with
    | nil => exact .nil
    | cons p ps ih =>
      cases hf : p.firstCla running with
      | none => simp only [hf, Option.isSome_none, Bool.false_eq_true, not_false_eq_true, List.filter_cons_of_neg,
          List.filterMap_cons_none]; exact ih
      | some s =>
        rw [List.filterMap_cons_some (f := fun p : Peer => p.firstCla running) hf]
        simp only [hf, Option.isSome_some, List.filter_cons_of_pos]
        exact .cons (Peer.firstCla_sendsTo hf) ih

/-- C38: sink answers every request with nobody and does not ask for deletion. -/
theorem C38_sink_nobody (cmds : List Cmd) (peers : List Peer) (running : List Cla) (bp : Pack)
    (hs : Cmd.shutdown ∉ cmds) :
    ∃ log, (Routing.Task.run sink { core := some () } (cmds ++ [.senderForBundle peers running bp])).log =
      log ++ [(.senderForBundle peers running bp, some { clas := [], delete := false })] := by
  obtain ⟨h1, _⟩ := Task.run_alive sink { core := some () } cmds hs (fun _ _ _ _ _ => rfl) rfl (by simp)
  obtain ⟨c, hc⟩ := Option.isSome_iff_exists.mp h1
  refine ⟨(Routing.Task.run sink { core := some () } cmds).log, ?_⟩
  rw [Task.run_append]
  change (Task.step sink _ _).log = _
  simp only [Task.step, hc]
  rfl

example : ((Routing.Task.run flooding { core := some () } [.notify (.droppedPeer (.dtn "n9" "")),
    .senderForBundle [exAgentPeer "n1", exAgentDeaf "n2", exAgentPeer "n3"] exAgentRunning (exAgentPack .none)]).log.map
      fun x => x.2.map fun a => (a.clas.map (·.nextHop), a.delete)) =
    [none, some ([.dtn "n1" "", .dtn "n3" ""], false)] := by decide

/-! ## C65 -/

/-- C65 for flooding: every request of a history without shutdown is answered. -/
theorem C65_flooding_answers_all (cmds : List Cmd) (hs : Cmd.shutdown ∉ cmds) :
    let log := (Routing.Task.run flooding { core := some () } cmds).log
    log.map Prod.fst = cmds ∧ ∀ x ∈ log, ∀ ps r bp, x.1 = .senderForBundle ps r bp → x.2.isSome :=
  ⟨by simpa using Task.log_run flooding { core := some () } cmds,
    (Task.run_alive flooding { core := some () } cmds hs (fun _ _ _ _ _ => rfl) rfl (by simp)).2⟩

/-- C65 for sink. -/
theorem C65_sink_answers_all (cmds : List Cmd) (hs : Cmd.shutdown ∉ cmds) :
    let log := (Routing.Task.run sink { core := some () } cmds).log
    log.map Prod.fst = cmds ∧ ∀ x ∈ log, ∀ ps r bp, x.1 = .senderForBundle ps r bp → x.2.isSome :=
  ⟨by simpa using Task.log_run sink { core := some () } cmds,
    (Task.run_alive sink { core := some () } cmds hs (fun _ _ _ _ _ => rfl) rfl (by simp)).2⟩

/-- C65 for epidemic routing, as long as no bundle is addressed to `dtn:none`. Missing:
`C65_null_destination_stops_epidemic_violated`. -/
theorem C65_epidemic_answers_all_partial (cmds : List Cmd) (hs : Cmd.shutdown ∉ cmds)
    (hd : ∀ bp ∈ askedFor cmds, bp.destination ≠ .none) :
    let log := (Epidemic.Task.run {} cmds).log
    log.map Prod.fst = askedFor cmds ∧ ∀ x ∈ log, x.2.isSome := by
  have h := Epidemic.Task.run_alive {} cmds hs hd rfl (by simp)
  exact ⟨by simpa using h.2.2, h.2.1⟩

/-- C65 for spray and wait, as long as no bundle is addressed to `dtn:none` and no peer is called `dtn:none`. Missing:
`C65_null_destination_stops_spray_violated`. -/
theorem C65_spray_answers_all_partial (l : Nat) (localNode : String) (cmds : List Cmd) (hs : Cmd.shutdown ∉ cmds)
    (hd : ∀ ps r bp, Cmd.senderForBundle ps r bp ∈ cmds → bp.destination ≠ .none ∧ ∀ p ∈ ps, p.eid ≠ .none) :
    let log := ((sprayStart l localNode).run spray cmds).log
    log.map Prod.fst = cmds ∧ ∀ x ∈ log, ∀ ps r bp, x.1 = .senderForBundle ps r bp → x.2.isSome := by
  refine ⟨by simpa [sprayStart] using Task.log_run spray (sprayStart l localNode) cmds,
    (Task.run_alive spray (sprayStart l localNode) cmds hs ?_ rfl (by simp [sprayStart])).2⟩
  intro ps r bp hmem c
  obtain ⟨h1, h2⟩ := hd ps r bp hmem
  show (Spray.request c ps r bp).isSome
  unfold Spray.request
  split
  · rename_i m hm
    obtain ⟨⟨m', a⟩, hl⟩ := Option.isSome_iff_exists.mp
      (Spray.loop_isSome c.localNode bp r ps m { clas := [], delete := false } h1 h2)
    rw [hl]; rfl
  · rfl

/-- C65 for static routing, as long as every routes file loaded is well formed. Missing:
`C65_bad_routes_file_stops_static_violated`. -/
theorem C65_static_answers_all_partial (glob : String → String → Bool) (file : Option (List (List Char)))
    (ops : List StaticRouting.Op) (hs : StaticRouting.Op.shutdown ∉ ops)
    (hfile : ∀ lines, file = some lines → ∃ rs, FileMeans lines rs)
    (hreload : ∀ lines, StaticRouting.Op.command "reload" (some lines) ∈ ops → ∃ rs, FileMeans lines rs) :
    let log := (StaticRouting.run glob (StaticRouting.start file) ops).log
    log.map Prod.fst = asked ops ∧ ∀ x ∈ log, x.2.isSome := by
  have ok : ∀ lines, (∃ rs, FileMeans lines rs) → (StaticRouting.load lines).isSome := by
    rintro lines ⟨rs, h⟩
    rw [(StaticRouting.load_iff lines rs).mpr h]; rfl
  have h := StaticRouting.run_alive glob (StaticRouting.start file) ops hs (by
    rintro cmd lines hm rfl
    exact ok lines (hreload lines hm)) (by
    cases file with
    | none => rfl
    | some lines => exact ok lines (hfile lines rfl)) (by cases file <;> simp [StaticRouting.start])
  refine ⟨?_, h.2.1⟩
  rw [h.2.2]
  cases file <;> simp [StaticRouting.start]

/-- C65 is false for epidemic routing: asked for a bundle addressed to `dtn:none` while it has a usable neighbour, the
agent's task panics, and no later request is ever answered, whatever the history before and after. -/
theorem C65_null_destination_stops_epidemic_violated (before after : List Cmd) (ps : List Peer) (r : List Cla) (bp : Pack)
    (hd : bp.destination = .none) (p : Peer) (hp : p ∈ ps) (hu : Usable r p)
    (hnew : ∀ c, (Epidemic.Task.run {} before).core = some c → c.contains bp.id p.nodeName = false) :
    (Epidemic.Task.run {} (before ++ [.senderForBundle ps r bp] ++ after)).log =
      (Epidemic.Task.run {} before).log ++ (bp :: askedFor after).map fun b => (b, none) := by
  rw [Epidemic.Task.run_append, Epidemic.Task.run_append]
  change (Epidemic.Task.run ((Epidemic.Task.run {} before).step (.senderForBundle ps r bp)) after).log = _
  cases hc : (Epidemic.Task.run {} before).core with
  | none =>
    have e : (Epidemic.Task.run {} before).step (.senderForBundle ps r bp) =
        { core := none, log := (Epidemic.Task.run {} before).log ++ [(bp, none)] } := by
      simp only [Epidemic.Task.step, hc]
    rw [Epidemic.Task.run_dead _ _ (by rw [e]), e]
    simp
  | some c =>
    have hn : c.senderForBundle ps r bp = none :=
      (Epidemic.loop_none bp r ps c []).mpr ⟨by rw [hd]; rfl, p, hp, hnew c hc, (Peer.firstCla_isSome_iff p r).mpr hu⟩
    have e : (Epidemic.Task.run {} before).step (.senderForBundle ps r bp) =
        { core := none, log := (Epidemic.Task.run {} before).log ++ [(bp, none)] } := by
      simp only [Epidemic.Task.step, hc, hn]
    rw [Epidemic.Task.run_dead _ _ (by rw [e]), e]
    simp

example : (Epidemic.Task.run {} [.senderForBundle [exAgentPeer "n1"] exAgentRunning (exAgentPack (.dtn "d" "y")),
    .senderForBundle [exAgentPeer "n2"] exAgentRunning (exAgentPack .none),
    .senderForBundle [exAgentPeer "n3"] exAgentRunning (exAgentPack (.dtn "d" "y"))]).log.map (fun x => x.2.isSome) =
    [true, false, false] := by decide

/-- C65 is false for spray and wait: a bundle addressed to `dtn:none` that came from elsewhere stops the agent. -/
theorem C65_null_destination_stops_spray_violated (after : List Cmd) :
    (Routing.Task.run spray (sprayStart 7 "dtn://other/")
      ([.notify (.incomingBundleWithoutPreviousNode "dtn://me/x-5-0" ""),
        .senderForBundle [exAgentPeer "n1"] exAgentRunning (exAgentPack .none)] ++ after)).log.map Prod.snd =
      [none, none] ++ after.map fun _ => none := by
  rw [Task.run_append, Task.run_dead]
  · rw [List.map_append]
    congr 1
    rw [List.map_map]
    rfl
  · decide

/-- C65 is false for static routing: reloading a file with one bad line (here a route without via) stops the agent. -/
theorem C65_bad_routes_file_stops_static_violated (glob : String → String → Bool) (after : List StaticRouting.Op) :
    (StaticRouting.run glob (StaticRouting.start (some exFile))
      ([.command "reload" (some (exFile ++ ["30 * dtn://d/y".toList]))] ++ after)).log =
      (asked after).map fun bp => (bp, none) := by
  rw [StaticRouting.run_append, StaticRouting.run_dead]
  · have h : (StaticRouting.start (some exFile)).routes = some [{ idx := 10, src := "*", dst := "dtn://d/y", via := "dtn://n1/" },
      { idx := 20, src := "dtn://me/x", dst := "*", via := "dtn://n2/" }] := by decide
    simp only [StaticRouting.run, List.foldl_cons, List.foldl_nil, StaticRouting.step, h, if_true]
    rfl
  · have h : (StaticRouting.start (some exFile)).routes = some [{ idx := 10, src := "*", dst := "dtn://d/y", via := "dtn://n1/" },
      { idx := 20, src := "dtn://me/x", dst := "*", via := "dtn://n2/" }] := by decide
    simp only [StaticRouting.run, List.foldl_cons, List.foldl_nil, StaticRouting.step, h, if_true]
    decide

end Dtn.Props
