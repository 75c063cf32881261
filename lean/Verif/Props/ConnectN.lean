import Verif.Lemmas.ConnectNJam
/-! C125: the program that connects N nodes. -/

namespace Dtn.Props
open ConnectN Spec.ConnectNSpec
open ModuleClient (EclaPacket)

/-! ## A network of three nodes -/

def cnBundle (k : Nat) : Bundle :=
  { primary := { bid := "b", source := .dtn "a" "", destination := .dtn "b" "", reportTo := .dtn "a" "", creationTime := k, lifetime := 1000 }, canonicals := [] }

def cnExt : Ext where
  host i := .dtn (toString i) ""
  nodeid i := toString i
  bid b := b.id
  wire b := [UInt8.ofNat b.primary.creationTime]
  parse l := match l with | [k] => some (cnBundle k.toNat) | _ => none
  classify _ := .fine

def cnNodes : List Ecla.State := [Ecla.start [] false, Ecla.start [] true, Ecla.start [] false]

/-- Client `i` connects and registers. -/
def cnUp (i : Nat) : List ConnectN.Ev :=
  [.connect i true, .node i (.proceed 0), .node i (.proceed 0), .client i .begin, .client i (.write true), .up i, .node i (.write 0), .node i (.write 0), .down i [], .down i []]

/-- Node `i` sends a bundle to an address, and the program looks at it. -/
def cnSend (i : Nat) (dst : String) (k : Nat) : List ConnectN.Ev :=
  [.node i (.submit (bytesOf "ConnectN") dst (some (cnBundle k))), .node i (.write 0), .down i [], .route]

/-- A packet for client `i` reaches its node. -/
def cnGive (i : Nat) : List ConnectN.Ev := [.pump i, .client i (.write true), .up i]

def cnRun : List ConnectN.Ev :=
  cnUp 0 ++ [.route, .route] ++ cnUp 1 ++ [.route, .route] ++ cnUp 2 ++ [.route, .route] ++
  cnGive 0 ++ cnGive 0 ++ cnGive 1 ++ cnGive 1 ++ cnGive 2 ++ cnGive 2

/-- Two bundles for node 1 and one for node 2, all delivered. -/
def cnAll : List ConnectN.Ev :=
  cnRun ++ cnSend 0 "1" 5 ++ cnSend 2 "1:4556" 6 ++ cnSend 0 "2" 7 ++ cnGive 1 ++ cnGive 1 ++ cnGive 2

def cnState (evs : List ConnectN.Ev) : Net := ((start cnNodes).run cnExt evs).getD { sites := [] }

theorem cnNodes_reached : ∀ s ∈ cnNodes, Reached s := by
  intro s hs
  simp only [cnNodes, List.mem_cons, List.not_mem_nil, or_false] at hs
  rcases hs with rfl | rfl | rfl
  · exact ⟨[], false, [], rfl⟩
  · exact ⟨[], true, [], rfl⟩
  · exact ⟨[], false, [], rfl⟩

theorem cnState_run {evs : List ConnectN.Ev} (h : ((start cnNodes).run cnExt evs).isSome = true) : (start cnNodes).run cnExt evs = some (cnState evs) := by
  unfold cnState
  obtain ⟨n, hn⟩ := Option.isSome_iff_exists.mp h
  rw [hn]; rfl

theorem cn_inv (x : Ext) (b : Bool) {nodes : List Ecla.State} (h : ∀ s ∈ nodes, Reached s) : NetInv x b (start nodes) := by
  refine NetInv.start x b fun s hs => ?_
  obtain ⟨clas, tcp, evs, ha⟩ := h s hs
  refine ⟨clas, tcp, evs, ha, ?_⟩
  rw [Ecla.connectors_after ha]
  cases tcp <;> simp [Ecla.start]

theorem start_clean {nodes : List Ecla.State} {j : Nat} (hj : j < nodes.length) : ∃ s, (start nodes).sites[j]? = some s ∧ Clean false s := by
  refine ⟨{ node := nodes[j] }, ?_, ?_⟩
  · simp [start, hj]
  · exact ⟨by simp, by simp [drawn]⟩

theorem start_length {x : Ext} {nodes : List Ecla.State} {evs : List ConnectN.Ev} {n : Net} (h : (start nodes).run x evs = some n) :
    n.sites.length = nodes.length := by
  rw [run_length h]; simp [start]

/-! ## The theorems -/

/-- C125: every bundle that a node receives through the program was sent by one of the nodes to an address that leads to the receiver, and the
bundles of each sender arrive in the order in which it sent them, none twice. -/
theorem C125_in_order (x : Ext) (nodes : List Ecla.State) (hn : ∀ s ∈ nodes, Reached s) (evs : List ConnectN.Ev) (n : Net)
    (h : (start nodes).run x evs = some n) (hx : ∀ i dest b, .data dest b ∈ outgoing n i → x.parse (x.wire b) = some b) (j : Nat) :
    ∃ L : List (Nat × Bundle), L.map (fun l => l.2) = receivedAt n j ∧ (∀ l ∈ L, l.1 < nodes.length) ∧
      ∀ i, (part L i).Sublist (bundlesFor j (outgoing n i)) := by
  obtain ⟨L, h1, h2, h3⟩ := (run_inv (cn_inv x false hn) h).in_order hx j
  exact ⟨L, h1, by rw [← start_length h]; exact h2, h3⟩

example : ((start cnNodes).run cnExt cnAll).isSome = true ∧
    receivedAt (cnState cnAll) 1 = [cnBundle 5, cnBundle 6] ∧ receivedAt (cnState cnAll) 2 = [cnBundle 7] ∧
    bundlesFor 1 (outgoing (cnState cnAll) 0) = [cnBundle 5] ∧ bundlesFor 1 (outgoing (cnState cnAll) 2) = [cnBundle 6] ∧
    ((List.range 3).all fun i => (outgoing (cnState cnAll) i).all fun o => match o with | .data _ b => decide (cnExt.parse (cnExt.wire b) = some b) | _ => true) := by
  decide +kernel

/-- C125: if the client of a node registers before it is given anything else, and can write everything, then the bundles that the node has
received from each sender are those that the sender sent to it first, without gaps. Missing: this fails if the client is given packets before
it registers (see `C125_early_violated`), or if a write fails, which nobody is told. -/
theorem C125_no_gaps_partial (x : Ext) (nodes : List Ecla.State) (hn : ∀ s ∈ nodes, Reached s) (evs : List ConnectN.Ev) (n : Net)
    (h : (start nodes).run x evs = some n) (hx : ∀ i dest b, .data dest b ∈ outgoing n i → x.parse (x.wire b) = some b) (j : Nat) (hj : j < nodes.length)
    (h1 : ∀ ok, .client j (.write ok) ∈ evs → ok = true) (h2 : ∀ pre post, evs = pre ++ .pump j :: post → .client j .begin ∈ pre) :
    ∃ L : List (Nat × Bundle), L.map (fun l => l.2) = receivedAt n j ∧ (∀ l ∈ L, l.1 < nodes.length) ∧
      ∀ i, part L i <+: bundlesFor j (outgoing n i) := by
  obtain ⟨s, hs, hc⟩ := start_clean hj
  obtain ⟨begun, s', g1, g2⟩ := run_clean (cn_inv x false hn) h hs false hc h1 (fun pre post he => .inr (h2 pre post he))
  obtain ⟨L, k1, k2, k3⟩ := (run_inv (cn_inv x false hn) h).no_gaps hx g1 g2
  exact ⟨L, k1, by rw [← start_length h]; exact k2, k3⟩

/-- C125: once nothing is on its way to a registered node any more, it has received exactly what every node sent to it. Missing: as above. -/
theorem C125_all_delivered_partial (x : Ext) (nodes : List Ecla.State) (hn : ∀ s ∈ nodes, Reached s) (evs : List ConnectN.Ev) (n : Net)
    (h : (start nodes).run x evs = some n) (hx : ∀ i dest b, .data dest b ∈ outgoing n i → x.parse (x.wire b) = some b) (j : Nat)
    (h1 : ∀ ok, .client j (.write ok) ∈ evs → ok = true) (h2 : ∀ pre post, evs = pre ++ .pump j :: post → .client j .begin ∈ pre)
    (s : Site) (hj : n.sites[j]? = some s) (hr : Registered s) (hq : Spec.ConnectNSpec.Quiet s) (hrx : n.rx = []) (hread : ∀ i, Read n i) :
    ∃ L : List (Nat × Bundle), L.map (fun l => l.2) = receivedAt n j ∧ (∀ l ∈ L, l.1 < nodes.length) ∧
      ∀ i, i < nodes.length → part L i = bundlesFor j (outgoing n i) := by
  have hlen := start_length h
  have hjl : j < nodes.length := by rw [← hlen]; exact (List.getElem?_eq_some_iff.mp hj).1
  obtain ⟨s0, hs, hc⟩ := start_clean hjl
  obtain ⟨begun, s', g1, g2⟩ := run_clean (cn_inv x false hn) h hs false hc h1 (fun pre post he => .inr (h2 pre post he))
  rw [hj] at g1; cases g1
  obtain ⟨c, a, r1, r2, m, r3, r4, -⟩ := hr
  have hsee : ∃ w, s.node.see c = some (a, .serving, w) := by
    unfold Spec.Ecla.Connected at r2
    simp only [Option.map_eq_some_iff, Prod.mk.injEq] at r2
    obtain ⟨k, k1, k2, k3⟩ := r2
    exact ⟨k.written, by rw [Ecla.see_some k1, k2, k3]⟩
  obtain ⟨w, hsee⟩ := hsee
  obtain ⟨L, k1, k2, k3⟩ := (run_inv (cn_inv x false hn) h).at_rest hx hj g2 r1 hsee r3 r4 hrx hq.1 hq.2.1 hq.2.2
  refine ⟨L, k1, by rw [← hlen]; exact k2, fun i hi => ?_⟩
  have hi' : n.sites[i]? = some n.sites[i] := List.getElem?_eq_getElem (by omega)
  exact k3 i _ hi' (hread i _ hi')

/-- C125: everything that a node hears about others through the program is about one of the connected nodes, other than itself, under its number. -/
theorem C125_peers (x : Ext) (nodes : List Ecla.State) (hn : ∀ s ∈ nodes, Reached s) (hN : nodes.length ≤ 2 ^ 64) (evs : List ConnectN.Ev) (n : Net)
    (h : (start nodes).run x evs = some n) (j : Nat) (s : Site) (hj : n.sites[j]? = some s) (e : EID × String) (he : e ∈ s.node.encounters) :
    (∃ node, nodes[j]? = some node ∧ e ∈ node.encounters) ∨ (∃ c, .node j (.packet c (.beacon e.1 e.2 .fine)) ∈ evs) ∨
      ∃ i, i < nodes.length ∧ i ≠ j ∧ e = (x.host i, toString i) := by
  have P : Hears x (start nodes) (fun j e => (∃ node, nodes[j]? = some node ∧ e ∈ node.encounters) ∨ ∃ c, .node j (.packet c (.beacon e.1 e.2 .fine)) ∈ evs) := by
    intro j s hj e he
    simp only [start, List.getElem?_map, Option.map_eq_some_iff] at hj
    obtain ⟨node, hnode, rfl⟩ := hj
    exact .inl (.inl ⟨node, hnode, he⟩)
  have := P.run (cn_inv x false hn) h (fun j c eid addr hm => .inr ⟨c, hm⟩) j s hj e he
  rw [start_length h] at this
  rcases this with (g | g) | ⟨i, h1, h2, h3⟩
  · exact .inl g
  · exact .inr (.inl g)
  · exact .inr (.inr ⟨i, h1, h2 hN, h3⟩)

example : ((cnState cnAll).sites[1]?.map fun s => s.node.encounters) = some [(.dtn "0" "", "0"), (.dtn "2" "", "2")] := by decide +kernel

/-- C125: as long as the channel to no client is full, no announcement is left out: once nothing is under way, the client of every node has
passed on to it each announcement of every other node. Missing: if a channel is full, announcements are dropped (`C125_dropped_violated`). -/
theorem C125_announced_partial (x : Ext) (nodes : List Ecla.State) (hn : ∀ s ∈ nodes, Reached s) (evs : List ConnectN.Ev) (n : Net)
    (h : (start nodes).run x evs = some n) (hu : Uncrowded x (start nodes) evs) (i j : Nat) (hij : i ≠ j) (hi : i < nodes.length)
    (h1 : ∀ ok, .client j (.write ok) ∈ evs → ok = true) (h2 : ∀ pre post, evs = pre ++ .pump j :: post → .client j .begin ∈ pre)
    (s : Site) (hj : n.sites[j]? = some s) (hr : Registered s) (hq : Spec.ConnectNSpec.Quiet s) (hrx : n.rx = []) (hread : Read n i) :
    announced n i j = beacons (outgoing n i) := by
  have hlen := start_length h
  have hjl : j < nodes.length := by rw [← hlen]; exact (List.getElem?_eq_some_iff.mp hj).1
  obtain ⟨s0, hs, hc⟩ := start_clean hjl
  obtain ⟨begun, s', g1, g2⟩ := run_clean (cn_inv x false hn) h hs false hc h1 (fun pre post he => .inr (h2 pre post he))
  rw [hj] at g1; cases g1
  have hi' : n.sites[i]? = some n.sites[i] := List.getElem?_eq_getElem (by omega)
  have I := run_inv_uncrowded (cn_inv x true hn) hu h
  have hg : ¬ s.gone := by
    intro hg
    obtain ⟨c, hh⟩ := (I.site j s hj).registered hr
    rw [hg.2] at hh; cases hh
  exact I.beacons hi' hj hij g2 hg hrx hq.1 hq.2.1 (hread _ hi')

/-- C125: an address leads to a node if and only if it is the number of the node, alone or before a colon. -/
theorem C125_addresses (dst : String) (j : Nat) : target dst = some j ↔ Leads dst j := target_iff dst j

/-- C125: the address under which a node is announced leads to it. -/
theorem C125_announced_address (i : Nat) (h : i < 2 ^ 64) (rest : String) : target (toString i) = some i ∧ target (toString i ++ ":" ++ rest) = some i := by
  have hd := (parseUsize_iff _ _).mp (parseUsize_toString h)
  have hc : ':' ∉ (toString i).toList := by
    intro hm
    rw [toString_toList] at hm
    have := Routing.StaticRouting.toDigits_digit i ':' hm
    revert this; decide
  exact ⟨(target_iff _ _).mpr ⟨_, [], by simp, .inl rfl, hc, hd⟩, (target_iff _ _).mpr ⟨_, ':' :: rest.toList, by simp [String.toList_append], .inr rfl, hc, hd⟩⟩

/-- C125: when every client is registered, or has failed to connect, the program can pass on all it has been given. Missing: clients that have
not yet connected, and clients whose nodes do not read (`C125_stuck_violated`). -/
theorem C125_drains_partial (x : Ext) (nodes : List Ecla.State) (hn : ∀ s ∈ nodes, Reached s) (evs : List ConnectN.Ev) (n : Net)
    (h : (start nodes).run x evs = some n) (hr : ∀ s ∈ n.sites, Registered s ∨ Failed s) :
    ∃ evs' m, (∀ e ∈ evs', (∃ i ok, e = .client i (.write ok)) ∨ (∃ i, e = .pump i) ∨ e = .route) ∧ n.run x evs' = some m ∧
      m.rx = [] ∧ ∀ s ∈ m.sites, s.inbox = [] ∧ (s.client.queue = [] ∨ Failed s) := by
  have I := run_inv (cn_inv x false hn) h
  have hw : ∀ s ∈ n.sites, Writes s := by
    intro s hs
    obtain ⟨i, hi, rfl⟩ := List.mem_iff_getElem.mp hs
    have S := I.site i _ (List.getElem?_eq_getElem hi)
    exact (hr _ hs).imp (fun g => ⟨S.registered g, S.open'⟩) id
  obtain ⟨evs', m, h1, h2, h3, h4, h5⟩ := drains (x := x) n hw
  refine ⟨evs', m, fun e he => ?_, h2, h3, h5⟩
  have := h1 e he
  unfold works at this
  split at this
  · exact .inl ⟨_, _, rfl⟩
  · exact .inr (.inl ⟨_, rfl⟩)
  · exact .inr (.inr rfl)
  · cases this

/-! ## Waiting -/

/-- Node 2 stops reading: its client can write no more. Node 0 sends it 201 bundles, and then one to node 1. -/
def cnStuck : List ConnectN.Ev :=
  cnRun ++ (List.replicate 100 (cnSend 0 "2" 1 ++ [.pump 2])).flatten ++ (List.replicate 100 (cnSend 0 "2" 1)).flatten ++
    (cnSend 0 "2" 1).dropLast ++ (cnSend 0 "1" 2).dropLast

def cnStuckTest (n : Net) : Bool :=
  (match n.rx with | .data _ dst _ _ :: _ => decide (target dst = some 2) | _ => false) &&
  (match n.sites[2]? with | some s => decide (s.inbox.length = 100 ∧ s.client.queue.length = 100 ∧ s.client.holder = .writer 0) | none => false) &&
  (match n.sites[1]? with | some s => decide (s.inbox = [] ∧ s.client.queue = [] ∧ s.up = s.put.length ∧ s.client.holder = .writer 0 ∧ s.link = some 0 ∧
    s.node.see 0 = some (.number 0, .serving, [.registered, .beacon]) ∧ s.node.received = []) | none => false) &&
  decide (.data "1" (cnBundle 2) ∈ outgoing n 0)

set_option maxRecDepth 100000 in
theorem cnStuck_test : (((start cnNodes).run cnExt cnStuck).map cnStuckTest) = some true := by decide +kernel

/-- C125 fails if one node stops reading: a bundle for another node, sent after enough bundles for the node that does not read, is never delivered,
whatever else happens, although everybody is connected and registered. -/
theorem C125_stuck_violated : ∃ evs n, (start cnNodes).run cnExt evs = some n ∧ (∀ i ok, .connect i ok ∈ evs ∨ .client i (.write ok) ∈ evs → ok = true) ∧
    .data "1" (cnBundle 2) ∈ outgoing n 0 ∧ receivedAt n 1 = [] ∧
    ∀ evs' m, n.run cnExt evs' = some m → (∀ ok, .client 2 (.write ok) ∉ evs') → receivedAt m 1 = [] := by
  have ht := cnStuck_test
  simp only [Option.map_eq_some_iff] at ht
  obtain ⟨n, hn, ht⟩ := ht
  have I := run_inv (cn_inv cnExt false cnNodes_reached) hn
  simp only [cnStuckTest, Bool.and_eq_true, decide_eq_true_eq] at ht
  obtain ⟨⟨⟨t1, t2⟩, t3⟩, t4⟩ := ht
  have J : Jam 2 1 [] n := by
    refine ⟨?_, ?_, ?_⟩
    · split at t1
      · rename_i src dst bid bytes rx hrx
        exact ⟨src, dst, bid, bytes, rx, hrx, by simpa using t1⟩
      · cases t1
    · split at t2
      · rename_i s hs
        simp only [decide_eq_true_eq] at t2
        exact ⟨s, hs, t2.1, t2.2.1, 0, t2.2.2⟩
      · cases t2
    · split at t3
      · rename_i s hs
        simp only [decide_eq_true_eq] at t3
        obtain ⟨a1, a2, a3, a4, a5, a6, a7⟩ := t3
        exact ⟨s, hs, a1, a2, a3, ⟨0, a4⟩, 0, 0, _, _, a5, a6, by simp [Ecla.State.got, a7]⟩
      · cases t3
  refine ⟨cnStuck, n, hn, ?_, t4, J.received, fun evs' m hm he => (J.run I hm he).received⟩
  intro i ok hm
  cases ok with
  | true => rfl
  | false =>
    exfalso
    have : (cnStuck.all fun e => match e with | .connect _ ok => ok | .client _ (.write ok) => ok | _ => true) = true := by decide +kernel
    rw [List.all_eq_true] at this
    rcases hm with hm | hm
    · exact absurd (this _ hm) (by simp)
    · exact absurd (this _ hm) (by simp)

/-! ## Losses -/

/-- Node 1 is connected but its client has not yet queued its registration when a bundle for it arrives. -/
def cnEarly : List ConnectN.Ev :=
  cnUp 0 ++ [.route, .route] ++ [.connect 1 true, .node 1 (.proceed 0), .node 1 (.proceed 0)] ++ cnSend 0 "1" 5 ++ [.pump 1, .pump 1, .client 1 .begin] ++
    [.client 1 (.write true), .up 1, .client 1 (.write true), .up 1, .client 1 (.write true), .up 1, .node 1 (.write 0), .node 1 (.write 0), .down 1 [], .down 1 [], .route, .route] ++
    cnUp 2 ++ [.route, .route] ++ cnGive 0 ++ cnGive 0 ++ cnGive 1 ++ cnGive 2 ++ cnGive 2

instance (s : Site) : Decidable (Spec.ConnectNSpec.Quiet s) := inferInstanceAs (Decidable (_ ∧ _ ∧ _))

/-- Everybody is registered, nothing is on its way, and everything has been read. -/
def cnRests (n : Net) : Bool :=
  decide (n.rx = []) && n.sites.all fun s => decide (Spec.ConnectNSpec.Quiet s) && decide (s.link = some 0) &&
    (match s.node.conns[0]?, AList.get? s.node.modules (.number 0) with
     | some k, some m => decide (k.addr = .number 0 ∧ k.phase = .serving ∧ m.active = true ∧ m.name = bytesOf "ConnectN" ∧ s.down = k.written.length)
     | _, _ => false)

theorem cnRests_spec {n : Net} (h : cnRests n = true) : n.rx = [] ∧ (∀ s ∈ n.sites, Registered s ∧ Spec.ConnectNSpec.Quiet s) ∧ ∀ i, Read n i := by
  simp only [cnRests, Bool.and_eq_true, decide_eq_true_eq, List.all_eq_true] at h
  obtain ⟨h0, h⟩ := h
  have key : ∀ s ∈ n.sites, s.link = some 0 ∧ Spec.ConnectNSpec.Quiet s ∧ ∃ k m, s.node.conns[0]? = some k ∧ AList.get? s.node.modules (.number 0) = some m ∧
      (k.addr = .number 0 ∧ k.phase = .serving ∧ m.active = true ∧ m.name = bytesOf "ConnectN" ∧ s.down = k.written.length) := by
    intro s hs
    obtain ⟨⟨h1, h2⟩, h3⟩ := h s hs
    split at h3
    · rename_i k m hk hm
      exact ⟨h2, h1, k, m, hk, hm, by simpa using h3⟩
    · cases h3
  refine ⟨h0, fun s hs => ?_, fun i s hi => ?_⟩
  · obtain ⟨h1, h2, k, m, h3, h4, h5, h6, h7, h8, -⟩ := key s hs
    exact ⟨⟨0, .number 0, h1, by simp [Spec.Ecla.Connected, h3, h5, h6], m, h4, h7, h8⟩, h2⟩
  · obtain ⟨h1, h2, k, m, h3, -, -, -, -, -, h9⟩ := key s (List.mem_of_getElem? hi)
    simp [outgoing, hi, h1, Spec.Ecla.written, h3, h9]

theorem cnEarly_test : (((start cnNodes).run cnExt cnEarly).map fun n => cnRests n && decide (.data "1" (cnBundle 5) ∈ outgoing n 0) && decide (receivedAt n 1 = []) &&
    match n.sites[0]? with | some s => decide (s.node.results = [(bytesOf "ConnectN", some true)]) | none => false) = some true := by decide +kernel

/-- C125 fails for a bundle that reaches the client of a node before the client has queued its registration: everybody is registered in the end,
nothing is on its way any more, no write has failed, the sender was told that the bundle was sent, and it was not received. -/
theorem C125_early_violated : ∃ evs n, (start cnNodes).run cnExt evs = some n ∧ (∀ i ok, .connect i ok ∈ evs ∨ .client i (.write ok) ∈ evs → ok = true) ∧
    n.rx = [] ∧ (∀ s ∈ n.sites, Registered s ∧ Spec.ConnectNSpec.Quiet s) ∧ (∀ i, Read n i) ∧
    .data "1" (cnBundle 5) ∈ outgoing n 0 ∧ (n.sites[0]?.map fun s => s.node.results) = some [(bytesOf "ConnectN", some true)] ∧ receivedAt n 1 = [] := by
  have ht := cnEarly_test
  simp only [Option.map_eq_some_iff] at ht
  obtain ⟨n, hn, ht⟩ := ht
  simp only [Bool.and_eq_true, decide_eq_true_eq] at ht
  obtain ⟨⟨⟨t1, t2⟩, t3⟩, t4⟩ := ht
  obtain ⟨r1, r2, r3⟩ := cnRests_spec t1
  refine ⟨cnEarly, n, hn, ?_, r1, r2, r3, t2, ?_, t3⟩
  · intro i ok hm
    cases ok with
    | true => rfl
    | false => exfalso; revert hm; simp [cnEarly, cnUp, cnSend, cnGive]
  · split at t4
    · rename_i s hs
      simp only [decide_eq_true_eq] at t4
      simp [hs, t4]
    · cases t4

/-- While the channel to client 2 is full, node 0 announces itself once more. -/
def cnDropped : List ConnectN.Ev :=
  cnRun ++ (List.replicate 100 (cnSend 0 "2" 1)).flatten ++ [.node 0 .announce, .node 0 (.write 0), .down 0 [], .route] ++ (List.replicate 100 (cnGive 2)).flatten ++ cnGive 1

set_option maxRecDepth 100000 in
theorem cnDropped_test : (((start cnNodes).run cnExt cnDropped).map fun n => cnRests n && decide (beacons (outgoing n 0) = 2) && decide (announced n 0 1 = 2) && decide (announced n 0 2 = 1)) = some true := by
  decide +kernel

/-- C125 fails for announcements if the channel to a client is full: node 0 has announced itself twice, all is at rest, and node 2 has been told once. -/
theorem C125_dropped_violated : ∃ evs n, (start cnNodes).run cnExt evs = some n ∧ n.rx = [] ∧ (∀ s ∈ n.sites, Registered s ∧ Spec.ConnectNSpec.Quiet s) ∧ (∀ i, Read n i) ∧
    beacons (outgoing n 0) = 2 ∧ announced n 0 1 = 2 ∧ announced n 0 2 = 1 := by
  have ht := cnDropped_test
  simp only [Option.map_eq_some_iff] at ht
  obtain ⟨n, hn, ht⟩ := ht
  simp only [Bool.and_eq_true, decide_eq_true_eq] at ht
  obtain ⟨⟨⟨t1, t2⟩, t3⟩, t4⟩ := ht
  obtain ⟨r1, r2, r3⟩ := cnRests_spec t1
  exact ⟨cnDropped, n, hn, r1, r2, r3, t2, t3, t4⟩

/-! ## A case for the theorems above -/

def cnRoomy (n : Net) : Bool := n.sites.all fun s => decide (s.inbox.length < 100)

def cnUncrowded (x : Ext) (n : Net) : List ConnectN.Ev → Bool
  | [] => true
  | e :: es => (decide (e ≠ .route) || cnRoomy n) && match n.step x e with | some m => cnUncrowded x m es | none => true

theorem cnUncrowded_spec (x : Ext) (evs : List ConnectN.Ev) (n : Net) (h : cnUncrowded x n evs = true) : Uncrowded x n evs := by
  induction evs generalizing n with
  | nil => trivial
  | cons e evs ih =>
    simp only [cnUncrowded, Bool.and_eq_true, Bool.or_eq_true, decide_eq_true_eq] at h
    refine ⟨fun he => ?_, fun m hm => ?_⟩
    · have := h.1.resolve_left (fun hh => hh he)
      simp only [cnRoomy, List.all_eq_true, decide_eq_true_eq] at this
      exact this
    · have := h.2
      rw [hm] at this
      exact ih m this

/-- The packets are given to client `j` after it has registered. -/
def cnOrdered (j : Nat) : List ConnectN.Ev → Bool
  | [] => true
  | e :: es => decide (e = .client j .begin) || (decide (e ≠ .pump j) && cnOrdered j es)

theorem cnOrdered_spec {j : Nat} {evs : List ConnectN.Ev} (h : cnOrdered j evs = true) (pre post : List ConnectN.Ev) (he : evs = pre ++ .pump j :: post) :
    .client j .begin ∈ pre := by
  induction evs generalizing pre with
  | nil => simp at he
  | cons e evs ih =>
    simp only [cnOrdered, Bool.or_eq_true, Bool.and_eq_true, decide_eq_true_eq] at h
    cases pre with
    | nil =>
      simp only [List.nil_append, List.cons.injEq] at he
      rcases h with h | h
      · rw [h] at he; exact absurd he.1 (by simp)
      · exact absurd he.1 h.1
    | cons a pre =>
      simp only [List.cons_append, List.cons.injEq] at he
      rcases h with h | h
      · rw [← he.1, h]; simp
      · exact List.mem_cons_of_mem _ (ih h.2 pre he.2)

theorem cnAll_test : (((start cnNodes).run cnExt cnAll).map fun n => cnRests n && cnUncrowded cnExt (start cnNodes) cnAll && cnOrdered 1 cnAll && decide (receivedAt n 1 = [cnBundle 5, cnBundle 6]) &&
    decide (beacons (outgoing n 0) = 1)) = some true := by decide +kernel

/-- The hypotheses of the theorems above are met by a run in which three nodes exchange bundles. -/
example : ∃ n, (start cnNodes).run cnExt cnAll = some n ∧ Uncrowded cnExt (start cnNodes) cnAll ∧ (∀ ok, .client 1 (.write ok) ∈ cnAll → ok = true) ∧
    (∀ pre post, cnAll = pre ++ .pump 1 :: post → .client 1 .begin ∈ pre) ∧ n.rx = [] ∧ (∀ s ∈ n.sites, Registered s ∧ Spec.ConnectNSpec.Quiet s) ∧ (∀ i, Read n i) ∧
    receivedAt n 1 = [cnBundle 5, cnBundle 6] ∧ beacons (outgoing n 0) = 1 := by
  have ht := cnAll_test
  simp only [Option.map_eq_some_iff] at ht
  obtain ⟨n, hn, ht⟩ := ht
  simp only [Bool.and_eq_true, decide_eq_true_eq] at ht
  obtain ⟨⟨⟨⟨t1, t2⟩, t3⟩, t4⟩, t5⟩ := ht
  obtain ⟨r1, r2, r3⟩ := cnRests_spec t1
  refine ⟨n, hn, cnUncrowded_spec _ _ _ t2, ?_, fun pre post he => cnOrdered_spec t3 pre post he, r1, r2, r3, t4, t5⟩
  intro ok hm
  cases ok with
  | true => rfl
  | false => exfalso; revert hm; simp [cnAll, cnRun, cnUp, cnSend, cnGive]

end Dtn.Props
