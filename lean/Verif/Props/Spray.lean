import Verif.Lemmas.Spray
/-!
Properties C35 and C36: spray and wait routing.
-/

namespace Dtn.Props
open Spec Routing

/-- A peer offering MTCP, for the examples. -/
def exSprayPeer (node : String) : Peer :=
  Peer.new 100 (.dtn node "") (.ipv4 "10.0.0.1") .dynamic none [("mtcp", none)]

/-- The bundle pack of the examples, to node `dst`; its id is that of a bundle of node `me`. -/
def exSprayPack (dst : String) : Pack :=
  { source := .dtn "me" "x", destination := .dtn dst "y", receivedTime := 0, creationTime := 5, lifetime := 60000,
    id := "dtn://me/x-5-0", administrative := false, size := 10, constraints := {} }

/-- Request for the bundle of the examples with the given neighbours. -/
def exSprayAsk (nodes : List String) (dst : String) : Cmd :=
  .senderForBundle (nodes.map exSprayPeer) [{ name := "mtcp", port := 16162 }] (exSprayPack dst)

/-- The arrival of the bundle of the examples. -/
def exSprayNew : Cmd := .notify (.incomingBundleWithoutPreviousNode "dtn://me/x-5-0" "")

/-- The node names selected by each answer of a run, with the deletion request. -/
def exSprayLog (t : Routing.Task Spray) : List (List String × Bool) :=
  t.log.filterMap fun x => x.2.map fun a => (a.clas.map fun s => s.nextHop.node.getD "", a.delete)

/-! ## C35 -/

/-- C35, for bundles that arrive once: over any history of commands in which no transfer of bundle `bid` is reported as
failed and `bid` is announced to the router at most once, `bid` is relayed to pairwise different nodes and to fewer nodes
than this node's budget: the configured number for bundles created here (`bid` starts with the local node id), one for
others. So a bundle received from elsewhere is not relayed at all. Missing: `C35_second_arrival_refills_budget_violated`. -/
theorem C35_spray_budget_partial (l : Nat) (localNode bid : String) (cmds : List Cmd)
    (hone : cmds.countP (isArrival bid) ≤ 1) (hnf : cmds.all fun c => !isFailure bid c) :
    let log := ((sprayStart l localNode).run spray cmds).log
    (relays bid log).length ≤ copyBudget l localNode bid - 1 ∧ (relays bid log).Nodup :=
  (Spray.Inv.run l localNode bid cmds hone hnf).2

/-- C35 with the default number of copies. -/
theorem C35_spray_default_budget_partial (localNode bid : String) (cmds : List Cmd)
    (hone : cmds.countP (isArrival bid) ≤ 1) (hnf : cmds.all fun c => !isFailure bid c) :
    let log := ((sprayStart Spray.maxCopies localNode).run spray cmds).log
    (relays bid log).length ≤ 6 ∧ (startsWith bid localNode = false → relays bid log = []) := by
  intro log
  have h := (C35_spray_budget_partial Spray.maxCopies localNode bid cmds hone hnf).1
  unfold copyBudget at h
  refine ⟨?_, ?_⟩
  · change (relays bid log).length ≤ _ at h
    have : (if startsWith bid localNode = true then Spray.maxCopies else 1) ≤ 7 := by
      split <;> simp [Spray.maxCopies]
    omega
  · intro hs
    change (relays bid log).length ≤ _ at h
    rw [hs] at h
    simpa using h

/-- C35: an answer that asks for deletion is a direct delivery: one task, to the destination node. Every task goes to a
peer over a usable layer. Any history, with failures or not. -/
theorem C35_spray_answers (l : Nat) (localNode : String) (cmds : List Cmd) (ps : List Peer) (r : List Cla) (bp : Pack)
    (a : Answer)
    (h : (Cmd.senderForBundle ps r bp, some a) ∈ ((sprayStart l localNode).run spray cmds).log) :
    (a.delete = true → ∃ p ∈ ps, ∃ s, bp.destination.node = some p.nodeName ∧ SendsTo r p s ∧ a.clas = [s]) ∧
    (∀ s ∈ a.clas, ∃ p ∈ ps, SendsTo r p s) := by
  induction cmds using List.reverseRecOn with
  | nil => simp [Task.run, sprayStart] at h
  | append_singleton cmds cmd ih =>
    rw [Task.run_append] at h
    change _ ∈ (((sprayStart l localNode).run spray cmds).step spray cmd).log at h
    generalize (sprayStart l localNode).run spray cmds = t at *
    have hlog : ∀ x, (t.step spray cmd).log = t.log ++ [(cmd, x)] →
        (Cmd.senderForBundle ps r bp, some a) ∈ t.log ∨ (cmd = Cmd.senderForBundle ps r bp ∧ x = some a) := by
      intro x hx
      rw [hx] at h
      simp only [List.mem_append, List.mem_singleton, Prod.mk.injEq] at h
      rcases h with h | ⟨h1, h2⟩
      · exact Or.inl h
      · exact Or.inr ⟨h1.symm, h2.symm⟩
    obtain ⟨x, hx⟩ := Task.log_step spray t cmd
    rcases hlog x hx with h | ⟨rfl, rfl⟩
    · exact ih h
    · unfold Task.step at hx
      cases hcore : t.core with
      | none => rw [hcore] at hx; have := List.append_inj_right' hx rfl; simp at this
      | some c =>
        rw [hcore] at hx
        simp only [spray] at hx
        cases hreq : c.request ps r bp with
        | none => rw [hreq] at hx; have := List.append_inj_right' hx rfl; simp at this
        | some y =>
          obtain ⟨c', a'⟩ := y
          rw [hreq] at hx
          have := List.append_inj_right' hx rfl
          simp only [List.cons.injEq, Prod.mk.injEq, Option.some.injEq, true_and, and_true] at this
          subst this
          unfold Spray.request at hreq
          cases hg : AList.get? c.history bp.id with
          | none =>
            rw [hg] at hreq
            simp only [Option.some.injEq, Prod.mk.injEq] at hreq
            rw [← hreq.2]; simp
          | some m =>
            rw [hg] at hreq
            simp only at hreq
            cases hl : Spray.loop c.localNode bp r ps m { clas := [], delete := false } with
            | none => rw [hl] at hreq; simp at hreq
            | some z =>
              obtain ⟨m', a''⟩ := z
              rw [hl] at hreq
              simp only [Option.some.injEq, Prod.mk.injEq] at hreq
              obtain ⟨_, rfl⟩ := hreq
              exact Spray.loop_direct c.localNode bp r ps ps m _ m' _ (fun p hp => hp) (by simp) (by simp)
                (by simp) hl

/-- Three copies: two relays, then only the destination. -/
example : let cmds := [exSprayNew, exSprayAsk ["n1"] "d", exSprayAsk ["n1", "n2", "n3"] "d", exSprayAsk ["n4", "d"] "d"]
    cmds.countP (isArrival "dtn://me/x-5-0") = 1 ∧ (cmds.all fun c => !isFailure "dtn://me/x-5-0" c) ∧
    exSprayLog ((sprayStart 3 "dtn://me/").run spray cmds) = [(["n1"], false), (["n2"], false), (["d"], true)] := by
  decide

/-- On another node the same bundle is only delivered directly. -/
example : let cmds := [exSprayNew, exSprayAsk ["n1"] "d", exSprayAsk ["n4", "d"] "d"]
    startsWith "dtn://me/x-5-0" "dtn://other/" = false ∧
    exSprayLog ((sprayStart 7 "dtn://other/").run spray cmds) = [([], false), (["d"], true)] := by decide

/-- C35 is false without the restriction: sending the same bundle to the router again refills the budget and forgets
who has it. Here the budget is two copies, one relay, yet the bundle goes to two relays, twice to `n1`. -/
theorem C35_second_arrival_refills_budget_violated :
    let cmds := [exSprayNew, exSprayAsk ["n1", "n2"] "d", exSprayNew, exSprayAsk ["n1", "n2"] "d", exSprayNew,
      exSprayAsk ["n2", "n1"] "d"]
    (cmds.all fun c => !isFailure "dtn://me/x-5-0" c) ∧ copyBudget 2 "dtn://me/" "dtn://me/x-5-0" = 2 ∧
    relays "dtn://me/x-5-0" ((sprayStart 2 "dtn://me/").run spray cmds).log =
      [some (.dtn "n1"), some (.dtn "n1"), some (.dtn "n2")] := by decide

/-- C35 is false for `ipn` nodes: the id of a bundle created on node `ipn:5.0` by its service 1 does not start with the
node id, so the bundle gets no copies to relay, whatever the history. -/
theorem C35_ipn_bundles_never_relayed_violated (l : Nat) (rest : String) :
    copyBudget l (NodeId.ipn 5).print ("ipn:5.1" ++ rest) = 1 := by
  unfold copyBudget startsWith
  have : ((NodeId.ipn 5).print.toList.isPrefixOf ("ipn:5.1" ++ rest).toList) = false := by
    rw [String.toList_append]
    have h1 : (NodeId.ipn 5).print.toList = ['i', 'p', 'n', ':', '5', '.', '0'] := by decide
    have h2 : "ipn:5.1".toList = ['i', 'p', 'n', ':', '5', '.', '1'] := by decide
    rw [h1, h2]
    simp [List.isPrefixOf]
  rw [this]
  rfl

/-! ## C36 -/

/-- C36 (copy counter): a failure report for a known bundle raises its copy counter by exactly one, which is what the
relay transfer had lowered it by; other bundles are unaffected. Missing: the record of served peers, see below. -/
theorem C36_failure_returns_copy_partial (c : Spray) (bid node : String) (m : SawData)
    (h : AList.get? c.history bid = some m) :
    (∃ m', AList.get? (c.sendingFailed bid node).history bid = some m' ∧ m'.copies = m.copies + 1) ∧
    ∀ b, b ≠ bid → AList.get? (c.sendingFailed bid node).history b = AList.get? c.history b := by
  unfold Spray.sendingFailed
  rw [h]
  exact ⟨⟨_, AList.get?_insert_self _ _ _, rfl⟩, fun b hb => AList.get?_insert_of_ne _ _ hb⟩

/-- C36 is false: in every state, after a failure report for node `n`, the node stays recorded as served, so it is not
selected again, and every served node whose id does not contain the characters of `n` is forgotten. -/
theorem C36_failure_keeps_failed_and_drops_others_violated (c : Spray) (bid n : String) (m : SawData)
    (h : AList.get? c.history bid = some m) (hn : (NodeId.dtn n).print ∈ m.nodes) :
    ∃ m', AList.get? (c.sendingFailed bid n).history bid = some m' ∧
      (NodeId.dtn n).print ∈ m'.nodes ∧
      ∀ o, isInfix n.toList o.toList = false → o ∉ m'.nodes := by
  unfold Spray.sendingFailed
  rw [h]
  refine ⟨_, AList.get?_insert_self _ _ _, ?_, ?_⟩
  · rw [List.mem_filter]
    refine ⟨hn, ?_⟩
    have : (NodeId.dtn n).print.toList = "dtn://".toList ++ n.toList ++ "/".toList := by
      simp [NodeId.print, String.toList_append]
    rw [this]
    exact Spray.isInfix_append _ _ _
  · intro o ho hm
    rw [List.mem_filter] at hm
    rw [ho] at hm
    exact absurd hm.2 (by simp)

/-- C36 in a run: the transfer to `n1` fails. Asked again, the router selects `n2`, which has the bundle, and not `n1`. -/
theorem C36_wrong_peer_retried_violated :
    exSprayLog ((sprayStart 3 "dtn://me/").run spray
      [exSprayNew, exSprayAsk ["n1", "n2"] "d", .notify (.sendingFailed "dtn://me/x-5-0" "n1"),
       exSprayAsk ["n1", "n2"] "d"]) = [(["n1", "n2"], false), (["n2"], false)] := by decide

/-- C36 in a run: direct delivery takes no copy, but its failure adds one. A foreign bundle whose direct delivery failed
is then relayed to `n1`. -/
theorem C36_failed_direct_delivery_adds_copy_violated :
    let cmds := [exSprayNew, exSprayAsk ["d"] "d", .notify (.sendingFailed "dtn://me/x-5-0" "d"), exSprayAsk ["n1"] "d"]
    copyBudget 7 "dtn://other/" "dtn://me/x-5-0" = 1 ∧
    exSprayLog ((sprayStart 7 "dtn://other/").run spray cmds) = [(["d"], true), (["n1"], false)] := by decide

example : let t := (sprayStart 3 "dtn://me/").run spray [exSprayNew, exSprayAsk ["n1", "n2"] "d"]
    (t.core.bind fun c => AList.get? c.history "dtn://me/x-5-0") =
      some { copies := 1, nodes := ["dtn://n1/", "dtn://n2/"] } ∧
    isInfix "n1".toList "dtn://n2/".toList = false := by decide

end Dtn.Props
