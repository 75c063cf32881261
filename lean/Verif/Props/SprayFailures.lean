import Verif.Lemmas.SprayFailures
import Verif.Props.Spray
/-!
Properties C35 and C36: spray and wait routing over histories with failed transfers.
-/

namespace Dtn.Props
open Spec Routing

/-- C35 over any history at all, with failed transfers, repeated announcements, direct deliveries and a router that stops: bundle `bid` is relayed at most
as often as its announcements and failures allow. Each announcement is good for one relay less than the budget, each failure reported for one more.
Missing: the budget holds per announcement, see `C35_second_arrival_refills_budget_violated`. -/
theorem C35_any_history_partial (l : Nat) (localNode bid : String) (cmds : List Cmd) :
    (relays bid ((sprayStart l localNode).run spray cmds).log).length ≤
      cmds.countP (isArrival bid) * (copyBudget l localNode bid - 1) + cmds.countP (isFailure bid) :=
  (Spray.Spent.run l localNode bid cmds).2

/-- The bound is reached: two announcements of a bundle with three copies and one failure, and five relays. -/
example : let cmds := [exSprayNew, exSprayAsk ["n1", "n2", "n3"] "d", .notify (.sendingFailed "dtn://me/x-5-0" "n1"), exSprayAsk ["n3", "n4"] "d",
      exSprayNew, exSprayAsk ["n1", "n2", "n3"] "d"]
    (relays "dtn://me/x-5-0" ((sprayStart 3 "dtn://me/").run spray cmds).log).length = 5 ∧
    cmds.countP (isArrival "dtn://me/x-5-0") * (copyBudget 3 "dtn://me/" "dtn://me/x-5-0" - 1) + cmds.countP (isFailure "dtn://me/x-5-0") = 5 := by
  decide

/-- C36 over any history in which bundle `bid` was announced once and not delivered directly, and in which the router is still running: each failure reported
since then gives one copy back. Take neighbours none of which was given the bundle yet. Those that can be sent to and are other nodes get a copy,
in the order in which they are listed, as many as there are copies left: the budget less one, plus the failures, less the relays.
Missing: neighbours that were given the bundle, see `C36_failure_keeps_failed_and_drops_others_violated`, and direct delivery, see
`C36_failed_direct_delivery_adds_copy_violated` and C147. -/
theorem C36_copies_return_partial (l : Nat) (localNode bid d : String) (cmds : List Cmd) (ps : List Peer) (r : List Cla) (bp : Pack)
    (hone : cmds.countP (isArrival bid) = 1)
    (hrun : ((sprayStart l localNode).run spray cmds).core.isSome)
    (hnd : ∀ x ∈ ((sprayStart l localNode).run spray cmds).log, isDirect bid x = false)
    (hbp : bp.id = bid) (hd : bp.destination.node = some d)
    (hps : ∀ p ∈ ps, ∃ n, p.eid.nodeId = some n) (hdis : (ps.map fun p => p.eid.nodeId).Nodup)
    (hnew : ∀ p ∈ ps, p.eid.nodeId ∉ relays bid ((sprayStart l localNode).run spray cmds).log ∧ p.nodeName ≠ d) :
    let log := ((sprayStart l localNode).run spray cmds).log
    ∃ a, ((sprayStart l localNode).run spray (cmds ++ [.senderForBundle ps r bp])).log = log ++ [(.senderForBundle ps r bp, some a)] ∧
      a.delete = false ∧
      List.Forall₂ (SendsTo r)
        ((unserved localNode bid log r ps).take (copyBudget l localNode bid + failures bid cmds - 1 - (relays bid log).length)) a.clas := by
  intro log
  obtain ⟨c, hc⟩ := Option.isSome_iff_exists.mp hrun
  have hinv := Spray.Loose.run l localNode bid cmds (by omega) hnd c hc
  obtain ⟨m, rs, g1, g2, g3, g4⟩ := hinv.present hone
  obtain ⟨m', a', h1, h2, -⟩ := Spray.loop_exact c.localNode bp r hd ps m { clas := [], delete := false } hps hdis
  have hcand : Spray.cand c.localNode r m.nodes ps = unserved localNode bid log r ps := by
    rw [hinv.loc, ← Spray.cand_unserved localNode bid log r ps rs g3 hps]
    unfold Spray.cand
    apply List.filter_congr
    intro p hp
    obtain ⟨n, hn⟩ := hps p hp
    have hrel := (hnew p hp).1
    rw [hn] at hrel ⊢
    have hno : n.print ∉ rs.map NodeId.print := by
      intro h
      obtain ⟨q, hq, e⟩ := List.mem_map.mp h
      rw [g3] at hrel
      exact hrel (List.mem_map.mpr ⟨q, hq, by rw [Spray.print_inj e]⟩)
    have hno' : n.print ∉ m.nodes := fun h => hno (g4 _ h)
    simp only [hno, hno']
  have hk : m.copies - 1 = copyBudget l localNode bid + failures bid cmds - 1 - (relays bid log).length := by
    change m.copies + (relays bid log).length = _ at g2
    omega
  have hmem : ∀ p ∈ unserved localNode bid log r ps, p ∈ ps := by
    intro p hp
    unfold unserved at hp
    exact (List.mem_filter.mp hp).1
  rw [hcand, hk] at h2
  have h4 := h2 fun p hp => (hnew p (hmem p (List.mem_of_mem_drop hp))).2
  refine ⟨a', ?_, by rw [h4], ?_⟩
  · rw [Task.run_append]
    change (((sprayStart l localNode).run spray cmds).step spray _).log = _
    unfold Task.step
    rw [hc]
    simp only [spray, Spray.request]
    rw [hbp, g1]
    simp only [h1]
    rfl
  · rw [h4]
    simp only [List.nil_append]
    have hu : ∀ p ∈ (unserved localNode bid log r ps).take (copyBudget l localNode bid + failures bid cmds - 1 - (relays bid log).length), Usable r p := by
      intro p hp
      have := List.mem_of_mem_take hp
      unfold unserved at this
      classical
      exact (decide_eq_true_eq.mp (List.mem_filter.mp this).2).1
    revert hu
    generalize (unserved localNode bid log r ps).take _ = q
    intro hu
    induction q with
    | nil => exact .nil
    | cons p q ih =>
      obtain ⟨s, hs⟩ := Option.isSome_iff_exists.mp ((Peer.firstCla_isSome_iff p r).mpr (hu p List.mem_cons_self))
      rw [List.filterMap_cons, hs]
      exact .cons (Peer.firstCla_sendsTo hs) (ih fun x hx => hu x (List.mem_cons_of_mem _ hx))

/-- Two copies, one relay to `n1`, which fails: the copy is back and goes to `n2`; `n3` gets none. -/
example : let cmds := [exSprayNew, exSprayAsk ["n1"] "d", .notify (.sendingFailed "dtn://me/x-5-0" "n1")]
    let t := (sprayStart 2 "dtn://me/").run spray cmds
    let ps := ["me", "n2", "n3"].map exSprayPeer
    cmds.countP (isArrival "dtn://me/x-5-0") = 1 ∧ t.core.isSome ∧
    (∀ x ∈ t.log, isDirect "dtn://me/x-5-0" x = false) ∧ (exSprayPack "d").destination.node = some "d" ∧
    copyBudget 2 "dtn://me/" "dtn://me/x-5-0" + failures "dtn://me/x-5-0" cmds - 1 - (relays "dtn://me/x-5-0" t.log).length = 1 ∧
    (ps.all fun p => p.eid.nodeId.isSome) ∧ (ps.map fun p => p.eid.nodeId).Nodup ∧
    (∀ p ∈ ps, p.eid.nodeId ∉ relays "dtn://me/x-5-0" t.log ∧ p.nodeName ≠ "d") ∧
    exSprayLog ((sprayStart 2 "dtn://me/").run spray (cmds ++ [exSprayAsk ["me", "n2", "n3"] "d"])) = [(["n1"], false), (["n2"], false)] := by
  decide

end Dtn.Props
