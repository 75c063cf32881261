import Verif.Lemmas.SprayExact
import Verif.Props.Spray
/-!
Property C147: spray and wait routing spends its copies and delivers directly when it waits.
-/

namespace Dtn.Props
open Spec Routing

/-- C147: over any history in which bundle `bid` was announced once, none of its transfers was reported as failed and it was not delivered directly,
and in which the router is still running, a request for `bid` is answered, and exactly so. Take the neighbours that can be sent to, are other nodes and
were not given the bundle yet, in the order in which they are listed. The first of them get a copy, as many as there are copies left. If none of the others
is the destination, these relays are the answer. If one of the others is the destination, the answer is one task to it, with the request to delete
the bundle. Missing: failures and repeated announcements, see C35 and C36; then `C147_relays_dropped_violated` and `C147_destination_as_relay_violated`. -/
theorem C147_spends_copies_partial (l : Nat) (localNode bid d : String) (cmds : List Cmd) (ps : List Peer) (r : List Cla) (bp : Pack)
    (hone : cmds.countP (isArrival bid) = 1) (hnf : cmds.all fun c => !isFailure bid c)
    (hrun : ((sprayStart l localNode).run spray cmds).core.isSome)
    (hnd : ∀ x ∈ ((sprayStart l localNode).run spray cmds).log, isDirect bid x = false)
    (hbp : bp.id = bid) (hd : bp.destination.node = some d)
    (hps : ∀ p ∈ ps, ∃ n, p.eid.nodeId = some n) (hdis : (ps.map fun p => p.eid.nodeId).Nodup) :
    let log := ((sprayStart l localNode).run spray cmds).log
    let relayed := (unserved localNode bid log r ps).take (copiesLeft l localNode bid log)
    let others := (unserved localNode bid log r ps).drop (copiesLeft l localNode bid log)
    ∃ a, ((sprayStart l localNode).run spray (cmds ++ [.senderForBundle ps r bp])).log = log ++ [(.senderForBundle ps r bp, some a)] ∧
      ((∀ p ∈ others, p.nodeName ≠ d) → a.delete = false ∧ List.Forall₂ (SendsTo r) relayed a.clas) ∧
      ((∃ p ∈ others, p.nodeName = d) → a.delete = true ∧ ∃ p ∈ others, p.nodeName = d ∧ ∃ s, SendsTo r p s ∧ a.clas = [s]) := by
  intro log relayed others
  obtain ⟨c, hc⟩ := Option.isSome_iff_exists.mp hrun
  have hinv := Spray.Exact.run l localNode bid cmds (by omega) hnf hnd c hc
  obtain ⟨m, rs, g1, g2, g3, g4⟩ := hinv.present hone
  obtain ⟨m', a', h1, h2, h3⟩ := Spray.loop_exact c.localNode bp r hd ps m { clas := [], delete := false } hps hdis
  have hcand : Spray.cand c.localNode r m.nodes ps = unserved localNode bid log r ps := by
    rw [hinv.loc, g4]
    exact Spray.cand_unserved localNode bid log r ps rs g3 hps
  have hk : m.copies - 1 = copiesLeft l localNode bid log := by
    unfold copiesLeft
    change m.copies + (relays bid log).length = _ at g2
    omega
  rw [hcand, hk] at h2 h3
  refine ⟨a', ?_, ?_, ?_⟩
  · rw [Task.run_append]
    change (((sprayStart l localNode).run spray cmds).step spray _).log = _
    unfold Task.step
    rw [hc]
    simp only [spray, Spray.request]
    rw [hbp, g1]
    simp only [h1]
    rfl
  · intro h
    have h4 := h2 h
    rw [h4]
    refine ⟨rfl, ?_⟩
    simp only [List.nil_append]
    have hu : ∀ p ∈ relayed, Usable r p := by
      intro p hp
      have := List.mem_of_mem_take hp
      unfold unserved at this
      classical
      exact (decide_eq_true_eq.mp (List.mem_filter.mp this).2).1
    change List.Forall₂ (SendsTo r) relayed (relayed.filterMap _)
    clear_value relayed
    induction relayed with
    | nil => exact .nil
    | cons p q ih =>
      obtain ⟨s, hs⟩ := Option.isSome_iff_exists.mp ((Peer.firstCla_isSome_iff p r).mpr (hu p List.mem_cons_self))
      rw [List.filterMap_cons, hs]
      exact .cons (Peer.firstCla_sendsTo hs) (ih fun x hx => hu x (List.mem_cons_of_mem _ hx))
  · intro h
    obtain ⟨p, hp, e, s, hs, rfl⟩ := h3 h
    exact ⟨rfl, p, hp, e, s, Peer.firstCla_sendsTo hs, rfl⟩

/-- Three copies: after one relay, one is left, and `n2` gets it. -/
example : let cmds := [exSprayNew, exSprayAsk ["n1"] "d"]
    let t := (sprayStart 3 "dtn://me/").run spray cmds
    let ps := ["n1", "me", "n2", "n3"].map exSprayPeer
    cmds.countP (isArrival "dtn://me/x-5-0") = 1 ∧ (cmds.all fun c => !isFailure "dtn://me/x-5-0" c) ∧ t.core.isSome ∧
    (∀ x ∈ t.log, isDirect "dtn://me/x-5-0" x = false) ∧ (exSprayPack "d").destination.node = some "d" ∧
    copiesLeft 3 "dtn://me/" "dtn://me/x-5-0" t.log = 1 ∧
    (ps.all fun p => p.eid.nodeId.isSome) ∧ (ps.map fun p => p.eid.nodeId).Nodup ∧
    exSprayLog ((sprayStart 3 "dtn://me/").run spray (cmds ++ [exSprayAsk ["n1", "me", "n2", "n3"] "d"])) = [(["n1"], false), (["n2"], false)] := by
  decide

/-- C147 is false where the destination is listed among the neighbours that get a copy: it is treated as a relay, and the bundle is kept. -/
theorem C147_destination_as_relay_violated :
    exSprayLog ((sprayStart 3 "dtn://me/").run spray [exSprayNew, exSprayAsk ["d"] "d", exSprayAsk ["d"] "d"]) = [(["d"], false), ([], false)] := by
  decide

/-- C147 is false where the destination is listed after the neighbours that get the last copies: these copies are taken off the count and the neighbours are
recorded as served, but the answer has the direct delivery only. If it fails, the neighbour that was never sent the bundle is still left out: here
`n1` is not selected, although a copy is there to be spent, which goes to `n2`. -/
theorem C147_relays_dropped_violated :
    exSprayLog ((sprayStart 2 "dtn://me/").run spray [exSprayNew, exSprayAsk ["n1", "d"] "d", .notify (.sendingFailed "dtn://me/x-5-0" "d"),
      exSprayAsk ["n1", "n2"] "d"]) = [(["d"], true), (["n2"], false)] := by
  decide

end Dtn.Props
