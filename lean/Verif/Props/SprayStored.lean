import Verif.Lemmas.SprayStored
import Verif.Lemmas.Spreads
import Verif.Lemmas.SledExample
import Verif.Props.SledCounting
import Verif.Props.SprayNode
/-! Bundles that a node with spray and wait routing never sends: its own status reports (C147), and what it has stored before a
restart (C129). -/

namespace Dtn.Props
open Proc Routing Spec

/-- A bundle that is neither received nor submitted is not handed to anybody. -/
theorem untold_stays {cfg : Config} {clock : Nat} {s : Sys} {sessions : List (List Cmd)} {l : Nat} {localNode bid : String}
    (run : EitherStore cfg clock s)
    (router : RoutedBy (fun cmds => ((sprayStart l localNode).run spray cmds).log) sessions s.node.events)
    (own : ∀ e ∈ s.node.events, isAcceptedId bid e = false ∧ isSentId bid e = false) :
    ∀ t, .sending t ∈ s.node.events → t.stored.id ≠ bid := by
  have h0 : s.node.events.countP (isAcceptedId bid) = 0 ∧ s.node.events.countP (isSentId bid) = 0 := by
    refine ⟨List.countP_eq_zero.mpr fun e he => ?_, List.countP_eq_zero.mpr fun e he => ?_⟩ <;> simp [own e he]
  have h1 : s.node.events.countP (isAnnounced bid) = 0 := by
    rcases run with run | run
    · have := announced_le run bid; omega
    · have := OnSled.announced_later (.refl _) run bid
      rw [show newEvents (Node.start cfg clock) s.node = s.node.events from rfl] at this
      omega
  intro t ht hid
  obtain ⟨bp, a, k1, k2, k3⟩ := (either_good run).1.named ht
  rw [unannounced router h1 k1 (k2.trans hid)] at k3
  cases k3

/-- C147 is false for the status reports that a node makes: with spray and wait routing, a status report is never handed to a convergence
layer, for whatever neighbour, unless a bundle with its id is received or submitted. The router names neighbours only for bundles it was
told of, and the node does not tell it of its own reports. -/
theorem C147_reports_stay_violated {cfg : Config} {clock : Nat} {s : Sys} {sessions : List (List Cmd)} {l : Nat} {localNode : String}
    {r : Report} (run : EitherStore cfg clock s)
    (router : RoutedBy (fun cmds => ((sprayStart l localNode).run spray cmds).log) sessions s.node.events)
    (_made : .report r ∈ s.node.events)
    (own : ∀ e ∈ s.node.events, isAcceptedId r.report.id e = false ∧ isSentId r.report.id e = false) :
    ∀ t, .sending t ∈ s.node.events → t.stored.id ≠ r.report.id :=
  untold_stays run router own

/-- C129 is false with spray and wait routing: a bundle that was received before a restart is never handed to a convergence layer after it,
for whatever neighbour and however often the router is asked for it, unless it is submitted again. -/
theorem C129_spray_restart_violated {cfg : Config} {clock clock' : Nat} {n : Node} {tasks : List Prog} {s : Sys}
    {sessions : List (List Cmd)} {l : Nat} {localNode : String} {b : Bundle}
    (before : OnSled.Reaches ⟨Node.start cfg clock, []⟩ ⟨n, tasks⟩) (taken : .accepted b ∈ n.events)
    (run : OnSled.Reaches ⟨OnSled.restarted n clock', []⟩ s)
    (router : RoutedBy (fun cmds => ((sprayStart l localNode).run spray cmds).log) sessions (newEvents n s.node))
    (notAgain : ∀ e ∈ newEvents n s.node, isSentId b.id e = false) :
    ∀ t, .sending t ∈ newEvents n s.node → t.stored.id ≠ b.id := by
  have before' := before.restart clock'
  have past : n.events <+: s.node.events := (OnSled.between before' run).2.1.base.past
  have h0 : (newEvents n s.node).countP (isSentId b.id) = 0 :=
    List.countP_eq_zero.mpr fun e he => by simp [notAgain e he]
  have h1 : (newEvents n s.node).countP (isAcceptedId b.id) = 0 := by
    have h := accepted_once (before'.join run) b.id
    rw [newEvents_of_prefix past, List.countP_append] at h
    have : 0 < n.events.countP (isAcceptedId b.id) := List.countP_pos_iff.mpr ⟨_, taken, by simp [isAcceptedId]⟩
    omega
  have h2 : (newEvents n s.node).countP (isAnnounced b.id) = 0 := by
    have := OnSled.announced_later before' run b.id
    rw [show newEvents (OnSled.restarted n clock') s.node = newEvents n s.node from rfl] at this
    omega
  intro t ht hid
  have h3 := OnSled.named_later before' run b.id t.to
  rw [show newEvents (OnSled.restarted n clock') s.node = newEvents n s.node from rfl] at h3
  have h4 : 0 < (newEvents n s.node).countP (isSendingTo b.id t.to) := List.countP_pos_iff.mpr ⟨_, ht, by simp [isSendingTo, hid]⟩
  have h5 : ((newEvents n s.node).map (named b.id t.to)).sum = 0 := by
    apply List.sum_eq_zero
    intro y hy
    obtain ⟨e, hm, rfl⟩ := List.mem_map.mp hy
    cases e with
    | asked bp a =>
      cases a with
      | none => rfl
      | some a =>
        simp only [named]
        split
        · rename_i hb
          rw [unannounced router h2 hm hb]; rfl
        · rfl
    | _ => rfl
  omega

/-- The commands of a router that is asked with these neighbours each time. -/
def exAsked (ps : List Peer) (events : List Event) : List Cmd :=
  events.filterMap fun e => match e with
    | .asked bp _ => some (.senderForBundle ps exRunning bp)
    | .note n => some (.notify n)
    | _ => none

/-- A bundle that asks for reports comes in, and the node makes a report for `n2`. The bundle is taken out by a user, the janitor runs, and the router is asked for the report
when `n2` is a neighbour that can be used. -/
example : ∃ s r cmds, EitherStore Ex.cfg 946684800100 s ∧
    RoutedBy (fun cmds => ((sprayStart 7 "dtn://n1/").run spray cmds).log) [cmds] s.node.events ∧ .report r ∈ s.node.events ∧
    (∀ e ∈ s.node.events, isAcceptedId r.report.id e = false ∧ isSentId r.report.id e = false) ∧
    r.report.primary.destination.node = some "n2" ∧
    ∃ bp, bp.id = r.report.id ∧ .senderForBundle [exNeighbour "n2"] exRunning bp ∈ cmds := by
  obtain ⟨s, hs, hp⟩ := exists_run (n := Node.start Ex.cfg 946684800100)
    ([.cla true, .call (.receive Ex.asking)] ++ go 60 (some { clas := [], delete := false }) ++
      [.call (.remove "b")] ++ go 20 ++ [.call .janitor] ++ go 60 (some { clas := [], delete := false }))
    (fun s => decide (((sprayStart 7 "dtn://n1/").run spray (exAsked [exNeighbour "n2"] s.node.events)).log.filterMap
        routerTalk = s.node.events.filterMap nodeTalk) &&
      Ex.hasReport (fun r => (s.node.events.all fun e => !isAcceptedId r.report.id e && !isSentId r.report.id e) &&
        decide (r.report.primary.destination.node = some "n2") &&
        (exAsked [exNeighbour "n2"] s.node.events).any fun c => match c with
          | .senderForBundle ps r' bp => decide (ps = [exNeighbour "n2"] ∧ r' = exRunning ∧ bp.id = r.report.id)
          | _ => false) s) (by decide +kernel)
  simp only [Bool.and_eq_true, decide_eq_true_eq] at hp
  obtain ⟨r, hr, h⟩ := Ex.report_of hp.2
  simp only [Bool.and_eq_true, decide_eq_true_eq] at h
  obtain ⟨⟨h1, h2⟩, h3⟩ := h
  refine ⟨s, r, exAsked [exNeighbour "n2"] s.node.events, .inl hs, by simpa [RoutedBy, TalksTo] using hp.1, hr, fun e he => ?_, h2, ?_⟩
  · simpa using List.all_eq_true.mp h1 e he
  · obtain ⟨c, hc, h⟩ := List.any_eq_true.mp h3
    split at h
    · obtain ⟨rfl, rfl, h4⟩ := of_decide_eq_true h
      exact ⟨_, h4, hc⟩
    · cases h

/-- A bundle for `n3` comes in and stays, and the node is started again. The janitor runs, and the router is asked for the bundle when
`n3` is a neighbour that can be used. -/
example : ∃ n tasks s cmds, OnSled.Reaches ⟨Node.start Ex.cfg 946684800100, []⟩ ⟨n, tasks⟩ ∧ .accepted (Ex.bundle 5 1 20) ∈ n.events ∧
    OnSled.Reaches ⟨OnSled.restarted n 946684800400, []⟩ s ∧
    RoutedBy (fun cmds => ((sprayStart 7 "dtn://n1/").run spray cmds).log) [cmds] (newEvents n s.node) ∧
    (∀ e ∈ newEvents n s.node, isSentId "b" e = false) ∧
    ∃ bp, bp.id = "b" ∧ bp.destination.node = some "n3" ∧ .senderForBundle [exNeighbour "n3"] exRunning bp ∈ cmds := by
  obtain ⟨⟨n, tasks⟩, s, h1, h2, hp⟩ := OnSled.exists_moves (n := Node.start Ex.cfg 946684800100)
    ([.cla true, .call (.receive (Ex.bundle 5 1 20))] ++ OnSled.going 60 (some { clas := [], delete := false }))
    ([.cla true, .call .janitor] ++ OnSled.going 80 (some { clas := [], delete := false }))
    (fun s => ⟨OnSled.restarted s.node 946684800400, []⟩) (fun s s' =>
      decide (((sprayStart 7 "dtn://n1/").run spray (exAsked [exNeighbour "n3"] (newEvents s.node s'.node))).log.filterMap
        routerTalk = (newEvents s.node s'.node).filterMap nodeTalk) &&
      (decide (.accepted (Ex.bundle 5 1 20) ∈ s.node.events) &&
      ((newEvents s.node s'.node).all fun e => !isSentId "b" e) &&
      (exAsked [exNeighbour "n3"] (newEvents s.node s'.node)).any fun c => match c with
        | .senderForBundle ps r' bp => decide (ps = [exNeighbour "n3"] ∧ r' = exRunning ∧ bp.id = "b" ∧ bp.destination.node = some "n3")
        | _ => false)) (by decide +kernel)
  simp only [Bool.and_eq_true, decide_eq_true_eq] at hp
  obtain ⟨k1, ⟨k2, k3⟩, k4⟩ := hp
  refine ⟨n, tasks, s, exAsked [exNeighbour "n3"] (newEvents n s.node), h1, k2, h2, by simpa [RoutedBy, TalksTo] using k1,
    fun e he => ?_, ?_⟩
  · simpa using List.all_eq_true.mp k3 e he
  · obtain ⟨c, hc, h⟩ := List.any_eq_true.mp k4
    split at h
    · obtain ⟨rfl, rfl, h4, h5⟩ := of_decide_eq_true h
      exact ⟨_, h4, h5, hc⟩
    · cases h

end Dtn.Props
