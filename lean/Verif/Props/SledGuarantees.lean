import Verif.Lemmas.SledGood
import Verif.Lemmas.SledExample
import Verif.Lemmas.ProcSent
/-! C130: what a node guarantees about the copies it sends, the reports it makes and the bundles it removes holds with the persistent
store, too, however often and wherever its process is stopped and started again. -/

namespace Dtn.Props
open Spec Proc OnSled

/-- C130 (hop limit, part). Every copy handed to a convergence layer has a hop count of at most its limit, and one more than the
bundle in the database if that is below 255. Missing: a count of 255, for which it is false (`C130_hop_limit_violated`). -/
theorem C130_hop_limit_partial {cfg : Config} {clock : Nat} {s : Sys} (run : OnSled.Reaches ⟨Node.start cfg clock, []⟩ s) {t : Transfer}
    (sent : Event.sending t ∈ s.node.events) (one : AtMostOne HOP_COUNT_BLOCK t.stored) {limit count : Nat}
    (stored : hopCount t.stored = some (limit, count)) :
    ∃ count', hopCount t.out = some (limit, count') ∧ count' ≤ limit ∧ (count < 255 → count' = count + 1) := by
  have hp := ((sled_good run).1.sends t sent).1
  have hc := hp.hopCount one
  rw [stored] at hc
  refine ⟨_, hc, ?_, fun h => Nat.mod_eq_of_lt (by omega)⟩
  have := hp.hops
  have e : (raiseHop t.stored).2 = decide ((count + 1) % 256 > limit) := by
    unfold hopCount at stored
    unfold raiseHop firstBlock
    cases hf : t.stored.canonicals.find? (fun c => decide (c.btype = HOP_COUNT_BLOCK)) with
    | none => rw [hf] at stored; cases stored
    | some blk =>
      rw [hf] at stored
      obtain ⟨_, _, _, d⟩ := blk
      cases d <;> simp at stored ⊢
      rw [stored.1, stored.2]
  rw [this] at e
  simpa using e.symm

/-- C130 (lifetime). When its lifetime was checked, at `t.checkedAt`, a bundle that is sent was not past its lifetime, and what is
sent carries the same creation time and lifetime as the bundle in the database. -/
theorem C130_lifetime {cfg : Config} {clock : Nat} {s : Sys} (run : OnSled.Reaches ⟨Node.start cfg clock, []⟩ s) {t : Transfer}
    (sent : Event.sending t ∈ s.node.events) :
    ¬ LifetimeOver (t.checkedAt - 946684800000) t.out.primary ∧ t.out.primary = t.stored.primary := by
  have hp := ((sled_good run).1.sends t sent).1
  refine ⟨?_, hp.primary⟩
  rw [hp.primary]
  rintro ⟨h1, h2⟩
  have ha := hp.alive
  unfold lifetimeExceeded at ha
  rw [if_neg h1] at ha
  have := Nat.mod_le (t.stored.primary.creationTime + t.stored.primary.lifetime) u64
  simp only [decide_eq_false_iff_not, Nat.not_le] at ha
  omega

/-- C130 (age, part). The age of every copy handed to a convergence layer is the stored age plus the milliseconds from `t.receivedAt`
until the age was set, at `t.agedAt`: the time that the node was not running counts. The clock must not run backwards nor the sum
overflow. Missing: that the bundle is dropped once its age reaches its lifetime, which is false (`C130_too_old_violated`). -/
theorem C130_age_partial {cfg : Config} {clock : Nat} {s : Sys} (run : OnSled.Reaches ⟨Node.start cfg clock, []⟩ s) {t : Transfer}
    (sent : Event.sending t ∈ s.node.events) (one : AtMostOne BUNDLE_AGE_BLOCK t.stored) {age : Nat} (stored : bundleAge t.stored = some age) :
    ∃ received, t.receivedAt = some received ∧
      (received ≤ t.agedAt → age + (t.agedAt - received) < 2 ^ 64 → bundleAge t.out = some (age + (t.agedAt - received))) := by
  have hp := ((sled_good run).1.sends t sent).1
  cases hr : t.receivedAt with
  | none => exact absurd hr hp.received
  | some r => exact ⟨r, rfl, fun h1 h2 => hp.age one stored hr h1 h2⟩

/-- C130 (previous node). Every copy handed to a convergence layer names this node in its first previous node block, and is otherwise
the bundle in the database up to hop count and age. -/
theorem C130_previous_node {cfg : Config} {clock : Nat} {s : Sys} (run : OnSled.Reaches ⟨Node.start cfg clock, []⟩ s) {t : Transfer}
    (sent : Event.sending t ∈ s.node.events) :
    Spec.previousNode t.out = some cfg.hostEid ∧ PassedOn cfg.hostEid t.out t.stored := by
  have hg := sled_good run
  have hp := (hg.1.sends t sent).1
  rw [hg.2] at hp
  exact ⟨hp.previousNode, hp.passedOn⟩

/-- C130 (recipients). Every copy handed to a convergence layer goes to a neighbour that the router named when it was asked for this
bundle. -/
theorem C130_recipients {cfg : Config} {clock : Nat} {s : Sys} (run : OnSled.Reaches ⟨Node.start cfg clock, []⟩ s) {t : Transfer}
    (sent : Event.sending t ∈ s.node.events) :
    ∃ bp a, Event.asked bp (some a) ∈ s.node.events ∧ bp.id = t.out.id ∧ t.to ∈ a.clas := by
  have hg := (sled_good run).1
  obtain ⟨hp, x, hx, h1, h2⟩ := hg.sends t sent
  obtain ⟨h3, h4⟩ := hg.asked _ _ hx
  refine ⟨_, _, h3, ?_, h2⟩
  rw [← h4, h1]
  exact congrArg Primary.bid hp.primary.symm

/-- One copy of a bundle that was received before and sent after a restart that took 300 ms. -/
example : ∃ s, OnSled.Reaches ⟨Node.start Ex.cfg 946684800100, []⟩ s ∧ ∃ t, Event.sending t ∈ s.node.events ∧
    (AtMostOne HOP_COUNT_BLOCK t.stored ∧ hopCount t.stored = some (5, 1)) ∧
    (AtMostOne BUNDLE_AGE_BLOCK t.stored ∧ bundleAge t.stored = some 20 ∧ t.receivedAt = some 946684800100 ∧
      t.agedAt = 946684800400 ∧ bundleAge t.out = some 320) := by
  obtain ⟨s, s', h1, h2, hp⟩ := exists_moves (n := Node.start Ex.cfg 946684800100)
    ([.call (.receive (Ex.bundle 5 1 20))] ++ going 30 ++ [.restart 946684800400, .cla true, .call .janitor])
    (going 60 (some (Ex.answer true))) (fun s => s) (fun _ => Ex.hasSending fun t => decide
      ((t.stored.canonicals.countP (fun c => c.btype = HOP_COUNT_BLOCK) ≤ 1 ∧ hopCount t.stored = some (5, 1)) ∧
       (t.stored.canonicals.countP (fun c => c.btype = BUNDLE_AGE_BLOCK) ≤ 1 ∧ bundleAge t.stored = some 20 ∧
        t.receivedAt = some 946684800100 ∧ t.agedAt = 946684800400 ∧ bundleAge t.out = some 320)))
    (by decide +kernel)
  obtain ⟨t, ht, hp⟩ := Ex.sending_of hp
  unfold AtMostOne
  exact ⟨s', h1.join h2, t, ht, of_decide_eq_true hp⟩

/-- C130 (reports). Every status report the node creates is permitted, and goes to the report-to address. -/
theorem C130_reports {cfg : Config} {clock : Nat} {s : Sys} (run : OnSled.Reaches ⟨Node.start cfg clock, []⟩ s) {r : Report}
    (made : Event.report r ∈ s.node.events) : Permitted cfg r := by
  have hg := sled_good run
  have := hg.1.reports r made
  rwa [hg.2] at this

/-- A report about the reception before, and one about forwarding after a restart; the first report is removed in between. -/
example : ∃ s t, OnSled.Reaches ⟨Node.start Ex.cfg 946684800100, []⟩ s ∧ OnSled.Reaches s t ∧
    (∃ r, Event.report r ∈ s.node.events ∧ r.pos = .received) ∧ (∀ r, Event.report r ∈ s.node.events → r.pos ≠ .forwarded) ∧
    ∃ r, Event.report r ∈ t.node.events ∧ r.pos = .forwarded := by
  obtain ⟨s, t, h1, h2, hp⟩ := exists_moves (n := Node.start Ex.cfg 946684800100)
    ([.call (.receive Ex.asking)] ++ going 40 ++ [.call (.remove "r")] ++ going 5 ++ [.restart 946684800400, .cla true, .call .janitor])
    (List.replicate 80 (.next (some (Ex.answer false)) true "q")) (fun s => s)
    (fun s t => Ex.hasReport (fun r => decide (r.pos = .received)) s && !Ex.hasReport (fun r => decide (r.pos = .forwarded)) s &&
      Ex.hasReport (fun r => decide (r.pos = .forwarded)) t)
    (by decide +kernel)
  simp only [Bool.and_eq_true, Bool.not_eq_true'] at hp
  obtain ⟨r, h3, h4⟩ := Ex.report_of hp.1.1
  obtain ⟨r', h5, h6⟩ := Ex.report_of hp.2
  refine ⟨s, t, h1, h2, ⟨r, h3, of_decide_eq_true h4⟩, ?_, ⟨r', h5, of_decide_eq_true h6⟩⟩
  intro r hr he
  have := List.any_eq_false.mp hp.1.2 _ hr
  simp [he] at this

/-- C130 (removals). Whenever a bundle is taken out of the database, there is a reason for it, given what happened before. -/
theorem C130_removals {cfg : Config} {clock : Nat} {s : Sys} (run : OnSled.Reaches ⟨Node.start cfg clock, []⟩ s)
    {before after : List Event} {bid : String} {cause : Cause} (h : s.node.events = before ++ .removed bid cause :: after) :
    Justified before cfg bid cause := by
  have hg := sled_good run
  have := hg.1.removed before bid cause after h
  rwa [hg.2] at this

/-- A bundle is removed after a restart because the router asks for it. -/
example : ∃ s, OnSled.Reaches ⟨Node.start Ex.cfg 946684800100, []⟩ s ∧ ∃ before after bp a,
    s.node.events = before ++ .removed "b" (.router bp a) :: after := by
  obtain ⟨s, t, h1, h2, hp⟩ := exists_moves (n := Node.start Ex.cfg 946684800100)
    ([.call (.receive (Ex.bundle 5 1 20))] ++ going 30 ++ [.restart 946684800400, .cla true, .call .janitor])
    (going 60 (some (Ex.answer true))) (fun s => s)
    (fun _ => Ex.hasRemoved fun b c => match c with | .router _ _ => decide (b = "b") | _ => false) (by decide +kernel)
  obtain ⟨b, c, h, hp⟩ := Ex.removed_of hp
  cases c <;> simp at hp
  subst hp
  obtain ⟨l, r, h⟩ := List.append_of_mem h
  exact ⟨t, h1.join h2, l, r, _, _, h⟩

/-- C130 is false for a hop count of 255 as well: a copy is sent with the count 0. -/
theorem C130_hop_limit_violated : ∃ s, OnSled.Reaches ⟨Node.start Ex.cfg 946684800100, []⟩ s ∧ ∃ t, Event.sending t ∈ s.node.events ∧
    hopCount t.stored = some (255, 255) ∧ hopCount t.out = some (255, 0) := by
  obtain ⟨s, s', h1, h2, hp⟩ := exists_moves (n := Node.start Ex.cfg 946684800100)
    ([.call (.receive (Ex.bundle 255 255 0))] ++ going 30 ++ [.restart 946684800400, .cla true, .call .janitor])
    (going 60 (some (Ex.answer true))) (fun s => s)
    (fun _ => Ex.hasSending fun t => decide (hopCount t.stored = some (255, 255) ∧ hopCount t.out = some (255, 0))) (by decide +kernel)
  obtain ⟨t, ht, hp⟩ := Ex.sending_of hp
  exact ⟨s', h1.join h2, t, ht, of_decide_eq_true hp⟩

/-- C130 is false for old bundles as well: a copy is sent whose age is beyond its lifetime. -/
theorem C130_too_old_violated : ∃ s, OnSled.Reaches ⟨Node.start Ex.cfg 946684800100, []⟩ s ∧ ∃ t, Event.sending t ∈ s.node.events ∧
    t.out.primary.lifetime = 1000 ∧ bundleAge t.out = some 5300 := by
  obtain ⟨s, s', h1, h2, hp⟩ := exists_moves (n := Node.start Ex.cfg 946684800100)
    ([.call (.receive (Ex.bundle 5 1 5000))] ++ going 30 ++ [.restart 946684800400, .cla true, .call .janitor])
    (going 60 (some (Ex.answer true))) (fun s => s)
    (fun _ => Ex.hasSending fun t => decide (t.out.primary.lifetime = 1000 ∧ bundleAge t.out = some 5300)) (by decide +kernel)
  obtain ⟨t, ht, hp⟩ := Ex.sending_of hp
  exact ⟨s', h1.join h2, t, ht, of_decide_eq_true hp⟩

end Dtn.Props
