import Verif.Lemmas.ProcSent
import Verif.Lemmas.ProcExample
/-!
Bundle processing: reception, forwarding, status reports and removals.

The theorems with a hypothesis `Reaches .any ⟨Node.start cfg clock, []⟩ s` are about every execution of a node since its
start: any calls, any interleaving of all tasks, any answers of the router, any outcome of transfers, any changes of clock,
peers and endpoints.
-/

namespace Dtn.Props
open Proc Routing Spec

/-- The blocks with a meaning for the node have the types of RFC 9171: hop count 10, bundle age 7, previous node 6, payload 1. -/
theorem block_types (b : Bundle) :
    hopCount b = (b.canonicals.find? fun c => c.btype = 10).bind (fun c => match c.data with | .hopCount l k => some (l, k) | _ => none) ∧
    bundleAge b = (b.canonicals.find? fun c => c.btype = 7).bind (fun c => match c.data with | .bundleAge a => some a | _ => none) ∧
    Spec.previousNode b = (b.canonicals.find? fun c => c.btype = 6).bind (fun c => match c.data with | .previousNode e => some e | _ => none) ∧
    PAYLOAD_BLOCK = 1 := ⟨rfl, rfl, rfl, rfl⟩

/-- C09 (first part). Between two receptions of an id that pass the duplicate check, the bundle was removed. -/
theorem C09_processed_once {cfg : Config} {clock : Nat} {s : Sys}
    (run : Reaches .any ⟨Node.start cfg clock, []⟩ s) {before between after : List Event} {b b' : Bundle}
    (h : s.node.events = before ++ .accepted b :: (between ++ .accepted b' :: after)) (same : b.id = b'.id) :
    ∃ cause, Event.removed b.id cause ∈ between :=
  (good_always run).1.apart before b between b' after h same

example : ∃ s, Reaches .any ⟨Ex.start, []⟩ s ∧ ∃ before between after b b',
    s.node.events = before ++ .accepted b :: (between ++ .accepted b' :: after) ∧ b.id = b'.id := by
  obtain ⟨s, hs, hp⟩ := exists_run (n := Ex.start)
    ([.call (.receive (Ex.bundle 5 1 0))] ++ go 60 (some (Ex.answer true)) ++ [.call (.receive (Ex.bundle 5 1 0))] ++ go 1)
    (fun s => decide (s.node.events = s.node.events.take 1 ++ .accepted (Ex.bundle 5 1 0) ::
      ((s.node.events.drop 2).take 7 ++ .accepted (Ex.bundle 5 1 0) :: []))) (by decide +kernel)
  exact ⟨s, hs, _, _, _, _, _, of_decide_eq_true hp, rfl⟩

/-- C09 (second part). A reception of a bundle whose id is stored records a duplicate and changes neither store nor
agents; all that is left of it is to count. -/
theorem C09_duplicates_stop {n n' : Node} {b : Bundle} {ps : List Prog} (known : n.store.getBundle b.id ≠ none)
    (h : TaskStep n (Call.receive b).prog n' ps) :
    n' = n.log (.duplicate b) ∧ ∃ p, ps = [p] ∧ ∀ m m' qs, TaskStep m p m' qs →
      m' = { m with stats := { m.stats with dups := m.stats.dups + 1 } } ∧ qs = [.done true] := by
  have hi : n.store.hasItem b.id = true := (MemStore.hasItem_iff _ _).mpr known
  cases h
  refine ⟨by simp [Node.addIfUnknown, MemStore.addIfUnknown, hi], _, rfl, ?_⟩
  intro m m' qs hs
  simp only [MemStore.addIfUnknown, hi] at hs
  cases hs
  exact ⟨rfl, rfl⟩

/-- C09 (third part). A reception of a bundle whose id is not stored passes the check. -/
theorem C09_new_bundles_pass {n n' : Node} {b : Bundle} {ps : List Prog} (new : n.store.getBundle b.id = none)
    (h : TaskStep n (Call.receive b).prog n' ps) :
    n'.events = n.events ++ [.accepted b] ∧ n'.store.getBundle b.id = some b := by
  have hi : n.store.hasItem b.id = false := by
    cases hh : n.store.hasItem b.id
    · rfl
    · exact absurd new ((MemStore.hasItem_iff _ _).mp hh)
  cases h
  simp [Node.addIfUnknown, MemStore.addIfUnknown, hi, Node.log, MemStore.getBundle_push]

example : ∃ n' ps, TaskStep (Ex.start.push (Ex.bundle 5 1 0)) (Call.receive (Ex.bundle 5 3 0)).prog n' ps ∧
    (Ex.start.push (Ex.bundle 5 1 0)).store.getBundle (Ex.bundle 5 3 0).id ≠ none :=
  ⟨_, _, .act _ _ _, by decide +kernel⟩

/-- C15 (part). Every copy handed to a convergence layer has a hop count of at most its limit, and one more than the
stored copy if that is below 255. Bundles must not carry several hop count blocks. Missing: a count of 255, for which it
is false (`C15_hop_limit_violated`). -/
theorem C15_hop_limit_partial {cfg : Config} {clock : Nat} {s : Sys}
    (run : Reaches .any ⟨Node.start cfg clock, []⟩ s) {t : Transfer} (sent : Event.sending t ∈ s.node.events)
    (one : AtMostOne HOP_COUNT_BLOCK t.stored) {limit count : Nat} (stored : hopCount t.stored = some (limit, count)) :
    ∃ count', hopCount t.out = some (limit, count') ∧ count' ≤ limit ∧ (count < 255 → count' = count + 1) := by
  have hp := ((good_always run).1.sends t sent).1
  have hc := hp.hopCount one
  rw [stored] at hc
  refine ⟨_, hc, ?_, fun h => Nat.mod_eq_of_lt (by omega)⟩
  have := hp.hops
  have e : (raiseHop t.stored).2 = decide ((count + 1) % 256 > limit) := by
    unfold hopCount at stored
    unfold raiseHop firstBlock
    cases hf : t.stored.canonicals.find? (fun c => decide (c.btype = HOP_COUNT_BLOCK)) with
    | none => rw [hf] at stored; cases stored
    | some blk =>
      rw [hf] at stored
      obtain ⟨_, _, _, d⟩ := blk
      cases d <;> simp at stored ⊢
      rw [stored.1, stored.2]
  rw [this] at e
  simpa using e.symm

/-- C15 is false as it stands: a bundle with limit 255 and count 255 is sent, with count 0. -/
theorem C15_hop_limit_violated : ∃ s, Reaches .any ⟨Ex.start, []⟩ s ∧ ∃ t, Event.sending t ∈ s.node.events ∧
    hopCount t.stored = some (255, 255) ∧ hopCount t.out = some (255, 0) := by
  obtain ⟨s, hs, hp⟩ := exists_run (n := Ex.start)
    ([.call (.receive (Ex.bundle 255 255 0))] ++ go 60 (some (Ex.answer true)))
    (Ex.hasSending fun t => decide (hopCount t.stored = some (255, 255) ∧ hopCount t.out = some (255, 0)))
    (by decide +kernel)
  obtain ⟨t, ht, hp⟩ := Ex.sending_of hp
  exact ⟨s, hs, t, ht, of_decide_eq_true hp⟩

/-- One copy, sent 300 ms after reception, that meets the hypotheses of C15 to C18. -/
theorem procSendingWitness : ∃ s, Reaches .any ⟨Ex.start, []⟩ s ∧ ∃ t, Event.sending t ∈ s.node.events ∧
    (AtMostOne HOP_COUNT_BLOCK t.stored ∧ hopCount t.stored = some (5, 1)) ∧
    (AtMostOne BUNDLE_AGE_BLOCK t.stored ∧ bundleAge t.stored = some 20 ∧ t.receivedAt = some 946684800100 ∧
      t.agedAt = 946684800400 ∧ bundleAge t.out = some 320) := by
  obtain ⟨s, hs, hp⟩ := exists_run (n := Ex.start)
    ([.call (.receive (Ex.bundle 5 1 20))] ++ go 6 ++ [.clock 946684800400] ++ go 60 (some (Ex.answer true)))
    (Ex.hasSending fun t => decide
      ((t.stored.canonicals.countP (fun c => c.btype = HOP_COUNT_BLOCK) ≤ 1 ∧ hopCount t.stored = some (5, 1)) ∧
       (t.stored.canonicals.countP (fun c => c.btype = BUNDLE_AGE_BLOCK) ≤ 1 ∧ bundleAge t.stored = some 20 ∧
        t.receivedAt = some 946684800100 ∧ t.agedAt = 946684800400 ∧ bundleAge t.out = some 320)))
    (by decide +kernel)
  obtain ⟨t, ht, hp⟩ := Ex.sending_of hp
  unfold AtMostOne
  exact ⟨s, hs, t, ht, of_decide_eq_true hp⟩

/-- C16 (first part). When its lifetime was checked, at `t.checkedAt`, a bundle that is sent was not past its lifetime,
and what is sent carries the same creation time and lifetime. -/
theorem C16_lifetime {cfg : Config} {clock : Nat} {s : Sys}
    (run : Reaches .any ⟨Node.start cfg clock, []⟩ s) {t : Transfer} (sent : Event.sending t ∈ s.node.events) :
    ¬ LifetimeOver (t.checkedAt - 946684800000) t.out.primary ∧ t.out.primary = t.stored.primary := by
  have hp := ((good_always run).1.sends t sent).1
  refine ⟨?_, hp.primary⟩
  rw [hp.primary]
  rintro ⟨h1, h2⟩
  have ha := hp.alive
  unfold lifetimeExceeded at ha
  rw [if_neg h1] at ha
  have := Nat.mod_le (t.stored.primary.creationTime + t.stored.primary.lifetime) u64
  simp only [decide_eq_false_iff_not, Nat.not_le] at ha
  omega

/-- C17 (part). The age of every copy handed to a convergence layer is the stored age plus the milliseconds from
reception until the age was set, at `t.agedAt`. The clock must not run backwards nor the sum overflow. Missing: that the
bundle is dropped once its age reaches its lifetime, which is false (`C17_too_old_violated`). -/
theorem C17_age_partial {cfg : Config} {clock : Nat} {s : Sys}
    (run : Reaches .any ⟨Node.start cfg clock, []⟩ s) {t : Transfer} (sent : Event.sending t ∈ s.node.events)
    (one : AtMostOne BUNDLE_AGE_BLOCK t.stored) {age : Nat} (stored : bundleAge t.stored = some age) :
    ∃ received, t.receivedAt = some received ∧
      (received ≤ t.agedAt → age + (t.agedAt - received) < 2 ^ 64 →
        bundleAge t.out = some (age + (t.agedAt - received))) := by
  have hp := ((good_always run).1.sends t sent).1
  cases hr : t.receivedAt with
  | none => exact absurd hr hp.received
  | some r => exact ⟨r, rfl, fun h1 h2 => hp.age one stored hr h1 h2⟩

/-- C17 is false as it stands: a bundle with a lifetime of 1000 ms is sent at an age of 5000 ms. -/
theorem C17_too_old_violated : ∃ s, Reaches .any ⟨Ex.start, []⟩ s ∧ ∃ t, Event.sending t ∈ s.node.events ∧
    t.out.primary.lifetime = 1000 ∧ bundleAge t.out = some 5000 := by
  obtain ⟨s, hs, hp⟩ := exists_run (n := Ex.start)
    ([.call (.receive (Ex.bundle 5 1 5000))] ++ go 60 (some (Ex.answer true)))
    (Ex.hasSending fun t => decide (t.out.primary.lifetime = 1000 ∧ bundleAge t.out = some 5000)) (by decide +kernel)
  obtain ⟨t, ht, hp⟩ := Ex.sending_of hp
  exact ⟨s, hs, t, ht, of_decide_eq_true hp⟩

/-- C18. Every copy handed to a convergence layer names this node in its first previous node block, and is otherwise the
stored bundle up to hop count and age. -/
theorem C18_previous_node {cfg : Config} {clock : Nat} {s : Sys}
    (run : Reaches .any ⟨Node.start cfg clock, []⟩ s) {t : Transfer} (sent : Event.sending t ∈ s.node.events) :
    Spec.previousNode t.out = some cfg.hostEid ∧ PassedOn cfg.hostEid t.out t.stored := by
  have hg := good_always run
  have hp := (hg.1.sends t sent).1
  rw [hg.2] at hp
  exact ⟨hp.previousNode, hp.passedOn⟩

/-- C20 (first part). Every status report the node creates is permitted, and goes to the report-to address. -/
theorem C20_reports_permitted {cfg : Config} {clock : Nat} {s : Sys}
    (run : Reaches .any ⟨Node.start cfg clock, []⟩ s) {r : Report} (made : Event.report r ∈ s.node.events) :
    Permitted cfg r := by
  have hg := good_always run
  have := hg.1.reports r made
  rwa [hg.2] at this

example : ∃ s, Reaches .any ⟨Ex.start, []⟩ s ∧
    (∃ r, Event.report r ∈ s.node.events ∧ r.pos = .received) ∧ ∃ r, Event.report r ∈ s.node.events ∧ r.pos = .forwarded := by
  obtain ⟨s, hs, hp⟩ := exists_run (n := Ex.start)
    ([.call (.receive Ex.asking)] ++ go 60 (some (Ex.answer false)))
    (fun s => Ex.hasReport (fun r => decide (r.pos = .received)) s && Ex.hasReport (fun r => decide (r.pos = .forwarded)) s)
    (by decide +kernel)
  simp only [Bool.and_eq_true] at hp
  obtain ⟨r, h1, h2⟩ := Ex.report_of hp.1
  obtain ⟨r', h3, h4⟩ := Ex.report_of hp.2
  exact ⟨s, hs, ⟨r, h1, of_decide_eq_true h2⟩, ⟨r', h3, of_decide_eq_true h4⟩⟩

/-- C68. Whenever a bundle is taken out of the store, there is a reason for it, given what happened before. -/
theorem C68_removals_justified {cfg : Config} {clock : Nat} {s : Sys}
    (run : Reaches .any ⟨Node.start cfg clock, []⟩ s) {before after : List Event} {bid : String} {cause : Cause}
    (h : s.node.events = before ++ .removed bid cause :: after) : Justified before cfg bid cause := by
  have hg := good_always run
  have := hg.1.removed before bid cause after h
  rwa [hg.2] at this

example : ∃ s, Reaches .any ⟨Ex.start, []⟩ s ∧ ∃ before after bp a,
    s.node.events = before ++ .removed "b" (.router bp a) :: after := by
  obtain ⟨s, hs, hp⟩ := exists_run (n := Ex.start)
    ([.call (.receive (Ex.bundle 5 1 0))] ++ go 60 (some (Ex.answer true)))
    (Ex.hasRemoved fun b c => match c with | .router _ _ => decide (b = "b") | _ => false) (by decide +kernel)
  obtain ⟨b, c, h, hp⟩ := Ex.removed_of hp
  cases c <;> simp at hp
  subst hp
  obtain ⟨l, r, h⟩ := List.append_of_mem h
  exact ⟨s, hs, l, r, _, _, h⟩

end Dtn.Props
