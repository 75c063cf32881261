import Verif.Lemmas.RouterNode
import Verif.Lemmas.SprayNode
import Verif.Lemmas.SledCount
/-! Lemmas on bundles that a spray and wait router was not told of. -/

namespace Dtn.OnSled
open Proc Spec Routing

variable {W : Weights}

/-- From a state in which no task is running, in any history. -/
theorem Enough.later (ok : Enough W) (strict : W.strict) {cfg : Config} {clock : Nat} {n : Node} {s : Sys}
    (before : Reaches ⟨Node.start cfg clock, []⟩ ⟨n, []⟩) (run : Reaches ⟨n, []⟩ s)
    (ha : ∀ bp a, Event.asked bp (some a) ∈ s.node.events → W.answers a) : W.total s.node ≤ W.total n := by
  suffices h : ∃ d, AddsAllOn W s.node s.pool d ∧ W.total s.node + d ≤ W.total n by
    obtain ⟨d, h1, h2⟩ := h
    have := h1.nonneg strict
    omega
  induction run with
  | refl => exact ⟨0, Int.le_refl _, by dsimp only; omega⟩
  | @step t u hr hst ih =>
    have bt := before.join hr
    have b := (between bt (.step (.refl _) hst)).2.1.base
    obtain ⟨d, h1, h2⟩ := ih (fun bp a h => ha bp a (b.events _ h))
    obtain ⟨d', h3, h4⟩ := ok.step (sled_good bt).1.inv b hst h1 ha
    exact ⟨d', h3, by omega⟩
  | @restart n pool clock hr ih =>
    obtain ⟨d, h1, h2⟩ := ih ha
    have := h1.nonneg strict
    have e : W.total (restarted n clock) ≤ W.total n := total_restarted ok.toOK strict clock rfl
    exact ⟨0, Int.le_refl _, by dsimp only at h2 ⊢; omega⟩
  | @cut n pool clock op k hw hr ih =>
    obtain ⟨d, h1, h2⟩ := ih ha
    have := h1.nonneg strict
    have e : W.total (restarted (setDb n ((db n).crashStep op k)) clock) ≤ W.total n :=
      total_restarted ok.toOK strict clock rfl
    exact ⟨0, Int.le_refl _, by dsimp only at h2 ⊢; omega⟩

variable {cfg : Config} {clock : Nat} {n : Node} {s : Sys}

theorem announced_later (before : Reaches ⟨Node.start cfg clock, []⟩ ⟨n, []⟩) (run : Reaches ⟨n, []⟩ s) (bid : String) :
    (newEvents n s.node).countP (isAnnounced bid) ≤
      (newEvents n s.node).countP (isAcceptedId bid) + (newEvents n s.node).countP (isSentId bid) := by
  have a := Enough.later ⟨W_announced bid, by simp [one, isAnnounced, isAcceptedId, isSentId]⟩ trivial before run (by simp)
  rw [Weights.total, Weights.total, newEvents_of_prefix ((between before run).2.1.base.past)] at a
  simp only [List.map_append, List.sum_append, sum_sub, sum_one] at a
  omega

theorem named_later (before : Reaches ⟨Node.start cfg clock, []⟩ ⟨n, []⟩) (run : Reaches ⟨n, []⟩ s) (bid : String) (to_ : Sender) :
    (newEvents n s.node).countP (isSendingTo bid to_) ≤ ((newEvents n s.node).map (named bid to_)).sum := by
  have a := Enough.later ⟨W_sendingTo bid to_, by simp [one, isSendingTo, named]⟩ trivial before run (by simp)
  rw [Weights.total, Weights.total, newEvents_of_prefix ((between before run).2.1.base.past)] at a
  simp only [List.map_append, List.sum_append, sum_sub, sum_one, sum_cast] at a
  omega

end Dtn.OnSled

namespace Dtn.Proc
open Spec Routing

/-- The command tells the router of the bundle. -/
def tells (bid : String) : Cmd → Bool
  | .notify (.incomingBundle b) => decide (b.id = bid)
  | .notify (.incomingBundleWithoutPreviousNode i _) => decide (i = bid)
  | _ => false

theorem spray_silent {bid : String} : ∀ (cmds : List Cmd) (t : Routing.Task Spray), (∀ c, t.core = some c → AList.get? c.history bid = none) →
    (∀ c ∈ cmds, tells bid c = false) → ∀ ps r bp a, (.senderForBundle ps r bp, some a) ∈ (t.run spray cmds).log →
    bp.id = bid → (.senderForBundle ps r bp, some a) ∈ t.log ∨ a.clas = []
  | [], t, _, _, ps, r, bp, a, h, _ => .inl h
  | c :: cmds, t, hc, hn, ps, r, bp, a, h, hb => by
    have keep : ∀ x, (t.step spray c).core = some x → AList.get? x.history bid = none := by
      intro x hx
      cases ht : t.core with
      | none => simp [Routing.Task.step, ht] at hx
      | some y =>
        have hy := hc y ht
        cases c with
        | senderForBundle ps r bp =>
          simp only [Routing.Task.step, ht] at hx
          split at hx
          · cases hx
          · rename_i z b hz
            simp only [Option.some.injEq] at hx
            subst hx
            simp only [spray, Spray.request] at hz
            split at hz
            · rename_i m hm
              split at hz
              · simp only [Option.some.injEq, Prod.mk.injEq] at hz
                obtain ⟨rfl, -⟩ := hz
                simp only [AList.get?_insert]
                split
                · rename_i h'; subst h'; rw [hm] at hy; cases hy
                · exact hy
              · cases hz
            · simp only [Option.some.injEq, Prod.mk.injEq] at hz
              obtain ⟨rfl, -⟩ := hz
              exact hy
        | notify no =>
          simp only [Routing.Task.step, ht, Option.some.injEq] at hx
          subst hx
          have hq := hn _ (List.mem_cons_self)
          have new : ∀ i, i ≠ bid → AList.get? (y.newBundle i).history bid = none := by
            intro i hi
            simp only [Spray.newBundle, AList.get?_insert]
            rw [if_neg (fun h => hi h.symm)]; exact hy
          have failed : ∀ i x, AList.get? (y.sendingFailed i x).history bid = none := by
            intro i x
            simp only [Spray.sendingFailed]
            split
            · rename_i m hm
              simp only [AList.get?_insert]
              split
              · rename_i h'
                subst h'; rw [hm] at hy; cases hy
              · exact hy
            · exact hy
          cases no with
          | incomingBundle b => exact new _ (by simpa [tells] using hq)
          | incomingBundleWithoutPreviousNode i x => exact new _ (by simpa [tells] using hq)
          | sendingFailed i x => exact failed i x
          | _ => exact hy
        | command => simp only [Routing.Task.step, ht] at hx; exact hc x (by rw [ht]; exact hx)
        | shutdown => simp [Routing.Task.step, ht] at hx
    rcases spray_silent cmds (t.step spray c) keep (fun x hx => hn x (List.mem_cons_of_mem _ hx)) ps r bp a h hb with h | h
    · by_cases ht : (Cmd.senderForBundle ps r bp, some a) ∈ t.log
      · exact .inl ht
      · right
        unfold Routing.Task.step at h
        split at h
        · rename_i hx _
          split at h
          · simp [ht] at h
          · rename_i s' a' hr
            simp only [List.mem_append, ht, List.mem_singleton, Prod.mk.injEq, Option.some.injEq, false_or] at h
            obtain ⟨h1, rfl⟩ := h
            cases h1
            have hy := hc _ hx
            rw [← hb] at hy
            simp only [spray, Spray.request, hy, Option.some.injEq, Prod.mk.injEq] at hr
            rw [← hr.2]
        all_goals simp [ht] at h
    · exact .inr h

/-- A router that was not told of a bundle names nobody for it. -/
theorem unannounced {l : Nat} {localNode : String} {sessions : List (List Cmd)} {events : List Event} {bid : String}
    (router : RoutedBy (fun cmds => ((sprayStart l localNode).run spray cmds).log) sessions events)
    (untold : events.countP (isAnnounced bid) = 0) {bp : Pack} {a : Answer} (asked : .asked bp (some a) ∈ events) (id : bp.id = bid) :
    a.clas = [] := by
  have hev : ∀ e ∈ events, isAnnounced bid e = false := by
    intro e he
    have := List.countP_eq_zero.mp untold e he
    simpa using this
  obtain ⟨cmds, hc, ps, r, h⟩ := asked_history router asked
  refine (spray_silent cmds (sprayStart l localNode) (by intro c hc; cases hc; rfl) ?_ ps r bp a h id).resolve_left
    (by simp [sprayStart])
  intro c hcm
  cases c with
  | notify x =>
    cases hx : tells bid (.notify x) with
    | false => rfl
    | true =>
      have hp : aboutPeers x = false := by cases x <;> simp [tells] at hx <;> rfl
      have h1 := Task.log_run spray (sprayStart l localNode) cmds
      have h2 : Cmd.notify x ∈ ((sprayStart l localNode).run spray cmds).log.map Prod.fst := by rw [h1]; simp [hcm]
      obtain ⟨⟨c', o⟩, h3, rfl⟩ := List.mem_map.mp h2
      have h4 : Event.note x ∈ (sessions.map fun cmds => ((sprayStart l localNode).run spray cmds).log).flatten.filterMap routerTalk := by
        refine List.mem_filterMap.mpr ⟨_, List.mem_flatten.mpr ⟨_, List.mem_map.mpr ⟨cmds, hc, rfl⟩, h3⟩, ?_⟩
        simp [routerTalk, hp]
      rw [show (sessions.map fun cmds => ((sprayStart l localNode).run spray cmds).log).flatten.filterMap routerTalk = _ from router] at h4
      obtain ⟨e, he, hm⟩ := List.mem_filterMap.mp h4
      have : e = .note x := by
        cases e <;> simp only [nodeTalk, Option.some.injEq, reduceCtorEq] at hm
        split at hm
        · cases hm
        · exact Option.some.inj (hm ▸ rfl)
      subst this
      have := hev _ he
      cases x <;> simp [tells] at hx <;> simp [isAnnounced, hx] at this
  | _ => rfl

end Dtn.Proc
