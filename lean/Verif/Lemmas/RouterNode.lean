import Verif.Spec.RouterNode
import Verif.Lemmas.SledGood
import Verif.Lemmas.RoutingAgents
import Verif.Props.RoutingAgents
import Verif.Props.Spray
/-! Lemmas on a node together with a router of any kind. -/

namespace Dtn.Proc
open Spec Routing

theorem either_good {cfg : Config} {clock : Nat} {s : Sys} (run : EitherStore cfg clock s) : Good s.node ∧ s.node.cfg = cfg := by
  rcases run with h | h
  · exact good_always h
  · exact OnSled.sled_good h

/-- Every copy was named by an answer. -/
theorem Good.named {n : Node} (g : Good n) {t : Transfer} (sent : .sending t ∈ n.events) :
    ∃ bp a, Event.asked bp (some a) ∈ n.events ∧ bp.id = t.stored.id ∧ t.to ∈ a.clas := by
  obtain ⟨-, x, hx, h1, h2⟩ := g.sends t sent
  obtain ⟨h3, h4⟩ := g.asked _ _ hx
  exact ⟨_, _, h3, by rw [← h4, h1], h2⟩

theorem mem_nodeTalk {events : List Event} {bp : Pack} {a : Option Answer} :
    .asked bp a ∈ events.filterMap nodeTalk ↔ .asked bp a ∈ events := by
  constructor
  · intro h
    obtain ⟨e, he, hm⟩ := List.mem_filterMap.mp h
    cases e <;> simp only [nodeTalk, Option.some.injEq, reduceCtorEq] at hm
    · split at hm <;> cases hm
    · exact hm ▸ he
  · intro h
    exact List.mem_filterMap.mpr ⟨_, h, rfl⟩

/-- Every answer the node is given was given by the router. -/
theorem asked_history {history : List Cmd → List (Cmd × Option Answer)} {sessions : List (List Cmd)} {events : List Event}
    (router : RoutedBy history sessions events) {bp : Pack} {a : Answer} (h : .asked bp (some a) ∈ events) :
    ∃ cmds ∈ sessions, ∃ ps r, (.senderForBundle ps r bp, some a) ∈ history cmds := by
  rw [← mem_nodeTalk, ← router] at h
  obtain ⟨⟨c, x⟩, hx, hm⟩ := List.mem_filterMap.mp h
  obtain ⟨l, hl, hin⟩ := List.mem_flatten.mp hx
  obtain ⟨cmds, hc, rfl⟩ := List.mem_map.mp hl
  cases c <;> simp only [routerTalk, Option.some.injEq, reduceCtorEq] at hm
  · cases hm; exact ⟨cmds, hc, _, _, hin⟩
  · split at hm <;> cases hm

/-- An answer in the history of an agent belongs to a command, and was given by the agent in some state. -/
theorem task_answer {σ : Type} (ag : Agent σ) : ∀ (cmds : List Cmd) (t : Routing.Task σ) {c : Cmd} {a : Answer},
    (c, some a) ∈ (t.run ag cmds).log → (c, some a) ∈ t.log ∨
      c ∈ cmds ∧ ∃ ps r bp s s', c = .senderForBundle ps r bp ∧ ag.request s ps r bp = some (s', a)
  | [], t, c, a, h => .inl h
  | x :: cmds, t, c, a, h => by
    rcases task_answer ag cmds (t.step ag x) h with h | ⟨h, h'⟩
    · by_cases ht : (c, some a) ∈ t.log
      · exact .inl ht
      · right
        unfold Routing.Task.step at h
        split at h
        · rename_i s ps r bp _
          split at h
          · simp [ht] at h
          · rename_i s' a' hr
            simp only [List.mem_append, ht, List.mem_singleton, Prod.mk.injEq, Option.some.injEq, false_or] at h
            obtain ⟨rfl, rfl⟩ := h
            exact ⟨by simp, _, _, _, _, s', rfl, hr⟩
        all_goals simp [ht] at h
    · exact .inr ⟨by simp [h], h'⟩

/-- The neighbours that the epidemic router names, and when it asks for deletion. -/
theorem epidemic_loop (bp : Pack) (running : List Cla) : ∀ (ps : List Peer) (c : Epidemic) (acc : List Sender)
    {c' : Epidemic} {a : Answer}, Epidemic.loop bp running ps c acc = some (c', a) →
    (∀ s ∈ a.clas, s ∈ acc ∨ ∃ p ∈ ps, SendsTo running p s) ∧
    (a.delete = true → ∃ p ∈ ps, ∃ s, bp.destination.node = some p.nodeName ∧ SendsTo running p s ∧ a.clas = [s])
  | [], c, acc, c', a, h => by
    simp only [Epidemic.loop, Option.some.injEq, Prod.mk.injEq] at h
    obtain ⟨-, rfl⟩ := h
    exact ⟨fun s hs => .inl hs, by simp⟩
  | p :: ps, c, acc, c', a, h => by
    have next : ∀ {c acc}, Epidemic.loop bp running ps c acc = some (c', a) →
        (∀ s ∈ a.clas, s ∈ acc ∨ ∃ q ∈ p :: ps, SendsTo running q s) ∧
        (a.delete = true → ∃ q ∈ p :: ps, ∃ s, bp.destination.node = some q.nodeName ∧ SendsTo running q s ∧ a.clas = [s]) := by
      intro c acc h
      obtain ⟨h1, h2⟩ := epidemic_loop bp running ps c acc h
      refine ⟨fun s hs => (h1 s hs).imp id ?_, fun hd => ?_⟩
      · rintro ⟨q, hq, h⟩; exact ⟨q, by simp [hq], h⟩
      · obtain ⟨q, hq, h⟩ := h2 hd; exact ⟨q, by simp [hq], h⟩
    unfold Epidemic.loop at h
    split at h
    · split at h
      · rename_i cla hf
        have hs := Peer.firstCla_sendsTo hf
        dsimp only at h
        split at h
        · cases h
        · rename_i d hd
          split at h
          · rename_i hp
            simp only [Option.some.injEq, Prod.mk.injEq] at h
            obtain ⟨-, rfl⟩ := h
            refine ⟨fun s hm => .inr ⟨p, by simp, ?_⟩, fun _ => ⟨p, by simp, cla, by rw [hd, hp], hs, rfl⟩⟩
            simp only [List.mem_singleton] at hm
            rwa [hm]
          · obtain ⟨h1, h2⟩ := next h
            refine ⟨fun s hm => ?_, h2⟩
            rcases h1 s hm with h | h
            · rcases List.mem_append.mp h with h | h
              · exact .inl h
              · rw [List.mem_singleton] at h
                exact .inr ⟨p, by simp, by rwa [h]⟩
            · exact .inr h
      · exact next h
    · exact next h

theorem epidemic_history : ∀ (cmds : List Cmd) (t : Epidemic.Task) {ps : List Peer} {r : List Cla} {bp : Pack} {a : Answer},
    (.senderForBundle ps r bp, some a) ∈ Spec.answered t cmds → .senderForBundle ps r bp ∈ cmds ∧
      ∃ c c', Epidemic.senderForBundle c ps r bp = some (c', a)
  | [], t, ps, r, bp, a, h => by simp [Spec.answered] at h
  | .senderForBundle ps' r' bp' :: cmds, t, ps, r, bp, a, h => by
    simp only [Spec.answered, List.mem_cons, Prod.mk.injEq] at h
    rcases h with ⟨h1, h2⟩ | h
    · cases h1
      refine ⟨by simp, ?_⟩
      unfold Epidemic.Task.step at h2
      cases hc : t.core with
      | none => simp [hc] at h2
      | some c =>
        cases hr : c.senderForBundle ps' r' bp' with
        | none => simp [hc, hr] at h2
        | some x => simp [hc, hr] at h2; exact ⟨c, x.1, by rw [hr, h2]⟩
    · have := epidemic_history cmds _ h
      exact ⟨by simp [this.1], this.2⟩
  | .notify _ :: cmds, t, ps, r, bp, a, h => by
    simp only [Spec.answered, List.mem_cons, Prod.mk.injEq, reduceCtorEq, false_and, false_or] at h
    have := epidemic_history cmds _ h
    exact ⟨by simp [this.1], this.2⟩
  | .command _ :: cmds, t, ps, r, bp, a, h => by
    simp only [Spec.answered, List.mem_cons, Prod.mk.injEq, reduceCtorEq, false_and, false_or] at h
    have := epidemic_history cmds _ h
    exact ⟨by simp [this.1], this.2⟩
  | .shutdown :: cmds, t, ps, r, bp, a, h => by
    simp only [Spec.answered, List.mem_cons, Prod.mk.injEq, reduceCtorEq, false_and, false_or] at h
    have := epidemic_history cmds _ h
    exact ⟨by simp [this.1], this.2⟩

/-- An answer of the static router. -/
theorem static_history (glob : String → String → Bool) (file : Option (List (List Char))) (ops : List StaticRouting.Op)
    {bp : Pack} {a : Answer} (h : (bp, some a) ∈ (StaticRouting.run glob (StaticRouting.start file) ops).log) :
    ∃ pre peers running later, ops = pre ++ .request peers running bp :: later ∧ ∃ log,
      (StaticRouting.run glob (StaticRouting.start file) (pre ++ [.request peers running bp])).log = log ++ [(bp, some a)] := by
  induction ops using List.reverseRecOn with
  | nil => cases file <;> simp [StaticRouting.run, StaticRouting.start] at h
  | append_singleton ops op ih =>
    by_cases ht : (bp, some a) ∈ (StaticRouting.run glob (StaticRouting.start file) ops).log
    · obtain ⟨pre, ps, r, later, h1, h2⟩ := ih ht
      exact ⟨pre, ps, r, later ++ [op], by rw [h1]; simp, h2⟩
    · have h' := h
      rw [StaticRouting.run_append] at h'
      change _ ∈ (StaticRouting.step glob (StaticRouting.run glob (StaticRouting.start file) ops) op).log at h'
      unfold StaticRouting.step at h'
      split at h'
      · simp [ht] at h'
      · exact absurd h' ht
      · rename_i rs ps r bp' hrs
        simp only [List.mem_append, ht, List.mem_singleton, Prod.mk.injEq, Option.some.injEq, false_or] at h'
        obtain ⟨rfl, rfl⟩ := h'
        refine ⟨ops, ps, r, [], rfl, (StaticRouting.run glob (StaticRouting.start file) ops).log, ?_⟩
        rw [StaticRouting.run_append]
        change (StaticRouting.step glob (StaticRouting.run glob (StaticRouting.start file) ops) _).log = _
        simp only [StaticRouting.step, hrs]
      · split at h'
        · split at h' <;> exact absurd h' ht
        · exact absurd h' ht
      · exact absurd h' ht
      · exact absurd h' ht

/-- The first of the routes that apply. -/
theorem exists_first (glob : String → String → Bool) (peers : List Peer) (running : List Cla) (bp : Pack) (rs : List Route)
    (h : ∃ r ∈ rs, Applies glob peers running bp r) : ∃ r, FirstRoute glob peers running bp rs r := by
  induction rs with
  | nil => simp at h
  | cons q rs ih =>
    by_cases hq : Applies glob peers running bp q
    · exact ⟨q, [], rs, rfl, hq, by simp⟩
    · obtain ⟨r, hr, ha⟩ := h
      rcases List.mem_cons.mp hr with rfl | hr
      · exact absurd ha hq
      · obtain ⟨r, pre, post, h1, h2, h3⟩ := ih ⟨r, hr, ha⟩
        exact ⟨r, q :: pre, post, by rw [h1]; rfl, h2, by simpa using ⟨hq, h3⟩⟩

/-- What the static router names lies along the first route. -/
theorem static_named {glob : String → String → Bool} {file : Option (List (List Char))} {sessions : List (List StaticRouting.Op)}
    {events : List Event} (router : RoutedByFile glob file sessions events) {bp : Pack} {a : Answer}
    (h : .asked bp (some a) ∈ events) :
    (a.clas = [] ∧ a.delete = false) ∨
      ∃ s, a = { clas := [s], delete := !bp.destination.isNonSingleton } ∧ AlongRoute glob file sessions bp s := by
  have hq : (bp, some a) ∈ questions events := List.mem_filterMap.mpr ⟨_, h, rfl⟩
  rw [← router] at hq
  obtain ⟨l, hl, hin⟩ := List.mem_flatten.mp hq
  obtain ⟨ops, hc, rfl⟩ := List.mem_map.mp hl
  obtain ⟨pre, peers, running, later, h1, log, h2⟩ := static_history glob file ops hin
  obtain ⟨rs, hrs, k1, k2⟩ := Props.C37_static_first_route glob file pre peers running bp log a h2
  by_cases hr : ∃ r ∈ rs, Applies glob peers running bp r
  · obtain ⟨r, hf⟩ := exists_first glob peers running bp rs hr
    obtain ⟨p, hp, s, hv, hs, ha⟩ := k1 r hf
    exact .inr ⟨s, ha, pre, later, peers, running, h1 ▸ hc, rs, r, hrs, hf, p, hp, hv, hs⟩
  · have := k2 fun r h1 h2 => hr ⟨r, h1, h2⟩
    exact .inl (by rw [this]; exact ⟨rfl, rfl⟩)

end Dtn.Proc
