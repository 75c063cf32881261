import Verif.Lemmas.SetupOptions
import Verif.Lemmas.Agents
/-! Lemmas about the start of the daemon. -/

namespace Dtn.Setup
open Discovery (Outcome)
open Spec.SetupSpec
open Spec.PeerUrlSpec (layers)

set_option linter.unusedSectionVars false
variable {A : Type} [DecidableEq A]

theorem port_ok {m : AList Text Text} {d : Nat} (h : ∀ t, AList.get? m "port".toList = some t → ∃ p, IsPort t p) :
    (∀ t, AList.get? m "port".toList = some t → IsPort t (portSetting m d)) ∧
      (AList.get? m "port".toList = none → portSetting m d = d) := by
  unfold portSetting
  constructor
  · intro t ht
    obtain ⟨p, hp, rfl⟩ := h t ht
    rw [ht]
    simp only [Option.bind_some]
    rw [Routing.StaticRouting.parseU16_toString p (by omega)]
    exact ⟨hp, rfl⟩
  · intro hn
    rw [hn]; rfl

theorem parseBool_ok {t : Text} {b : Bool} (h : parseBool t = some b) : t = (toString b).toList := by
  unfold parseBool at h
  split at h
  · cases h; rename_i ht; rw [ht]; rfl
  · split at h
    · cases h; rename_i ht; rw [ht]; rfl
    · cases h

theorem newCla_runs {cfg : Config} {c : Text × AList Text Text} {r : Cla} (hn : newCla cfg c = .ok r)
    (h : ∀ t, AList.get? c.2 "port".toList = some t → ∃ p, IsPort t p) : Runs cfg.webport c.1 (AList.get? c.2) r := by
  obtain ⟨n, m⟩ := c
  unfold newCla at hn
  dsimp only at hn h ⊢
  split at hn
  · rename_i e
    subst e
    unfold newExternal at hn
    obtain ⟨port, h1, hn⟩ := andThen_ok hn
    unfold readable at h1
    obtain ⟨d, h2, hn⟩ := andThen_ok hn
    unfold readable at h2
    obtain ⟨name, h3, hn⟩ := andThen_ok hn
    cases hn
    refine .external _ name port d (unwrap_ok h3) ?_ ?_ ?_ ?_
    · intro t ht
      rw [ht] at h1
      obtain ⟨p, hp, rfl⟩ := h t ht
      have := unwrap_ok h1
      rw [Routing.StaticRouting.parseU16_toString p (by omega)] at this
      cases this
      exact ⟨hp, rfl⟩
    · intro hn; rw [hn] at h1; cases h1; rfl
    · intro t ht
      rw [ht] at h2
      exact parseBool_ok (unwrap_ok h2)
    · intro hn; rw [hn] at h2; cases h2; rfl
  split at hn
  · rename_i e; cases e; cases hn; exact .mtcp _ _ (port_ok h).1 (port_ok h).2
  split at hn
  · rename_i e; cases e; cases hn; exact .udp _ _ (port_ok h).1 (port_ok h).2
  split at hn
  · rename_i e; cases e; cases hn; exact .tcp _ _ (port_ok h).1 (port_ok h).2
  split at hn
  · rename_i e; cases e; cases hn; exact .http _
  split at hn
  · rename_i e; cases e; cases hn; exact .httppull _
  split at hn
  · rename_i e; cases e; cases hn; exact .dummy _
  · cases hn

theorem clas_started {l : List (Text × AList Text Text)} {d e : Daemon} (h : each startCla d l = .ok e) :
    e = { d with clas := e.clas, refuse := e.refuse } ∧ ∃ r, e.clas = d.clas ++ r ∧ Both (fun c x => newCla d.cfg c = .ok x) l r ∧
      e.refuse = d.refuse ++ l.map (refuseSetting d.cfg) := by
  induction l generalizing d with
  | nil => cases h; exact ⟨rfl, [], by simp, .nil, by simp⟩
  | cons c l ih =>
    obtain ⟨f, h1, h2⟩ := andThen_ok h
    unfold startCla at h1
    obtain ⟨x, hx, h1⟩ := andThen_ok h1
    cases h1
    obtain ⟨i1, r, i2, i3, i4⟩ := ih h2
    dsimp only at i1 i2 i3 i4
    exact ⟨i1, x :: r, by rw [i2]; simp, .cons hx i3, by rw [i4]; simp⟩

theorem peers_started {l : List Peer} {d e : Daemon} (h : each startPeer d l = .ok e) :
    e = { d with peers := e.peers } ∧ ∀ n, AList.get? e.peers n = (l.reverse.find? fun p => p.eid.node = some n).or (AList.get? d.peers n) := by
  induction l generalizing d with
  | nil => cases h; exact ⟨rfl, by simp⟩
  | cons p l ih =>
    obtain ⟨f, h1, h2⟩ := andThen_ok h
    unfold startPeer at h1
    obtain ⟨x, hx, h1⟩ := andThen_ok h1
    cases h1
    obtain ⟨i1, i2⟩ := ih h2
    refine ⟨i1, ?_⟩
    intro n
    have hx := unwrap_ok hx
    unfold Peers.add at hx
    split at hx
    · cases hx
    · rename_i m hm
      cases hx
      rw [i2]
      simp only [List.reverse_cons, List.find?_append]
      cases l.reverse.find? (fun p => decide (p.eid.node = some n)) with
      | some q => rfl
      | none =>
        simp only [Option.none_or, List.find?_cons, List.find?_nil]
        rw [AList.get?_insert, hm]
        by_cases hn : n = m
        · subst hn; simp
        · have : ¬ m = n := fun e => hn e.symm
          simp [hn, this]

/-- Agents with different endpoints, nothing delivered yet. -/
structure Fresh (r : Registry) : Prop where
  once : (r.map (·.eid)).Nodup
  empty : ∀ g ∈ r, g.queue = [] ∧ g.delivery = none

theorem Fresh.register {r : Registry} (h : Fresh r) (e : EID) : Fresh (Registry.register r (AppAgent.with e)) := by
  unfold Registry.register
  split
  · exact h
  · rename_i hn
    refine ⟨?_, ?_⟩
    · rw [List.map_append, List.nodup_append]
      refine ⟨h.once, by simp, ?_⟩
      intro a ha b hb
      simp only [List.map_cons, List.map_nil, List.mem_singleton] at hb
      subst hb
      rintro rfl
      obtain ⟨g, hg, he⟩ := List.mem_map.mp ha
      apply hn
      unfold Registry.has
      rw [List.any_eq_true]
      exact ⟨g, hg, by simp [he, AppAgent.with]⟩
    · intro g hg
      rcases List.mem_append.mp hg with hg | hg
      · exact h.empty g hg
      · simp only [List.mem_singleton] at hg
        subst hg
        exact ⟨rfl, rfl⟩

theorem mem_register (r : Registry) (e x : EID) :
    (∃ g ∈ Registry.register r (AppAgent.with e), g.eid = x) ↔ (∃ g ∈ r, g.eid = x) ∨ x = e := by
  unfold Registry.register
  split
  · rename_i hn
    constructor
    · exact Or.inl
    · rintro (h | rfl)
      · exact h
      · unfold Registry.has at hn
        rw [List.any_eq_true] at hn
        obtain ⟨g, hg, he⟩ := hn
        exact ⟨g, hg, by simpa [AppAgent.with] using (of_decide_eq_true he).symm⟩
  · constructor
    · rintro ⟨g, hg, he⟩
      rcases List.mem_append.mp hg with hg | hg
      · exact Or.inl ⟨g, hg, he⟩
      · simp only [List.mem_singleton] at hg
        subst hg
        exact Or.inr he.symm
    · rintro (⟨g, hg, he⟩ | rfl)
      · exact ⟨g, by simp [hg], he⟩
      · exact ⟨AppAgent.with x, by simp, rfl⟩

theorem endpoints_started {env : Env A} {l : List String} {d e : Daemon} (hf : Fresh d.agents) (h : each (startEndpoint env) d l = .ok e) :
    e = { d with agents := e.agents } ∧ Fresh e.agents ∧
      ∀ x, (∃ g ∈ e.agents, g.eid = x) ↔ (∃ g ∈ d.agents, g.eid = x) ∨ ∃ t ∈ l, Endpoint env d.cfg.host t x := by
  induction l generalizing d with
  | nil => cases h; exact ⟨rfl, hf, by simp⟩
  | cons t l ih =>
    obtain ⟨f, h1, h2⟩ := andThen_ok h
    unfold startEndpoint at h1
    obtain ⟨y, hy, h1⟩ := andThen_ok h1
    cases h1
    obtain ⟨i1, i2, i3⟩ := ih (hf.register y) h2
    refine ⟨i1, i2, ?_⟩
    intro x
    rw [i3]
    dsimp only
    rw [mem_register]
    have hx : x = y ↔ Endpoint env d.cfg.host t x := by
      unfold Endpoint
      cases he : env.eid t with
      | some z =>
        rw [he] at hy
        cases hy
        simp only [Option.some.injEq, reduceCtorEq, false_and, or_false]
        exact eq_comm
      | none =>
        rw [he] at hy
        have := unwrap_ok hy
        rw [this]
        simp only [Option.some.injEq, reduceCtorEq, true_and, false_or]
        exact eq_comm
    rw [hx]
    simp only [List.mem_cons, exists_eq_or_imp]
    exact or_assoc

theorem Both.imp {α β : Type} {R S : α → β → Prop} {as : List α} {bs : List β} (h : Both R as bs)
    (hi : ∀ a ∈ as, ∀ b, R a b → S a b) : Both S as bs := by
  induction h with
  | nil => exact .nil
  | cons hr _ ih => exact .cons (hi _ (by simp) _ hr) (ih fun a ha => hi a (by simp [ha]))

/-- When does the daemon start. -/
theorem start_ok {env : Env A} {cfg : Config} {d : Daemon} (h : startDtnd env cfg = .ok d) :
    Running env cfg d ∧ d.refuse = cfg.clas.map (refuseSetting cfg) := by
  unfold startDtnd at h
  split at h
  · cases h
  rename_i hdb
  split at h
  · cases h
  rename_i hr
  obtain ⟨d1, h1, h⟩ := andThen_ok h
  obtain ⟨d2, h2, h⟩ := andThen_ok h
  obtain ⟨d3, h3, h⟩ := andThen_ok h
  cases h
  obtain ⟨a1, r, a2, a3, a4⟩ := clas_started h1
  obtain ⟨b1, b2⟩ := peers_started h2
  have hd1 : d1.agents = [] := by rw [a1]
  have hd2 : d2.agents = [] := by rw [b1]; exact hd1
  have hf : Fresh (Registry.register d2.agents (AppAgent.with cfg.host)) := by
    rw [hd2]
    exact Fresh.register ⟨by simp, by simp⟩ _
  obtain ⟨c1, c2, c3⟩ := endpoints_started hf h3
  have hc : d2.cfg = cfg := by rw [b1, a1]
  refine ⟨⟨⟨?_, ?_⟩, ⟨?_, ?_⟩, ?_, c2.once, c2.empty, ?_, ?_, ?_, ?_, rfl⟩, ?_⟩
  · rw [c1, b1, a1]
  · exact Decidable.of_not_not hdb
  · rw [c1, b1, a1]
  · exact Decidable.of_not_not hr
  · intro e
    dsimp only
    rw [c3]
    dsimp only
    rw [mem_register, hd2, hc]
    simp
  · intro n
    dsimp only
    rw [c1]
    dsimp only
    rw [b2, a1]
    simp
  · intro hp
    dsimp only
    rw [c1]
    dsimp only
    rw [b1]
    dsimp only
    rw [a2]
    simp only [List.nil_append]
    exact Both.imp a3 fun c hc x hx => newCla_runs hx (hp c hc)
  · simp
  · simp
  · rw [c1]
    dsimp only
    rw [b1]
    dsimp only
    rw [a4]
    simp

theorem each_ok {α β : Type} {f : β → α → Outcome β} (P : β → Prop) {l : List α} (hs : ∀ b a, P b → a ∈ l → ∃ c, f b a = .ok c ∧ P c)
    {b : β} (hb : P b) : ∃ c, each f b l = .ok c ∧ P c := by
  induction l generalizing b with
  | nil => exact ⟨b, rfl, hb⟩
  | cons a l ih =>
    obtain ⟨c, hc, hp⟩ := hs b a hb (by simp)
    obtain ⟨d, hd⟩ := ih (fun b x hb hx => hs b x hb (by simp [hx])) hp
    refine ⟨d, ?_, hd.2⟩
    simp only [each, hc, andThen]
    exact hd.1

end Dtn.Setup
