import Verif.Spec.Ws
import Verif.Lemmas.Agents
import Mathlib.Data.List.Induction

namespace Dtn.Ws
open Spec.WsSpec

/-- What matters of a session for commands. -/
def view (s : Session) : Bool × Mode × Option (List EID) := (s.alive, s.mode, s.endpoints)

def V (h : Hub) : List (Bool × Mode × Option (List EID)) := h.sessions.map view

def D (s : Apps) (e : EID) : Option Nat := (Registry.find s.agents e).bind (·.delivery)

theorem D_eq (h : Hub) (e) : deliveredTo h e = D h.apps e := by
  unfold deliveredTo D Registry.find
  congr 2; funext a; simp [eq_comm]

theorem D_pop (s : Apps) (e e') : D (s.step (.pop e)) e' = D s e' := by
  unfold D
  simp only [Apps.step]
  split
  · rfl
  · rename_i a ha
    have : ∀ st po, (Registry.find ({ s with agents := Registry.modify (fun a => a.pop.1) e s.agents, store := st, popped := po } : Apps).agents e').bind (·.delivery)
        = (Registry.find s.agents e').bind (·.delivery) := by
      intro st po
      dsimp only
      rw [Registry.find_modify _ _ _ _ (fun a => AppAgent.eid_pop a)]
      split
      · rename_i h; subst h
        rw [ha]; simp only [Option.map_some, Option.bind_some]
        unfold AppAgent.pop; split <;> rfl
      · rfl
    split
    · exact this _ _
    · exact this s.store s.popped

theorem D_deliver (s : Apps) (e b room e') : D (s.step (.deliver e b room)) e' = D s e' := by
  unfold D
  simp only [Apps.step]
  split
  · rfl
  · rename_i a ha
    have : ∀ st po, (Registry.find ({ s with agents := Registry.modify (fun a => (a.push b room).1) e s.agents, store := st, pushed := po } : Apps).agents e').bind (·.delivery)
        = (Registry.find s.agents e').bind (·.delivery) := by
      intro st po
      dsimp only
      rw [Registry.find_modify _ _ _ _ (fun a => AppAgent.eid_push a b room)]
      split
      · rename_i h; subst h
        rw [ha]; simp only [Option.map_some, Option.bind_some]
        unfold AppAgent.push; split
        · split <;> rfl
        · rfl
      · rfl
    split
    · exact this _ _
    · exact this s.store s.pushed

theorem D_subscribe (s : Apps) (e ch e') : D (s.step (.subscribe e ch)) e' =
    if e' = e ∧ e ∈ Registry.eids s.agents then some ch else D s e' := by
  unfold D
  simp only [Apps.step]
  rw [Registry.find_modify _ _ _ _ (fun a => AppAgent.eid_set a ch)]
  by_cases h : e' = e
  · subst h
    simp only [← Registry.find_isSome]
    cases Registry.find s.agents e' <;> simp [AppAgent.setDelivery]
  · simp [h]

theorem D_unsubscribe (s : Apps) (e e') : D (s.step (.unsubscribe e)) e' = if e' = e then none else D s e' := by
  unfold D
  simp only [Apps.step]
  rw [Registry.find_modify _ _ _ _ (fun a => AppAgent.eid_clear a)]
  by_cases h : e' = e
  · subst h
    cases Registry.find s.agents e' <;> simp [AppAgent.clearDelivery]
  · simp [h]

theorem D_register (s : Apps) (e e') : D (s.step (.register e)) e' = D s e' := by
  unfold D
  simp only [Apps.step]
  rw [Registry.find_register]
  split
  · rename_i h
    rw [h.2]; rfl
  · rfl

theorem D_unregister (s : Apps) (hn : (Registry.eids s.agents).Nodup) (e e') :
    D (s.step (.unregister e)) e' = if e' = e then none else D s e' := by
  unfold D
  simp only [Apps.step]
  by_cases h : e' = e
  · subst h
    rw [if_pos rfl]
    cases hf : Registry.find (Registry.unregister s.agents e') e' with
    | none => rfl
    | some a =>
      have : e' ∈ Registry.eids (Registry.unregister s.agents e') := by
        rw [← Registry.find_isSome, hf]; rfl
      rw [Registry.eids_unregister] at this
      exact absurd this (by rw [List.Nodup.mem_erase_iff hn]; simp)
  · rw [if_neg h, Registry.find_unregister_ne _ h]

theorem V_upd (h : Hub) (i f g) (hfg : ∀ s, view (f s) = g (view s)) : V (h.upd i f) = (V h).modify i g := by
  unfold V Hub.upd
  apply List.ext_getElem?
  intro j
  simp only [List.getElem?_map, List.getElem?_modify]
  cases h.sessions[j]? with
  | none => rfl
  | some s => simp only [Option.map_some]; split <;> simp [hfg]

theorem V_upd_id (h : Hub) (i f) (hf : ∀ s, view (f s) = view s) : V (h.upd i f) = V h := by
  rw [V_upd h i f id hf]
  apply List.ext_getElem?; intro j; simp only [List.getElem?_modify, id]
  cases (V h)[j]? <;> simp

theorem view_say (s : Session) (m) : view (s.say m) = view s := rfl

/-- `h'` differs from `h` in nothing that matters for commands. -/
structure Quiet (h h' : Hub) : Prop where
  v : V h' = V h
  d : ∀ e, D h'.apps e = D h.apps e
  ids : Registry.eids h'.apps.agents = Registry.eids h.apps.agents

theorem Quiet.rfl' {h : Hub} : Quiet h h := ⟨rfl, fun _ => rfl, rfl⟩
theorem Quiet.trans {a b c : Hub} (x : Quiet a b) (y : Quiet b c) : Quiet a c :=
  ⟨y.v.trans x.v, fun e => (y.d e).trans (x.d e), y.ids.trans x.ids⟩

theorem quiet_upd (h : Hub) (i f) (hf : ∀ s, view (f s) = view s) : Quiet h (h.upd i f) :=
  ⟨V_upd_id h i f hf, fun _ => rfl, rfl⟩

theorem quiet_pop (h : Hub) (e) : Quiet h { h with apps := h.apps.step (.pop e) } :=
  ⟨rfl, D_pop h.apps e, Apps.eids_step _ _⟩

theorem quiet_fetchOne (x i m h e) : Quiet h (fetchOne x i m h e) := by
  unfold fetchOne
  split
  · exact .rfl'
  · dsimp only
    split
    · exact quiet_pop _ _
    · exact (quiet_pop _ _).trans (quiet_upd _ _ _ fun _ => rfl)

theorem quiet_fetchNew (x i h) : Quiet h (fetchNew x i h) := by
  unfold fetchNew
  split
  · exact .rfl'
  · rename_i s _
    have : ∀ l h, Quiet h (List.foldl (fetchOne x i s.mode) h l) := by
      intro l
      induction l with
      | nil => intro h; exact .rfl'
      | cons e l ih => intro h; exact (quiet_fetchOne _ _ _ _ _).trans (ih _)
    exact this _ _

theorem quiet_binary (x h i s bin) : Quiet h (handleBinary x h i s bin) := by
  unfold handleBinary
  have sub : ∀ (b : Bundle) f, (∀ s, view (f s) = view s) →
      Quiet h (({ h with submitted := h.submitted ++ [b] } : Hub).upd i f) := fun b f hf =>
    Quiet.trans (b := { h with submitted := h.submitted ++ [b] }) ⟨rfl, fun _ => rfl, rfl⟩ (quiet_upd _ _ _ hf)
  split
  · split
    · exact sub _ _ fun _ => rfl
    · exact quiet_upd _ _ _ fun _ => rfl
  · split
    · split
      · exact sub _ _ fun _ => rfl
      · exact .rfl'
    · exact quiet_upd _ _ _ fun _ => rfl

theorem quiet_pump (x h i s) : Quiet h (pump x h i s) := by
  unfold pump
  split
  · exact .rfl'
  · exact quiet_upd _ _ _ fun _ => rfl

theorem quiet_deliver (h e b) : Quiet h (deliver h e b) := by
  unfold deliver
  split
  · exact .rfl'
  · dsimp only
    have q : ∀ room, Quiet h { h with apps := h.apps.step (.deliver e b room) } := fun room =>
      ⟨rfl, D_deliver h.apps e b room, Apps.eids_step _ _⟩
    split
    · exact (q _).trans (quiet_upd _ _ _ fun _ => rfl)
    · exact q _

/-- Subscribing. -/
structure Subs (h h' : Hub) (i : Nat) (e : EID) : Prop where
  v : V h' = (V h).modify i fun v => (v.1, v.2.1, some (if e ∈ v.2.2.getD [] then v.2.2.getD [] else v.2.2.getD [] ++ [e]))
  d : ∀ e', D h'.apps e' = if e' = e then some i else D h.apps e'
  ids : Registry.eids h'.apps.agents = Registry.eids h.apps.agents

theorem Subs.quiet {h h' h'' i e} (s : Subs h h' i e) (q : Quiet h' h'') : Subs h h'' i e :=
  ⟨q.v.trans s.v, fun e' => (q.d e').trans (s.d e'), q.ids.trans s.ids⟩

theorem subs_subscribeTo (h i e) (hr : e ∈ Registry.eids h.apps.agents) : Subs h (subscribeTo i e h) i e := by
  refine ⟨?_, ?_, ?_⟩
  · unfold subscribeTo
    rw [V_upd _ i _ (fun v => (v.1, v.2.1, some (if e ∈ v.2.2.getD [] then v.2.2.getD [] else v.2.2.getD [] ++ [e])))
      (fun s => rfl)]
    rfl
  · intro e'
    have := D_subscribe h.apps e i e'
    simp only [hr, and_true] at this
    exact this
  · exact Apps.eids_step h.apps (.subscribe e i)

theorem subscribe_cases (x host h i arg) :
    (∃ e, meant x host arg = some e ∧ e ∈ Registry.eids h.apps.agents ∧ Subs h (subscribe x host h i arg) i e) ∨
    ((∀ e, meant x host arg = some e → e ∉ Registry.eids h.apps.agents) ∧ Quiet h (subscribe x host h i arg)) := by
  cases arg with
  | none => exact Or.inr ⟨fun e he => (by simp [meant] at he), quiet_upd _ _ _ fun _ => rfl⟩
  | some a =>
    unfold subscribe meant
    dsimp only
    cases hp : x.parseEid a with
    | some e =>
      dsimp only
      by_cases hr : e ∈ Registry.eids h.apps.agents
      · left
        rw [if_pos ((Registry.has_iff _ _).mpr hr)]
        exact ⟨e, rfl, hr, (subs_subscribeTo _ _ _ hr).quiet (quiet_fetchNew _ _ _)⟩
      · right
        rw [if_neg (fun hh => hr ((Registry.has_iff _ _).mp hh))]
        exact ⟨fun e' he => by simp at he; subst he; exact hr, quiet_upd _ _ _ fun _ => rfl⟩
    | none =>
      dsimp only
      simp only [Option.none_or]
      cases hn : x.newEndpoint host a with
      | none => exact Or.inr ⟨fun e he => (by simp at he), quiet_upd _ _ _ fun _ => rfl⟩
      | some e =>
        dsimp only
        by_cases hr : e ∈ Registry.eids h.apps.agents
        · left
          have := (Registry.find_isSome _ _).mpr hr
          rw [if_neg (by rw [Option.isNone_iff_eq_none]; intro hh; rw [hh] at this; cases this)]
          exact ⟨e, rfl, hr, subs_subscribeTo _ _ _ hr⟩
        · right
          rw [if_pos (by
            rw [Option.isNone_iff_eq_none]
            cases hf : Registry.find h.apps.agents e with
            | none => rfl
            | some a => exact absurd ((Registry.find_isSome _ _).mp (by rw [hf]; rfl)) hr)]
          exact ⟨fun e' he => by simp at he; subst he; exact hr, quiet_upd _ _ _ fun _ => rfl⟩

/-- Unsubscribing. -/
structure Unsubs (h h' : Hub) (i : Nat) (e : EID) : Prop where
  v : V h' = (V h).modify i fun v => (v.1, v.2.1, v.2.2.map fun l => l.filter fun e' => e' ≠ e)
  d : ∀ e', D h'.apps e' = if e' = e then none else D h.apps e'
  ids : Registry.eids h'.apps.agents = Registry.eids h.apps.agents

theorem unsubscribe_cases (x h i s arg) :
    (∃ a e, arg = some a ∧ x.parseEid a = some e ∧ s.endpoints.isSome = true ∧ Unsubs h (unsubscribe x h i s arg) i e) ∨
    ((∀ a e, arg = some a → x.parseEid a = some e → s.endpoints = none) ∧ Quiet h (unsubscribe x h i s arg)) := by
  cases arg with
  | none => exact Or.inr ⟨fun _ _ h => (by cases h), .rfl'⟩
  | some a =>
    unfold unsubscribe
    dsimp only
    cases hp : x.parseEid a with
    | none => exact Or.inr ⟨fun _ _ h h' => (by cases h; rw [hp] at h'; cases h'), quiet_upd _ _ _ fun _ => rfl⟩
    | some e =>
      dsimp only
      by_cases hs : s.endpoints.isSome = true
      · left
        rw [if_pos hs]
        refine ⟨a, e, rfl, hp, hs, ?_, ?_, ?_⟩
        · rw [V_upd _ i _ (fun v => (v.1, v.2.1, v.2.2.map fun l => l.filter fun e' => e' ≠ e)) (fun s => rfl)]
          rfl
        · exact D_unsubscribe h.apps e
        · exact Apps.eids_step h.apps (.unsubscribe e)
      · right
        rw [if_neg hs]
        exact ⟨fun _ _ _ _ => by simpa using hs, quiet_upd _ _ _ fun _ => rfl⟩

/-- The end of a session. -/
structure Ends (h h' : Hub) (i : Nat) (l : List EID) : Prop where
  v : V h' = (V h).modify i fun v => (false, v.2)
  d : ∀ e', D h'.apps e' = if e' ∈ l then none else D h.apps e'
  ids : Registry.eids h'.apps.agents = Registry.eids h.apps.agents

theorem clear_foldl (l : List EID) (h : Hub) :
    (l.foldl (fun h e => { h with apps := h.apps.step (.unsubscribe e) }) h).sessions = h.sessions ∧
    (∀ e', D (l.foldl (fun h e => { h with apps := h.apps.step (.unsubscribe e) } : Hub → EID → Hub) h).apps e' =
      if e' ∈ l then none else D h.apps e') ∧
    Registry.eids (l.foldl (fun h e => { h with apps := h.apps.step (.unsubscribe e) } : Hub → EID → Hub) h).apps.agents =
      Registry.eids h.apps.agents ∧
    (l.foldl (fun h e => { h with apps := h.apps.step (.unsubscribe e) } : Hub → EID → Hub) h).apps.pushed = h.apps.pushed := by
  induction l generalizing h with
  | nil => exact ⟨rfl, fun _ => by simp, rfl, rfl⟩
  | cons e l ih =>
    obtain ⟨h1, h2, h3, h4⟩ := ih { h with apps := h.apps.step (.unsubscribe e) }
    refine ⟨h1, ?_, h3.trans (Apps.eids_step h.apps (.unsubscribe e)), h4⟩
    intro e'
    rw [List.foldl_cons, h2 e']
    dsimp only
    rw [D_unsubscribe]
    by_cases h5 : e' ∈ l <;> by_cases h6 : e' = e <;> simp [h5, h6]

theorem ends_endSession (h i s) : Ends h (endSession h i s) i (s.endpoints.getD []) := by
  obtain ⟨h1, h2, h3, -⟩ := clear_foldl (s.endpoints.getD []) h
  refine ⟨?_, h2, h3⟩
  unfold endSession
  dsimp only
  rw [V_upd _ i _ (fun v => (false, v.2)) (fun s => rfl)]
  unfold V; rw [h1]

theorem live_eq (h : Hub) (i f) : (∃ s, h.sessions[i]? = some s ∧ s.alive = true ∧ h.live i f = f s) ∨
    ((∀ s, h.sessions[i]? = some s → s.alive = false) ∧ h.live i f = h) := by
  unfold Hub.live
  cases hs : h.sessions[i]? with
  | none => exact Or.inr ⟨fun _ h => (by cases h), rfl⟩
  | some s =>
    cases ha : s.alive with
    | true => exact Or.inl ⟨s, rfl, ha, by simp [ha]⟩
    | false => exact Or.inr ⟨fun s' h => (by cases h; exact ha), by simp [ha]⟩

theorem run_snoc (x host h evs ev) : run x host h (evs ++ [ev]) = step x host (run x host h evs) ev := by
  simp [run, List.foldl_append]

end Dtn.Ws
