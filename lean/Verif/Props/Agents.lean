import Verif.Lemmas.Agents
/-! Application endpoints (C25-C27). -/

namespace Dtn.Props
open Spec

/-- Example bundles and endpoints. -/
def agEid : EID := .dtn "node1" "in"
def agBundle (s : String) (dst : EID) : Bundle :=
  { primary := { bid := s, source := .dtn "node2" "out", destination := dst, reportTo := .none, creationTime := 5,
                 lifetime := 1000 }
    canonicals := [] }

/-- **C25.** While an endpoint stays registered, every bundle that arrived for it was given out through exactly one of
the delivery channel and `pop`, or is still waiting; what is popped comes out in the order of arrival, and what is still
waiting arrived after it. -/
theorem C25_agent_in_order_once (s : Apps) (e : EID) (ops : List Apps.Op)
    (hreg : ∃ a ∈ s.agents, a.eid = e) (hkeep : Apps.Op.unregister e ∉ ops) :
    Merge (pushedTo e (s.run ops)) (poppedFrom e (s.run ops) ++ waiting e (s.run ops))
      (pushedTo e s ++ poppedFrom e s ++ waiting e s ++ arrivals e ops) := by
  suffices h : (Registry.find (s.run ops).agents e).isSome = true ∧
      Merge (pushedTo e (s.run ops)) (poppedFrom e (s.run ops) ++ waiting e (s.run ops))
        (pushedTo e s ++ poppedFrom e s ++ waiting e s ++ arrivals e ops) from h.2
  induction ops using List.reverseRecOn with
  | nil =>
    refine ⟨?_, ?_⟩
    · rw [Registry.find_isSome]
      obtain ⟨a, ha, he⟩ := hreg
      exact List.mem_map.mpr ⟨a, ha, he⟩
    · simp only [Apps.run, List.foldl_nil, arrivals, List.append_nil, List.append_assoc]
      generalize pushedTo e s = xs
      induction xs with
      | nil => exact Merge.nil_left _
      | cons x xs ih => exact .left x ih
  | append_singleton ops op ih =>
    rw [Apps.run_snoc, arrivals_snoc, ← List.append_assoc]
    simp only [List.mem_append, List.mem_singleton, not_or] at hkeep
    obtain ⟨h1, h2⟩ := ih hkeep.1
    exact Apps.books_step op h1 (fun x => hkeep.2 x.symm) h2

/-- The hypotheses are met, and the three ways a bundle can go all occur. -/
example :
    let e := agEid
    let s := (Apps.mk MemStore.new [] [] []).run [.register e]
    let ops : List Apps.Op := [.deliver e (agBundle "1" e) true, .subscribe e 7, .deliver e (agBundle "2" e) true,
      .deliver e (agBundle "3" e) false, .pop e]
    (∃ a ∈ s.agents, a.eid = e) ∧ Apps.Op.unregister e ∉ ops ∧
    pushedTo e (s.run ops) = [agBundle "2" e] ∧ poppedFrom e (s.run ops) = [agBundle "1" e] ∧
    waiting e (s.run ops) = [agBundle "3" e] := by decide

/-- **C26.** After any history an endpoint is registered at most once, and it is registered exactly if the last
registration call for it was a `register`. -/
theorem C26_registration_unique (store : MemStore) (ops : List Apps.Op) (e : EID) :
    let s := (Apps.mk store [] [] []).run ops
    (s.agents.map AppAgent.eid).Nodup ∧
    (Registry.has s.agents e = true ↔ registered e ops.reverse = true) ∧
    ((Registry.find s.agents e).isSome = true ↔ registered e ops.reverse = true) := by
  intro s
  have h := Apps.mem_eids_run ops (Apps.mk store [] [] []) rfl e
  refine ⟨h.1, ?_, ?_⟩
  · rw [Registry.has_iff]; exact h.2
  · rw [Registry.find_isSome]; exact h.2

/-- **C26.** Registering an endpoint that is registered changes nothing: its agent, with the bundles still waiting and
its delivery channel, is kept; a new one starts out empty. -/
theorem C26_registration_idempotent (s : Apps) (e : EID) :
    (∀ a, Registry.find s.agents e = some a →
      s.step (.register e) = s) ∧
    (Registry.find s.agents e = none →
      Registry.find (s.step (.register e)).agents e = some { eid := e, queue := [], delivery := none } ∧
      (s.step (.register e)).store = s.store) ∧
    (∀ e', e' ≠ e → Registry.find (s.step (.register e)).agents e' = Registry.find s.agents e' ∧
      Registry.find (s.step (.unregister e)).agents e' = Registry.find s.agents e') := by
  refine ⟨?_, ?_, ?_⟩
  · intro a ha
    have hh : Registry.has s.agents e = true := by rw [Registry.has_iff, ← Registry.find_isSome, ha]; rfl
    have hr : Registry.register s.agents (AppAgent.with e) = s.agents := if_pos hh
    simp only [Apps.step, hr]
  · intro hn
    refine ⟨?_, rfl⟩
    simp only [Apps.step, Registry.find_register, AppAgent.with]
    rw [if_pos ⟨trivial, hn⟩]
  · intro e' hne
    refine ⟨?_, ?_⟩
    · simp only [Apps.step, Registry.find_register, AppAgent.with]
      rw [if_neg (fun h => hne h.1)]
    · simp only [Apps.step]
      exact Registry.find_unregister_ne _ hne

example :
    let e := agEid
    let s := (Apps.mk MemStore.new [] [] []).run [.register e, .deliver e (agBundle "1" e) true, .register (.ipn 5 1)]
    (∃ a, Registry.find s.agents e = some a ∧ a.queue ≠ []) ∧ Registry.find s.agents (.ipn 7 1) = none ∧
    registered e [Apps.Op.register (.ipn 5 1), .deliver e (agBundle "1" e) true, .register e] = true := by
  refine ⟨⟨{ eid := agEid, queue := [agBundle "1" agEid], delivery := none }, by decide, by decide⟩, by decide, by decide⟩

/-- C27: the endpoints that are no singletons are the groups, `dtn://node/~name`. -/
theorem C27_groups (e : EID) : e.isNonSingleton = true ↔ ∃ n s, e = .dtn n ("~" ++ s) := by
  cases e with
  | none => simp [EID.isNonSingleton]
  | ipn n s => simp [EID.isNonSingleton]
  | dtn n s =>
    simp only [EID.isNonSingleton, EID.dtn.injEq, beq_iff_eq]
    constructor
    · intro h
      cases hs : s.toList with
      | nil => rw [hs] at h; cases h
      | cons c cs =>
        rw [hs] at h
        cases h
        refine ⟨n, String.ofList cs, rfl, ?_⟩
        apply String.toList_injective
        rw [hs]
        simp
    · rintro ⟨m, t, -, rfl⟩
      simp

example : (EID.dtn "n1" "~news").isNonSingleton = true ∧ (EID.dtn "n1" "news").isNonSingleton = false ∧
    EID.none.isNonSingleton = false ∧ (EID.ipn 1 2).isNonSingleton = false := by decide

/-- **C27.** Whatever call is made, the store loses a bundle exactly when a client is given a bundle with a singleton
destination, and then exactly that one; every other call leaves the store as it is. -/
theorem C27_fetched_singleton_leaves_store (s : Apps) (inv : MemStore.Inv s.store) (op : Apps.Op) :
    (∀ b, Given s (s.step op) b →
      ∀ j, (s.step op).store.getBundle j =
        if j = b.id ∧ b.primary.destination.isNonSingleton = false then none else s.store.getBundle j) ∧
    ((∀ b, ¬ Given s (s.step op) b) → (s.step op).store = s.store) := by
  have key : ∀ b, ∀ j, (s.store.removeIfSingleton b).getBundle j =
        if j = b.id ∧ b.primary.destination.isNonSingleton = false then none else s.store.getBundle j := by
    intro b j
    unfold MemStore.removeIfSingleton
    cases hd : b.primary.destination.isNonSingleton
    · simp only [Bool.not_false, if_true, and_true]
      exact MemStore.getBundle_remove inv b.id j
    · simp
  have none_given : ∀ s' : Apps, s'.popped = s.popped → s'.pushed = s.pushed → s'.store = s.store →
      (∀ b, Given s s' b → ∀ j, s'.store.getBundle j =
        if j = b.id ∧ b.primary.destination.isNonSingleton = false then none else s.store.getBundle j) ∧
      ((∀ b, ¬ Given s s' b) → s'.store = s.store) := by
    intro s' h1 h2 h3
    refine ⟨?_, fun _ => h3⟩
    intro b hg
    rcases hg with ⟨e, h⟩ | ⟨e, c, h⟩
    · rw [h1] at h; exact absurd h (by simp)
    · rw [h2] at h; exact absurd h (by simp)
  cases op with
  | register e => exact none_given _ rfl rfl rfl
  | unregister e => exact none_given _ rfl rfl rfl
  | subscribe e c => exact none_given _ rfl rfl rfl
  | unsubscribe e => exact none_given _ rfl rfl rfl
  | deliver e b room =>
    simp only [Apps.step]
    cases hf : Registry.find s.agents e with
    | none => exact none_given _ rfl rfl rfl
    | some a =>
      simp only
      cases hp : (a.push b room).2 with
      | none => exact none_given _ rfl rfl rfl
      | some ch =>
        simp only
        refine ⟨?_, ?_⟩
        · intro b' hg
          rcases hg with ⟨e', h⟩ | ⟨e', c', h⟩
          · exact absurd h (by simp)
          · simp only [List.append_cancel_left_eq, List.cons.injEq, Prod.mk.injEq, and_true] at h
            obtain ⟨-, -, rfl⟩ := h
            exact key b
        · intro hn; exact absurd (Given.pushed e ch rfl) (hn b)
  | pop e =>
    simp only [Apps.step]
    cases hf : Registry.find s.agents e with
    | none => exact none_given _ rfl rfl rfl
    | some a =>
      simp only
      cases hp : a.pop.2 with
      | none => exact none_given _ rfl rfl rfl
      | some b =>
        simp only
        refine ⟨?_, ?_⟩
        · intro b' hg
          rcases hg with ⟨e', h⟩ | ⟨e', c', h⟩
          · simp only [List.append_cancel_left_eq, List.cons.injEq, Prod.mk.injEq, and_true] at h
            obtain ⟨-, rfl⟩ := h
            exact key b
          · exact absurd h (by simp)
        · intro hn; exact absurd (Given.popped e rfl) (hn b)

/-- A store with a bundle that is fetched, for a singleton and for a group destination. -/
example :
    let e := agEid
    let b := agBundle "1" e
    let g := agBundle "2" (.dtn "grp" "~all")
    let s := (Apps.mk ((MemStore.new.push 0 b).push 0 g) [] [] []).run
      [.register e, .deliver e b true, .deliver e g true]
    Given s (s.step (.pop e)) b ∧ s.store.getBundle "1" ≠ none ∧ (s.step (.pop e)).store.getBundle "1" = none ∧
    ((s.step (.pop e)).step (.pop e)).store.getBundle "2" = some g := by
  refine ⟨Given.popped agEid (by decide), by decide, by decide, by decide⟩

end Dtn.Props
