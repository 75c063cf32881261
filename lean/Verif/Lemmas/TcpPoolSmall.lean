import Verif.Lemmas.TcpPoolMoves
/-! The channels of the layer `tcp` hold no more than they have room for. -/

namespace Dtn.TcpPool
open Dtn.Tcpcl
variable {A : Type} [DecidableEq A]

/-- Nothing holds more than it has room for. -/
def Small (s : State A) : Prop := s.queue.length ≤ capacity ∧ ∀ k ∈ s.chans, k.entered.length ≤ k.taken + capacity

theorem mem_modify {α : Type} {l : List α} {c : Nat} {f : α → α} {x : α} (h : x ∈ l.modify c f) : x ∈ l ∨ ∃ y, l[c]? = some y ∧ x = f y := by
  obtain ⟨i, hi⟩ := List.mem_iff_getElem?.mp h
  rw [List.getElem?_modify] at hi
  cases hy : l[i]? with
  | none => rw [hy] at hi; cases hi
  | some y =>
    rw [hy] at hi
    simp only [Option.map_eq_map, Option.map_some, Option.some.injEq] at hi
    by_cases hc : c = i
    · rw [if_pos hc] at hi
      exact .inr ⟨y, hc ▸ hy, hi.symm⟩
    · rw [if_neg hc] at hi
      exact .inl (hi ▸ List.mem_of_getElem? hy)

omit [DecidableEq A] in
theorem Small.same {s t : State A} (h : Small s) (hq : t.queue = s.queue) (hc : t.chans = s.chans) : Small t := by
  unfold Small at *; rw [hq, hc]; exact h

omit [DecidableEq A] in
/-- A change of one channel. -/
theorem Small.chan {s t : State A} (h : Small s) {c : Nat} {f : Chan A → Chan A} (hq : t.queue = s.queue)
    (hc : t.chans = s.chans.modify c f)
    (hf : ∀ k, s.chans[c]? = some k → k.entered.length ≤ k.taken + capacity → (f k).entered.length ≤ (f k).taken + capacity) : Small t := by
  refine ⟨by rw [hq]; exact h.1, fun k hk => ?_⟩
  rw [hc] at hk
  rcases mem_modify hk with hk | ⟨y, h1, rfl⟩
  · exact h.2 k hk
  · exact hf y h1 (h.2 y (List.mem_of_getElem? h1))

theorem Small.close {s : State A} (h : Small s) (c : Nat) : Small (s.close c) := h.chan rfl rfl fun _ _ h => h

theorem Small.open {s : State A} (h : Small s) (a : A) (b : Bool) (st : Stage) : Small (s.open a b st) := by
  refine ⟨h.1, fun k hk => ?_⟩
  rcases List.mem_append.mp hk with hk | hk
  · exact h.2 k hk
  · rw [List.mem_singleton] at hk; subst hk; exact Nat.zero_le _

theorem Small.settle {s : State A} (h : Small s) (c : Nat) (k : Chan A) (old new : Sess) : Small (s.settle c k old new) := by
  unfold State.settle
  have key : ∀ (l : List (Nat × TransferResult)) (s : State A), Small s → Small (l.foldl (fun s x =>
      match k.entered[x.1]? with
      | some i => s.goto i (.done (answerOf x.2))
      | none => s) s) := by
    intro l
    induction l with
    | nil => exact fun _ h => h
    | cons x l ih =>
      intro s h
      rw [List.foldl_cons]
      refine ih _ ?_
      split
      · exact h.same rfl rfl
      · exact h
  dsimp only
  split
  · exact (key _ _ h).close c
  · exact key _ _ h

theorem Small.session {cfg : Cfg A} {s t : State A} (h : Small s) {c : Nat} {k : Chan A} {has : Bytes → Bool} {ev : Sess.Ev}
    (ht : s.session cfg c k has ev = some t) : Small t := by
  unfold State.session at ht
  split at ht
  · rw [Option.some.injEq] at ht
    subst ht
    refine Small.settle ?_ _ _ _ _
    first
      | exact h.same rfl rfl
      | refine Small.chan h (c := c) (f := _) rfl rfl ?_
        exact fun _ _ h => h
  · cases ht

theorem Small.next {cfg : Cfg A} {s t : State A} (h : Small s) {c : Nat} (ht : s.next cfg c = some t) : Small t := by
  unfold State.next at ht
  split at ht
  · cases ht
  · split at ht
    · split at ht
      · cases ht
      · split at ht
        · refine Small.session ?_ ht
          refine Small.chan h (c := c) (f := fun k => { k with taken := k.taken + 1 }) rfl rfl ?_
          intro k _ h
          show k.entered.length ≤ k.taken + 1 + capacity
          omega
        · cases ht
    · cases ht

theorem Small.go {cfg : Cfg A} {s t : State A} (h : Small s) {i : Nat} {r : Req A} {ok : Bool} (ht : s.go cfg i r ok = some t) : Small t := by
  unfold State.go at ht
  split at ht
  · split at ht
    · rw [Option.some.injEq] at ht; subst ht; exact h.same rfl rfl
    · split at ht
      · rw [Option.some.injEq] at ht; subst ht; exact h.same rfl rfl
      · rw [Option.some.injEq] at ht; subst ht; exact (h.open _ _ _).same rfl rfl
  · split at ht
    · rw [Option.some.injEq] at ht; subst ht; exact h.chan rfl rfl fun _ _ h => h
    · rw [Option.some.injEq] at ht; subst ht; exact Small.close (h.same rfl rfl) _
  · split at ht
    · cases ht
    · rename_i k hk
      split at ht
      · rw [Option.some.injEq] at ht; subst ht; exact h.same rfl rfl
      · split at ht
        · rename_i hroom
          rw [Option.some.injEq] at ht; subst ht
          refine h.chan rfl rfl fun k' hk' _ => ?_
          rw [hk, Option.some.injEq] at hk'
          subst hk'
          simp only [List.length_append, List.length_singleton]
          omega
        · cases ht
  · cases ht

theorem Small.begun {cfg : Cfg A} {s : State A} (h : Small s) (c : Nat) (k : Chan A) (r : SessInit) (known : Bool) :
    Small (s.begun cfg c k r known) := by
  unfold State.begun
  dsimp only
  split
  · exact h.close c
  · split
    · exact h.chan rfl rfl fun _ _ h => h
    · split
      · exact h.close c
      · split
        · exact h.chan rfl rfl fun _ _ h => h
        · exact Small.chan (s := { s with met := _ }) (h.same rfl rfl) rfl rfl fun _ _ h => h

theorem Small.step {cfg : Cfg A} {s t : State A} (h : Small s) {e : Ev A} (ht : step cfg s e = some t) : Small t := by
  cases e with
  | request dest data =>
    simp only [TcpPool.step] at ht
    split at ht
    · rw [Option.some.injEq] at ht; subst ht; exact h.same rfl rfl
    · split at ht
      · rename_i hroom
        rw [Option.some.injEq] at ht; subst ht
        exact ⟨by show (s.queue ++ [_]).length ≤ _; rw [List.length_append, List.length_singleton]; omega, h.2⟩
      · cases ht
  | shutdown =>
    simp only [TcpPool.step] at ht
    split at ht
    · rename_i hroom
      simp only [Bool.and_eq_true, decide_eq_true_eq] at hroom
      rw [Option.some.injEq] at ht; subst ht
      exact ⟨by show (s.queue ++ [_]).length ≤ _; rw [List.length_append, List.length_singleton]; omega, h.2⟩
    · cases ht
  | take =>
    simp only [TcpPool.step, State.take] at ht
    split at ht
    · cases ht
    · split at ht
      · cases ht
      · rw [Option.some.injEq] at ht; subst ht; exact ⟨Nat.zero_le _, h.2⟩
      · rename_i i q hq
        rw [Option.some.injEq] at ht; subst ht
        refine ⟨?_, h.2⟩
        have := h.1
        rw [hq, List.length_cons] at this
        show q.length ≤ _
        omega
  | go i ok =>
    simp only [TcpPool.step] at ht
    split at ht
    · cases ht
    · exact h.go ht
  | accept a =>
    simp only [TcpPool.step, Option.some.injEq] at ht
    subst ht; exact h.open _ _ _
  | contact c ok =>
    simp only [TcpPool.step] at ht
    split at ht
    · cases ht
    · split at ht
      · rw [Option.some.injEq] at ht; subst ht
        split
        · exact h.chan rfl rfl fun _ _ h => h
        · exact h.close c
      · cases ht
  | params c r known =>
    simp only [TcpPool.step] at ht
    split at ht
    · cases ht
    · split at ht
      · rw [Option.some.injEq] at ht; subst ht
        split
        · exact h.close c
        · exact h.begun _ _ _ _
      · cases ht
  | next c => exact h.next ht
  | message c has p =>
    simp only [TcpPool.step] at ht
    split at ht
    · cases ht
    · exact h.session ht
  | timeout c =>
    simp only [TcpPool.step] at ht
    split at ht
    · cases ht
    · exact h.session ht
  | lost c =>
    simp only [TcpPool.step] at ht
    split at ht
    · cases ht
    · exact h.session ht
  | closed c =>
    simp only [TcpPool.step] at ht
    split at ht
    · cases ht
    · split at ht
      · exact h.session ht
      · cases ht

theorem Small.run {cfg : Cfg A} {es : List (Ev A)} : ∀ {s t : State A}, Small s → run cfg s es = some t → Small t := by
  induction es with
  | nil => intro s t h ht; cases ht; exact h
  | cons e es ih =>
    intro s t h ht
    simp only [TcpPool.run] at ht
    cases hs : TcpPool.step cfg s e with
    | none => rw [hs] at ht; cases ht
    | some u => rw [hs] at ht; exact ih (h.step hs) ht

end Dtn.TcpPool
