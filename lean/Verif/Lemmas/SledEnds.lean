import Verif.Lemmas.SledCalm
import Verif.Spec.SledEnds
/-! Nobody waits in vain, with the persistent store: after a restart, the tasks of the process that was stopped count as tasks that
never make a step again. -/

namespace Dtn.OnSled
open Proc Spec

theorem served_other {s t : Followed} (h : Served s) (st : SledOtherStep s t) : Served t := by
  cases st with
  | before own b l r p n n' ps st => exact h.other (.before own b l r p n n' ps st)
  | after a own l r p n n' ps st => exact h.other (.after a own l r p n n' ps st)
  | call n a own b c =>
    obtain ⟨O, O', da, dm, db, hdis, hlt, ha, hm, hb, hr, hO, hO'⟩ := h
    refine ⟨O, O', da, dm, db + 0, hdis, hlt, ha, hm, hb.append ?_, hr, hO, hO'⟩
    exact .cons (owes_task c _ _) .nil
  | change n n' a own b st => exact h.other (.change n n' a own b st)

theorem served_follows {s t : Followed} (hs : Served s) (h : SledFollows s t) : Served t := by
  induction h with
  | refl => exact hs
  | own _ st ih => exact ih.own st
  | other _ st ih => exact served_other ih st

/-- The node is changed, but not its groups of transfers. -/
theorem served_groups {n m : Node} {a own b : List Prog} (hg : m.groups = n.groups) (h : Served ⟨n, a, own, b⟩) : Served ⟨m, a, own, b⟩ := by
  obtain ⟨O, O', da, dm, db, hdis, hlt, ha, hm, hb, hr, hO, hO'⟩ := h
  have hk := keep_of_groups hg
  dsimp only at *
  refine ⟨O, O', da, dm, db, hdis, ?_, ?_, ?_, ?_, ?_, hO, hO'⟩
  · dsimp only at *; rw [hk.1]; exact hlt
  · dsimp only at *; rw [hk.1]; exact ha
  · dsimp only at *; rw [hk.1]; exact hm
  · dsimp only at *; rw [hk.1]; exact hb
  · dsimp only at *; intro g; rw [hk.2]; exact hr g

/-- All tasks are left aside. -/
theorem served_dead {n : Node} {dead tasks : List Prog} (h : Served ⟨n, dead, tasks, []⟩) : Served ⟨n, dead ++ tasks, [], []⟩ := by
  obtain ⟨O, O', da, dm, db, h1, h2, h3, h4, h5, h6, h7, h8⟩ := h
  cases h5
  dsimp only at *
  refine ⟨fun _ => False, fun g => O g ∨ O' g, da + dm, 0, 0, fun _ h _ => h, fun g h => h2 g (h.resolve_left id),
    (h3.mono (Nat.le_refl _) fun g h => .inr h).append (h4.mono (Nat.le_refl _) fun g h => .inl h), .nil, .nil, fun g => ?_, fun g h => absurd rfl h, fun g h => ?_⟩
  · have := h6 g; simpa using this
  · rcases h with h | h
    · simp only [Pi.add_apply] at h
      by_cases hd : dm g = 0
      · exact .inr (h8 g (.inl (by omega)))
      · exact .inl (h7 g hd)
    · exact absurd rfl h

/-- What holds in all states, with tasks of earlier processes. -/
theorem served_reaches {cfg : Config} {clock : Nat} {s : Sys} (h : Reaches ⟨Node.start cfg clock, []⟩ s) : ∃ dead, Served ⟨s.node, dead, s.pool, []⟩ := by
  induction h with
  | refl =>
    exact ⟨[], fun _ => False, fun _ => False, 0, 0, 0, fun _ h _ => h, fun _ h => by cases h <;> contradiction, .nil, .nil, .nil,
      fun g => by unfold running Node.start; simp, fun g h => absurd rfl h, fun g h => by cases h <;> contradiction⟩
  | step _ st ih =>
    obtain ⟨dead, ih⟩ := ih
    cases st with
    | task l r p n n' ps h => exact ⟨dead, ih.own (.mk _ _ _ _ _ _ _ _ h)⟩
    | call n pool c =>
      obtain ⟨O, O', da, dm, db, h1, h2, h3, h4, h5⟩ := ih
      exact ⟨dead, O, O', da, dm + 0, db, h1, h2, h3, h4.append (.cons (owes_task c _ _) .nil), h5⟩
    | change n n' pool h => exact ⟨dead, ih.other (.change _ _ _ _ _ h)⟩
  | restart clock _ ih =>
    obtain ⟨dead, ih⟩ := ih
    exact ⟨_, served_groups rfl (served_dead ih)⟩
  | cut clock op k hw _ ih =>
    obtain ⟨dead, ih⟩ := ih
    exact ⟨_, served_groups rfl (served_dead ih)⟩

/-- The tasks that are running are left aside, the call is followed. -/
theorem served_call {n : Node} {dead tasks : List Prog} (c : Call) (h : Served ⟨n, dead, tasks, []⟩) :
    Served ⟨n.log (.called c), dead ++ tasks, [task c], []⟩ := by
  obtain ⟨O, O', da, dm, db, h1, h2, h3, h4, h5, h6, h7, h8⟩ := served_dead h
  cases h4; cases h5
  refine ⟨fun _ => False, O', da, 0 + 0, 0, fun _ h _ => h, fun g h => h2 g (.inr (h.resolve_left id)), h3,
    .cons (owes_task c _ _) .nil, .nil, fun g => ?_, fun g h => absurd rfl h, fun g h => h8 g (.inl (h.resolve_right fun k => k rfl))⟩
  have := h6 g
  show running n g = da g + 0 + 0
  simpa using this

theorem other_dead (dead : List Prog) {s t : Followed} (st : SledOtherStep s t) :
    SledOtherStep ⟨s.node, dead ++ s.before, s.own, s.after⟩ ⟨t.node, dead ++ t.before, t.own, t.after⟩ := by
  cases st with
  | before own b l r p n n' ps h =>
    have := SledOtherStep.before own b (dead ++ l) r p n n' ps h
    simpa using this
  | after a own l r p n n' ps h => exact .after _ _ _ _ _ _ _ _ h
  | call n a own b c => exact .call _ _ _ _ _
  | change n n' a own b h => exact .change _ _ _ _ _ h

/-- The followed execution beside tasks that never make a step. -/
theorem follows_dead (dead : List Prog) {s t : Followed} (h : SledFollows s t) :
    SledFollows ⟨s.node, dead ++ s.before, s.own, s.after⟩ ⟨t.node, dead ++ t.before, t.own, t.after⟩ := by
  induction h with
  | refl => exact .refl _
  | own _ st ih =>
    cases st with
    | mk a b l r p n n' ps h => exact ih.own (.mk _ _ _ _ _ _ _ _ h)
  | other _ st ih => exact ih.other (other_dead dead st)

/-- If a step is possible beside tasks that never make a step, it is possible without. -/
theorem own_dead {n : Node} {dead a own b : List Prog} (h : ∃ t, OwnStep ⟨n, dead ++ a, own, b⟩ t) : ∃ t, OwnStep ⟨n, a, own, b⟩ t := by
  obtain ⟨t, h⟩ := h
  generalize hs : (⟨n, dead ++ a, own, b⟩ : Followed) = s at h
  cases h with
  | mk a' b' l r p n' n'' ps h =>
    cases hs
    exact ⟨_, .mk a _ l r p _ n'' ps h⟩

end Dtn.OnSled
