import Verif.Lemmas.MemStore
import Verif.Spec.Agents
import Mathlib.Data.List.Induction

namespace Dtn

namespace Registry

theorem has_iff (r : Registry) (e) : r.has e = true ↔ e ∈ r.eids := by
  unfold has eids
  rw [List.any_eq_true]
  simp only [decide_eq_true_eq, List.mem_map]
  exact ⟨fun ⟨a, h1, h2⟩ => ⟨a, h1, h2.symm⟩, fun ⟨a, h1, h2⟩ => ⟨a, h1, h2.symm⟩⟩

theorem find_isSome (r : Registry) (e) : (r.find e).isSome = true ↔ e ∈ r.eids := by
  unfold find
  rw [List.find?_isSome]
  simp only [decide_eq_true_eq, eids, List.mem_map]
  exact ⟨fun ⟨a, h1, h2⟩ => ⟨a, h1, h2.symm⟩, fun ⟨a, h1, h2⟩ => ⟨a, h1, h2.symm⟩⟩

theorem find_eid {r : Registry} {e a} (h : r.find e = some a) : a.eid = e := by
  have := List.find?_some h
  simpa using (of_decide_eq_true this).symm

theorem eids_register (r : Registry) (a) :
    (r.register a).eids = if r.has a.eid then r.eids else r.eids ++ [a.eid] := by
  unfold register; split <;> simp [eids]

theorem eids_unregister (r : Registry) (e) : (r.unregister e).eids = r.eids.erase e := by
  induction r with
  | nil => rfl
  | cons a r ih =>
    unfold unregister eids at *
    by_cases h : a.eid = e
    · simp [h]
    · simp only [List.eraseP_cons, h, decide_false, cond_false, List.map_cons]
      rw [List.erase_cons_tail (by simpa using h)]
      simp only [List.cons.injEq, true_and]
      exact ih

theorem eids_modify (r : Registry) (f e) (hf : ∀ a, (f a).eid = a.eid) : (r.modify f e).eids = r.eids := by
  induction r with
  | nil => rfl
  | cons a r ih =>
    unfold modify; split
    · simp [eids, hf]
    · unfold eids at *; simp [ih]

theorem find_modify (r : Registry) (f : AppAgent → AppAgent) (e e') (hf : ∀ a, (f a).eid = a.eid) :
    (r.modify f e).find e' = if e' = e then (r.find e).map f else r.find e' := by
  induction r with
  | nil => unfold modify find; split <;> rfl
  | cons a r ih =>
    unfold find at ih
    unfold modify find
    by_cases h1 : e = a.eid
    · rw [if_pos h1]
      by_cases h2 : e' = e
      · rw [List.find?_cons_of_pos (by simp [hf, h1, h2]), if_pos h2, List.find?_cons_of_pos (by simp [h1])]; rfl
      · have h3 : ¬ e' = a.eid := fun h => h2 (h.trans h1.symm)
        rw [List.find?_cons_of_neg (by simp [hf, h3]), if_neg h2, List.find?_cons_of_neg (by simp [h3])]
    · rw [if_neg h1]
      by_cases h2 : e' = e
      · subst h2
        rw [List.find?_cons_of_neg (by simp [h1]), if_pos rfl, List.find?_cons_of_neg (by simp [h1]), ih, if_pos rfl]
      · by_cases h3 : e' = a.eid
        · rw [List.find?_cons_of_pos (by simp [h3]), if_neg h2, List.find?_cons_of_pos (by simp [h3])]
        · rw [List.find?_cons_of_neg (by simp [h3]), if_neg h2, List.find?_cons_of_neg (by simp [h3]), ih, if_neg h2]

theorem find_register (r : Registry) (a : AppAgent) (e) :
    (r.register a).find e = if e = a.eid ∧ r.find e = none then some a else r.find e := by
  unfold register
  split
  · rename_i h
    rw [has_iff, ← find_isSome] at h
    by_cases he : e = a.eid
    · subst he
      rw [if_neg]; rintro ⟨-, hn⟩; rw [hn] at h; cases h
    · simp [he]
  · rename_i h
    rw [has_iff, ← find_isSome] at h
    unfold find at *
    rw [List.find?_append]
    by_cases he : e = a.eid
    · subst he
      simp only [Bool.not_eq_true, Option.isSome_eq_false_iff, Option.isNone_iff_eq_none] at h
      simp [h]
    · simp [he]

theorem find_unregister_ne (r : Registry) {e e' : EID} (h : e' ≠ e) : (r.unregister e).find e' = r.find e' := by
  induction r with
  | nil => rfl
  | cons a r ih =>
    unfold unregister find at *
    by_cases h1 : a.eid = e
    · subst h1
      simp [h]
    · simp only [List.eraseP_cons, h1, decide_false, cond_false, List.find?_cons]
      rw [ih]

end Registry

namespace AppAgent
@[simp] theorem eid_push (a : AppAgent) (b r) : (a.push b r).1.eid = a.eid := by
  unfold push; split <;> [split; skip] <;> rfl
@[simp] theorem eid_pop (a : AppAgent) : a.pop.1.eid = a.eid := by
  unfold pop; split <;> rfl
@[simp] theorem eid_set (a : AppAgent) (c) : (a.setDelivery c).eid = a.eid := rfl
@[simp] theorem eid_clear (a : AppAgent) : a.clearDelivery.eid = a.eid := rfl
end AppAgent

namespace Apps
open Spec

theorem run_snoc (s : Apps) (ops op) : s.run (ops ++ [op]) = (s.run ops).step op := by
  simp [run, List.foldl_append]

theorem eids_step (s : Apps) (op : Op) : Registry.eids (s.step op).agents =
    match op with
    | .register e => if e ∈ Registry.eids s.agents then Registry.eids s.agents else Registry.eids s.agents ++ [e]
    | .unregister e => (Registry.eids s.agents).erase e
    | _ => Registry.eids s.agents := by
  cases op with
  | register e =>
    simp only [step, Registry.eids_register, Registry.has_iff, AppAgent.with]
  | unregister e => simp only [step, Registry.eids_unregister]
  | deliver e b room =>
    simp only [step]
    split
    · rfl
    · split <;> simp only [Registry.eids_modify _ _ _ (fun a => AppAgent.eid_push a b room)]
  | pop e =>
    simp only [step]
    split
    · rfl
    · split <;> simp only [Registry.eids_modify _ _ _ (fun a => AppAgent.eid_pop a)]
  | subscribe e c => simp only [step]; exact Registry.eids_modify _ _ _ (fun a => rfl)
  | unsubscribe e => simp only [step]; exact Registry.eids_modify _ _ _ (fun a => rfl)

theorem nodup_eids_step {s : Apps} (h : (Registry.eids s.agents).Nodup) (op) :
    (Registry.eids (s.step op).agents).Nodup := by
  rw [eids_step]
  split
  · split
    · exact h
    · rename_i e hn
      rw [List.nodup_append]
      refine ⟨h, by simp, ?_⟩
      intro x hx y hy hxy
      rw [List.mem_singleton] at hy
      subst hy; subst hxy; exact hn hx
  · exact h.erase _
  · exact h

theorem mem_eids_run (ops : List Op) (h0 : Apps) (hn : h0.agents = []) (e) :
    (Registry.eids (h0.run ops).agents).Nodup ∧
      (e ∈ Registry.eids (h0.run ops).agents ↔ registered e ops.reverse = true) := by
  induction ops using List.reverseRecOn with
  | nil => simp [run, hn, Registry.eids, registered]
  | append_singleton ops op ih =>
    rw [run_snoc]
    refine ⟨nodup_eids_step ih.1 op, ?_⟩
    rw [eids_step, List.reverse_append, List.reverse_singleton, List.singleton_append]
    cases op with
    | register e' =>
      simp only [registered]
      by_cases h : e' = e
      · subst h; split <;> simp_all
      · have h' : ¬ e = e' := fun x => h x.symm
        split <;> simp [h', ih.2]
    | unregister e' =>
      simp only [registered]
      by_cases h : e' = e
      · subst h
        simp only [if_true]
        have := ih.1
        simp [List.Nodup.mem_erase_iff this]
      · have h' : e ≠ e' := fun x => h x.symm
        rw [if_neg h, ← ih.2, List.Nodup.mem_erase_iff ih.1]; simp [h']
    | deliver => simp only [registered]; exact ih.2
    | pop => simp only [registered]; exact ih.2
    | subscribe => simp only [registered]; exact ih.2
    | unsubscribe => simp only [registered]; exact ih.2

theorem waiting_eq (s : Apps) (e) : waiting e s = match Registry.find s.agents e with
    | some a => a.queue | none => [] := by
  unfold waiting Registry.find
  have : (fun a : AppAgent => decide (a.eid = e)) = fun a => decide (e = a.eid) := by
    funext a; simp only [decide_eq_decide]; exact ⟨Eq.symm, Eq.symm⟩
  rw [this]
  cases List.find? (fun a : AppAgent => decide (e = a.eid)) s.agents <;> rfl

end Apps

namespace Spec

theorem Merge.nil_left {α : Type} (l : List α) : Merge [] l l := by
  induction l with
  | nil => exact .nil
  | cons a l ih => exact .right a ih

theorem Merge.snoc_left {α : Type} {xs ys l : List α} (h : Merge xs ys l) (a : α) : Merge (xs ++ [a]) ys (l ++ [a]) := by
  induction h with
  | nil => exact .left a .nil
  | left b _ ih => exact .left b ih
  | right b _ ih => exact .right b ih

theorem Merge.snoc_right {α : Type} {xs ys l : List α} (h : Merge xs ys l) (a : α) : Merge xs (ys ++ [a]) (l ++ [a]) := by
  induction h with
  | nil => exact .right a .nil
  | left b _ ih => exact .left b ih
  | right b _ ih => exact .right b ih

theorem arrivals_snoc (e : EID) (ops : List Apps.Op) (op) :
    arrivals e (ops ++ [op]) = arrivals e ops ++ arrivals e [op] := by
  induction ops with
  | nil => rfl
  | cons o ops ih =>
    cases o with
    | deliver e' b r => simp only [List.cons_append, arrivals]; split <;> simp only [ih, List.cons_append]
    | _ => simp only [List.cons_append, arrivals, ih]

end Spec

namespace Apps
open Spec

/-- One step keeps the books of an endpoint that stays registered. -/
theorem books_step {s : Apps} {e : EID} {l : List Bundle} (op : Op) (hreg : (Registry.find s.agents e).isSome = true)
    (hop : op ≠ .unregister e) (h : Merge (pushedTo e s) (poppedFrom e s ++ waiting e s) l) :
    (Registry.find (s.step op).agents e).isSome = true ∧
    Merge (pushedTo e (s.step op)) (poppedFrom e (s.step op) ++ waiting e (s.step op)) (l ++ arrivals e [op]) := by
  obtain ⟨a, ha⟩ := Option.isSome_iff_exists.mp hreg
  have same : ∀ (s' : Apps), s'.pushed = s.pushed → s'.popped = s.popped →
      Registry.find s'.agents e = some a → arrivals e [op] = [] →
      (Registry.find s'.agents e).isSome = true ∧
      Merge (pushedTo e s') (poppedFrom e s' ++ waiting e s') (l ++ arrivals e [op]) := by
    intro s' h1 h2 h3 h4
    refine ⟨by rw [h3]; rfl, ?_⟩
    rw [h4, List.append_nil]
    rw [waiting_eq, ha] at h
    rw [waiting_eq, h3]
    unfold pushedTo poppedFrom at *
    rw [h1, h2]; exact h
  cases op with
  | register e' =>
    apply same
    · rfl
    · rfl
    · simp only [step, Registry.find_register, ha]; simp
    · rfl
  | unregister e' =>
    have hne : e ≠ e' := fun x => hop (by rw [x])
    apply same
    · rfl
    · rfl
    · simp only [step]; rw [Registry.find_unregister_ne _ hne]; exact ha
    · rfl
  | subscribe e' c =>
    refine ⟨?_, ?_⟩
    · simp only [step]
      rw [Registry.find_modify _ _ _ _ (fun a => AppAgent.eid_set a c)]
      split
      · rename_i hh; subst hh; rw [ha]; rfl
      · rw [ha]; rfl
    · have : arrivals e [Op.subscribe e' c] = [] := rfl
      rw [this, List.append_nil]
      rw [waiting_eq, ha] at h
      rw [waiting_eq]
      simp only [step]
      rw [Registry.find_modify _ _ _ _ (fun a => AppAgent.eid_set a c)]
      by_cases hh : e = e'
      · subst hh; rw [if_pos rfl, ha]; exact h
      · rw [if_neg hh, ha]; exact h
  | unsubscribe e' =>
    refine ⟨?_, ?_⟩
    · simp only [step]
      rw [Registry.find_modify _ _ _ _ AppAgent.eid_clear]
      split
      · rename_i hh; subst hh; rw [ha]; rfl
      · rw [ha]; rfl
    · have : arrivals e [Op.unsubscribe e'] = [] := rfl
      rw [this, List.append_nil]
      rw [waiting_eq, ha] at h
      rw [waiting_eq]
      simp only [step]
      rw [Registry.find_modify _ _ _ _ AppAgent.eid_clear]
      by_cases hh : e = e'
      · subst hh; rw [if_pos rfl, ha]; exact h
      · rw [if_neg hh, ha]; exact h
  | deliver e' b room =>
    by_cases he : e' = e
    · subst he
      have harr : arrivals e' [Op.deliver e' b room] = [b] := by simp [arrivals]
      rw [harr]
      rw [waiting_eq, ha] at h
      simp only at h
      simp only [step, ha]
      cases hp : (a.push b room).2 with
      | some ch =>
        simp only
        have hq : (a.push b room).1 = a := by
          unfold AppAgent.push at hp ⊢
          split at hp
          · split at hp
            · simp at hp
            · rename_i h1 h2; simp [h2]
          · simp at hp
        have hf : Registry.find (Registry.modify (fun a => (a.push b room).1) e' s.agents) e' = some a := by
          rw [Registry.find_modify _ _ _ _ (fun a => AppAgent.eid_push a b room), if_pos rfl, ha]
          simp [hq]
        refine ⟨by rw [hf]; rfl, ?_⟩
        rw [waiting_eq]
        simp only [hf]
        unfold pushedTo poppedFrom at *
        simp only [List.filter_append, List.map_append]
        simp
        exact h.snoc_left b
      | none =>
        simp only
        have hq : (a.push b room).1.queue = a.queue ++ [b] := by
          unfold AppAgent.push at hp ⊢
          split at hp
          · split at hp
            · rename_i h1 h2; simp [h1, h2]
            · simp at hp
          · simp
        have hf : Registry.find (Registry.modify (fun a => (a.push b room).1) e' s.agents) e' = some (a.push b room).1 := by
          rw [Registry.find_modify _ _ _ _ (fun a => AppAgent.eid_push a b room), if_pos rfl, ha]
          rfl
        refine ⟨by rw [hf]; rfl, ?_⟩
        rw [waiting_eq]
        simp only [hf, hq]
        unfold pushedTo poppedFrom at *
        rw [← List.append_assoc]
        exact h.snoc_right b
    · have harr : arrivals e [Op.deliver e' b room] = [] := by simp [arrivals, he]
      rw [harr, List.append_nil]
      have he' : ¬ e = e' := fun x => he x.symm
      simp only [step]
      cases hfe : Registry.find s.agents e' with
      | none => simp only; exact ⟨hreg, h⟩
      | some a' =>
        simp only
        have hf : Registry.find (Registry.modify (fun a => (a.push b room).1) e' s.agents) e = some a := by
          rw [Registry.find_modify _ _ _ _ (fun a => AppAgent.eid_push a b room), if_neg he', ha]
        rw [waiting_eq, ha] at h
        simp only at h
        cases hp : (a'.push b room).2 with
        | some ch =>
          simp only
          refine ⟨by rw [hf]; rfl, ?_⟩
          rw [waiting_eq]
          simp only [hf]
          unfold pushedTo poppedFrom at *
          simp only [List.filter_append, List.map_append]
          simp [he]
          exact h
        | none =>
          simp only
          refine ⟨by rw [hf]; rfl, ?_⟩
          rw [waiting_eq]
          simp only [hf]
          exact h
  | pop e' =>
    have harr : arrivals e [Op.pop e'] = [] := rfl
    rw [harr, List.append_nil]
    by_cases he : e' = e
    · subst he
      rw [waiting_eq, ha] at h
      simp only at h
      simp only [step, ha]
      have hf : Registry.find (Registry.modify (fun a => a.pop.1) e' s.agents) e' = some a.pop.1 := by
        rw [Registry.find_modify _ _ _ _ (fun a => AppAgent.eid_pop a), if_pos rfl, ha]; rfl
      cases hq : a.queue with
      | nil =>
        have hp : a.pop = (a, none) := by unfold AppAgent.pop; rw [hq]
        rw [hp] at hf
        simp only [hp]
        refine ⟨by rw [hf]; rfl, ?_⟩
        rw [waiting_eq]; simp only [hf]
        exact h
      | cons b bs =>
        have hp : a.pop = ({ a with queue := bs }, some b) := by unfold AppAgent.pop; rw [hq]
        rw [hp] at hf
        simp only [hp]
        refine ⟨by rw [hf]; rfl, ?_⟩
        rw [waiting_eq]; simp only [hf]
        unfold pushedTo poppedFrom at *
        simp only [List.filter_append, List.map_append]
        rw [hq] at h
        simp
        simpa using h
    · have he' : ¬ e = e' := fun x => he x.symm
      simp only [step]
      cases hfe : Registry.find s.agents e' with
      | none => simp only; exact ⟨hreg, h⟩
      | some a' =>
        have hf : Registry.find (Registry.modify (fun a => a.pop.1) e' s.agents) e = some a := by
          rw [Registry.find_modify _ _ _ _ (fun a => AppAgent.eid_pop a), if_neg he', ha]
        rw [waiting_eq, ha] at h
        simp only at h
        simp only
        cases hp : a'.pop.2 with
        | some b =>
          simp only
          refine ⟨by rw [hf]; rfl, ?_⟩
          rw [waiting_eq]
          simp only [hf]
          unfold pushedTo poppedFrom at *
          simp only [List.filter_append, List.map_append]
          simp [he]
          exact h
        | none =>
          simp only
          refine ⟨by rw [hf]; rfl, ?_⟩
          rw [waiting_eq]
          simp only [hf]
          exact h

end Apps
end Dtn
