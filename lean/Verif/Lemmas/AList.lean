import Verif.Model.AList

namespace Dtn.AList
variable {K V : Type} [DecidableEq K]

@[simp] theorem get?_nil (k : K) : get? ([] : AList K V) k = none := rfl

theorem get?_cons (k' : K) (v : V) (m : AList K V) (k : K) :
    get? ((k', v) :: m) k = if k' = k then some v else get? m k := rfl

theorem get?_erase_self (m : AList K V) (k : K) : get? (erase m k) k = none := by
  induction m with
  | nil => rfl
  | cons p m ih =>
    obtain ⟨k', v⟩ := p
    by_cases h : k' = k
    · simpa [erase, h] using ih
    · have : erase ((k', v) :: m) k = (k', v) :: erase m k := by simp [erase, h]
      rw [this, get?_cons, if_neg h, ih]

theorem get?_erase_of_ne (m : AList K V) {k j : K} (h : j ≠ k) :
    get? (erase m k) j = get? m j := by
  induction m with
  | nil => rfl
  | cons p m ih =>
    obtain ⟨k', v⟩ := p
    by_cases hk : k' = k
    · have : erase ((k', v) :: m) k = erase m k := by simp [erase, hk]
      rw [this, ih, get?_cons, if_neg]
      intro hh; exact h (hh.symm.trans hk)
    · have : erase ((k', v) :: m) k = (k', v) :: erase m k := by simp [erase, hk]
      rw [this, get?_cons, get?_cons, ih]

theorem get?_erase (m : AList K V) (k j : K) :
    get? (erase m k) j = if j = k then none else get? m j := by
  by_cases h : j = k
  · subst h; simp [get?_erase_self]
  · simp [h, get?_erase_of_ne]

@[simp] theorem get?_insert_self (m : AList K V) (k : K) (v : V) :
    get? (insert m k v) k = some v := by simp [insert, get?_cons]

theorem get?_insert_of_ne (m : AList K V) {k j : K} (v : V) (h : j ≠ k) :
    get? (insert m k v) j = get? m j := by
  simp [insert, get?_cons, Ne.symm h, get?_erase_of_ne m h]

theorem get?_insert (m : AList K V) (k j : K) (v : V) :
    get? (insert m k v) j = if j = k then some v else get? m j := by
  by_cases h : j = k
  · subst h; simp
  · simp [h, get?_insert_of_ne]

theorem mem_keys_iff (m : AList K V) (k : K) : k ∈ keys m ↔ ∃ v, get? m k = some v := by
  induction m with
  | nil => simp [keys]
  | cons p m ih =>
    obtain ⟨k', v⟩ := p
    simp only [keys, List.map_cons, List.mem_cons] at ih ⊢
    rw [get?_cons]
    by_cases h : k' = k
    · simp [h]
    · simp [h, Ne.symm h, ih]

theorem get?_eq_none_iff (m : AList K V) (k : K) : get? m k = none ↔ k ∉ keys m := by
  rw [mem_keys_iff]; cases get? m k <;> simp

theorem mem_of_get? {m : AList K V} {k : K} {v : V} (h : get? m k = some v) : (k, v) ∈ m := by
  induction m with
  | nil => simp at h
  | cons p m ih =>
    obtain ⟨k', v'⟩ := p
    rw [get?_cons] at h
    by_cases hk : k' = k
    · simp [hk] at h; simp [hk, h]
    · simp [hk] at h; exact List.mem_cons_of_mem _ (ih h)

theorem WF.get?_of_mem {m : AList K V} (w : WF m) {k : K} {v : V} (h : (k, v) ∈ m) :
    get? m k = some v := by
  induction m with
  | nil => simp at h
  | cons p m ih =>
    obtain ⟨k', v'⟩ := p
    rw [get?_cons]
    simp only [WF, keys, List.map_cons, List.nodup_cons] at w
    rcases List.mem_cons.mp h with h | h
    · cases h; simp
    · have : k' ≠ k := by
        intro e; subst e
        exact w.1 (List.mem_map.mpr ⟨_, h, rfl⟩)
      simp [this]; exact ih w.2 h

theorem WF.mem_iff {m : AList K V} (w : WF m) (k : K) (v : V) :
    (k, v) ∈ m ↔ get? m k = some v := ⟨w.get?_of_mem, mem_of_get?⟩

theorem WF.mem_values_iff {m : AList K V} (w : WF m) (v : V) :
    v ∈ values m ↔ ∃ k, get? m k = some v := by
  simp only [values, List.mem_map]
  constructor
  · rintro ⟨⟨k, v'⟩, h, rfl⟩; exact ⟨k, w.get?_of_mem h⟩
  · rintro ⟨k, h⟩; exact ⟨(k, v), mem_of_get? h, rfl⟩

omit [DecidableEq K] in
@[simp] theorem wf_nil : WF ([] : AList K V) := by simp [WF, keys]

theorem keys_erase (m : AList K V) (k : K) : keys (erase m k) = (keys m).filter (fun j => decide (j ≠ k)) := by
  induction m with
  | nil => rfl
  | cons p m ih =>
    simp only [keys, erase] at *
    by_cases h : p.1 = k
    · simp [h]; simpa using ih
    · simp [h]; simpa using ih

theorem WF.erase {m : AList K V} (w : WF m) (k : K) : WF (AList.erase m k) := by
  unfold WF; rw [keys_erase]; exact List.Pairwise.filter _ w

theorem WF.insert {m : AList K V} (w : WF m) (k : K) (v : V) : WF (AList.insert m k v) := by
  have := w.erase k
  unfold WF at *
  simp only [AList.insert, keys, List.map_cons, List.nodup_cons]
  refine ⟨?_, this⟩
  have h : k ∉ keys (AList.erase m k) := by rw [← get?_eq_none_iff]; exact get?_erase_self m k
  exact h

theorem contains_iff (m : AList K V) (k : K) : contains m k = true ↔ ∃ v, get? m k = some v := by
  unfold contains; cases get? m k <;> simp

theorem contains_iff_mem_keys (m : AList K V) (k : K) : contains m k = true ↔ k ∈ keys m := by
  rw [contains_iff, mem_keys_iff]

theorem mem_keys_insert (m : AList K V) (k j : K) (v : V) :
    j ∈ keys (insert m k v) ↔ j = k ∨ j ∈ keys m := by
  simp only [mem_keys_iff, get?_insert]
  by_cases h : j = k <;> simp [h]

theorem mem_keys_erase (m : AList K V) (k j : K) :
    j ∈ keys (erase m k) ↔ j ≠ k ∧ j ∈ keys m := by
  simp only [mem_keys_iff, get?_erase]
  by_cases h : j = k <;> simp [h]

omit [DecidableEq K] in
theorem length_keys (m : AList K V) : (keys m).length = m.length := by simp [keys]

theorem erase_of_not_mem {m : AList K V} {k : K} (h : k ∉ keys m) : erase m k = m := by
  induction m with
  | nil => rfl
  | cons p m ih =>
    simp only [keys, List.map_cons, List.mem_cons, not_or] at h
    have h1 : p.1 ≠ k := fun e => h.1 e.symm
    simp only [erase, List.filter_cons, h1, ne_eq, not_false_eq_true, decide_true, if_true]
    congr 1
    exact ih h.2

end Dtn.AList
