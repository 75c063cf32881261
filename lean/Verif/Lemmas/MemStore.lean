import Verif.Lemmas.AList
import Verif.Spec.Store

namespace Dtn

theorem CSet.has_set (s : CSet) (v : Bool) (c d : Constraint) :
    (s.set v c).has d = if d = c then v else s.has d := by
  cases c <;> cases d <;> simp [CSet.set, CSet.has]

theorem CSet.ext_has {s t : CSet} (h : ∀ c, s.has c = t.has c) : s = t := by
  have h1 := h .dispatchPending; have h2 := h .forwardPending; have h3 := h .reassemblyPending
  have h4 := h .contraindicated; have h5 := h .localEndpoint; have h6 := h .deleted
  cases s; cases t; simp_all [CSet.has]

@[simp] theorem CSet.has_empty (c : Constraint) : CSet.empty.has c = false := by
  cases c <;> rfl

theorem CSet.isEmpty_iff (s : CSet) : s.isEmpty = true ↔ ∀ c, s.has c = false := by
  unfold CSet.isEmpty
  rw [decide_eq_true_iff]
  constructor
  · rintro rfl c; simp
  · intro h; apply CSet.ext_has; simpa using h

@[simp] theorem Pack.id_add (p : Pack) (c) : (p.add c).id = p.id := rfl
@[simp] theorem Pack.id_del (p : Pack) (c) : (p.del c).id = p.id := rfl
@[simp] theorem Pack.id_clear (p : Pack) : p.clear.id = p.id := by
  unfold Pack.clear; dsimp only; split <;> rfl
theorem Pack.has_add (p : Pack) (c d) : (p.add c).has d = if d = c then true else p.has d := by
  simp [Pack.has, Pack.add, CSet.has_set]
theorem Pack.has_del (p : Pack) (c d) : (p.del c).has d = if d = c then false else p.has d := by
  simp [Pack.has, Pack.del, CSet.has_set]
theorem Pack.has_clear (p : Pack) (d) :
    p.clear.has d = (decide (d = .localEndpoint) && p.has .localEndpoint) := by
  unfold Pack.clear
  by_cases h : p.has .localEndpoint = true
  · simp only [h, if_true, Pack.has_add]
    by_cases hd : d = .localEndpoint <;> simp [hd, Pack.has]
  · simp only [h]; simp [Pack.has]
theorem Pack.hasAny_iff (p : Pack) : p.hasAny = true ↔ ∃ c, p.has c = true := by
  unfold Pack.hasAny Pack.has
  rw [Bool.not_eq_true', ← Bool.not_eq_true, CSet.isEmpty_iff]
  simp
@[simp] theorem Pack.id_ofBundle (now b) : (Pack.ofBundle now b).id = b.id := rfl
@[simp] theorem Pack.has_ofBundle (now b c) : (Pack.ofBundle now b).has c = false := by
  simp [Pack.ofBundle, Pack.has]

namespace MemStore

/-- Representation invariant of the in-memory store. -/
structure Inv (s : MemStore) : Prop where
  wfB : AList.WF s.bundles
  wfM : AList.WF s.metadata
  metaId : ∀ bid p, s.getMetadata bid = some p → p.id = bid
  bundleId : ∀ bid b, s.getBundle bid = some b → b.id = bid
  hasMeta : ∀ bid b, s.getBundle bid = some b → ∃ p, s.getMetadata bid = some p

theorem getBundle_push (now s b j) :
    (push now s b).getBundle j = if j = b.id then some b else s.getBundle j := by
  simp [push, getBundle, AList.get?_insert]

theorem getMetadata_push (now s b j) :
    (push now s b).getMetadata j =
      if j = b.id ∧ s.getBundle b.id = none then some (Pack.ofBundle now b) else s.getMetadata j := by
  unfold push getMetadata getBundle
  simp only [Pack.id_ofBundle, AList.contains]
  by_cases h : AList.get? s.bundles b.id = none
  · simp [h, AList.get?_insert]
  · have h' := Option.isSome_iff_ne_none.mpr h
    simp [h, h']

theorem getBundle_update (s bp j) : (updateMetadata s bp).1.getBundle j = s.getBundle j := by
  unfold updateMetadata getBundle; split <;> rfl

theorem getMetadata_update (s bp j) :
    (updateMetadata s bp).1.getMetadata j =
      if j = bp.id ∧ s.getMetadata bp.id ≠ none then some bp else s.getMetadata j := by
  unfold updateMetadata getMetadata AList.contains
  cases h : AList.get? s.metadata bp.id
  · simp
  · simp [AList.get?_insert]

theorem update_ok (s bp) : (updateMetadata s bp).2 = true ↔ s.getMetadata bp.id ≠ none := by
  unfold updateMetadata getMetadata AList.contains
  cases AList.get? s.metadata bp.id <;> simp

/-- The tombstone written by `remove`. -/
def tomb (p : Pack) : Pack := p.clear.add .deleted

theorem remove_none {s : MemStore} {bid} (h : s.getMetadata bid = none) : s.remove bid = (s, false) := by
  unfold remove; rw [h]

theorem remove_some {s : MemStore} {bid p} (hi : p.id = bid) (h : s.getMetadata bid = some p) :
    s.remove bid = ({ bundles := AList.erase s.bundles bid,
                      metadata := AList.insert s.metadata bid (tomb p) },
                    AList.contains s.bundles bid) := by
  unfold remove; rw [h]
  have hc : AList.contains s.metadata bid = true := by
    rw [AList.contains_iff]; exact ⟨p, h⟩
  simp [updateMetadata, hi, hc, tomb]

theorem getBundle_remove {s : MemStore} (inv : Inv s) (bid j) :
    (s.remove bid).1.getBundle j = if j = bid then none else s.getBundle j := by
  cases h : s.getMetadata bid with
  | none =>
    rw [remove_none h]
    by_cases hj : j = bid
    · subst hj
      cases hb : s.getBundle j with
      | none => simp
      | some b => obtain ⟨p, hp⟩ := inv.hasMeta _ _ hb; simp [h] at hp
    · simp [hj]
  | some p =>
    rw [remove_some (inv.metaId _ _ h) h]
    simp [getBundle, AList.get?_erase]

theorem getMetadata_remove {s : MemStore} (inv : Inv s) (bid j) :
    (s.remove bid).1.getMetadata j =
      if j = bid then (s.getMetadata bid).map tomb else s.getMetadata j := by
  cases h : s.getMetadata bid with
  | none => rw [remove_none h]; by_cases hj : j = bid <;> simp [hj, h]
  | some p =>
    rw [remove_some (inv.metaId _ _ h) h]
    simp only [getMetadata, AList.get?_insert]
    by_cases hj : j = bid <;> simp [hj]

theorem remove_ok {s : MemStore} (inv : Inv s) (bid) :
    (s.remove bid).2 = true ↔ s.getBundle bid ≠ none := by
  cases h : s.getMetadata bid with
  | none =>
    rw [remove_none h]
    cases hb : s.getBundle bid with
    | none => simp
    | some b => obtain ⟨p, hp⟩ := inv.hasMeta _ _ hb; simp [h] at hp
  | some p =>
    rw [remove_some (inv.metaId _ _ h) h]
    simp only [AList.contains, getBundle]
    cases AList.get? s.bundles bid <;> simp

theorem Inv.new : Inv new := by
  refine ⟨AList.wf_nil, AList.wf_nil, ?_, ?_, ?_⟩ <;> intro _ _ h <;>
    simp [MemStore.new, getMetadata, getBundle] at h

theorem Inv.push {s : MemStore} (inv : Inv s) (now b) : Inv (s.push now b) := by
  refine ⟨?_, ?_, ?_, ?_, ?_⟩
  · exact inv.wfB.insert _ _
  · unfold MemStore.push; dsimp only; split
    · exact inv.wfM
    · exact inv.wfM.insert _ _
  · intro j p h
    rw [getMetadata_push] at h
    split at h
    · rename_i hc; cases h; simp [hc.1]
    · exact inv.metaId _ _ h
  · intro j b' h
    rw [getBundle_push] at h
    split at h
    · rename_i hc; cases h; exact hc.symm
    · exact inv.bundleId _ _ h
  · intro j b' h
    rw [getBundle_push] at h
    rw [getMetadata_push]
    by_cases hj : j = b.id
    · subst hj
      cases hb : s.getBundle b.id with
      | none => simp
      | some b0 => simpa using inv.hasMeta _ _ hb
    · simp [hj] at h ⊢; exact inv.hasMeta _ _ h

theorem Inv.update {s : MemStore} (inv : Inv s) (bp) : Inv (s.updateMetadata bp).1 := by
  refine ⟨?_, ?_, ?_, ?_, ?_⟩
  · unfold updateMetadata; split <;> exact inv.wfB
  · unfold updateMetadata; split
    · exact inv.wfM.insert _ _
    · exact inv.wfM
  · intro j p h
    rw [getMetadata_update] at h
    split at h
    · rename_i hc; cases h; exact hc.1.symm
    · exact inv.metaId _ _ h
  · intro j b h; rw [getBundle_update] at h; exact inv.bundleId _ _ h
  · intro j b h; rw [getBundle_update] at h
    obtain ⟨p, hp⟩ := inv.hasMeta _ _ h
    rw [getMetadata_update]; split
    · exact ⟨_, rfl⟩
    · exact ⟨p, hp⟩

theorem Inv.remove {s : MemStore} (inv : Inv s) (bid) : Inv (s.remove bid).1 := by
  refine ⟨?_, ?_, ?_, ?_, ?_⟩
  · cases h : s.getMetadata bid with
    | none => rw [remove_none h]; exact inv.wfB
    | some p => rw [remove_some (inv.metaId _ _ h) h]; exact inv.wfB.erase _
  · cases h : s.getMetadata bid with
    | none => rw [remove_none h]; exact inv.wfM
    | some p => rw [remove_some (inv.metaId _ _ h) h]; exact inv.wfM.insert _ _
  · intro j p h
    rw [getMetadata_remove inv] at h
    split at h
    · rename_i hj; subst hj
      cases hm : s.getMetadata j with
      | none => simp [hm] at h
      | some q => simp [hm] at h; subst h; simpa [tomb] using inv.metaId _ _ hm
    · exact inv.metaId _ _ h
  · intro j b h
    rw [getBundle_remove inv] at h
    split at h
    · cases h
    · exact inv.bundleId _ _ h
  · intro j b h
    rw [getBundle_remove inv] at h
    rw [getMetadata_remove inv]
    split at h
    · cases h
    · rename_i hj; simp [hj]; exact inv.hasMeta _ _ h

theorem Inv.step {s : MemStore} (inv : Inv s) (op) : Inv (s.step op) := by
  cases op
  · exact inv.push _ _
  · exact inv.update _
  · exact inv.remove _

theorem Inv.run {s : MemStore} (inv : Inv s) (ops) : Inv (s.run ops) := by
  induction ops generalizing s with
  | nil => exact inv
  | cons op ops ih => exact ih (inv.step op)

theorem Inv.addIfUnknown {s : MemStore} (inv : Inv s) (now b) : Inv (s.addIfUnknown now b).1 := by
  unfold MemStore.addIfUnknown; split
  · exact inv.push _ _
  · exact inv

theorem Inv.sync {s : MemStore} (inv : Inv s) (bp) : Inv (s.sync bp).1 := by
  unfold MemStore.sync; split
  · exact inv.remove _
  · exact inv.update _

theorem hasItem_iff (s : MemStore) (bid) : s.hasItem bid = true ↔ s.getBundle bid ≠ none := by
  unfold hasItem getBundle AList.contains
  cases AList.get? s.bundles bid <;> simp

theorem mem_allIds_iff (s : MemStore) (bid) : bid ∈ s.allIds ↔ s.getBundle bid ≠ none := by
  unfold allIds getBundle
  rw [AList.mem_keys_iff]
  cases AList.get? s.bundles bid <;> simp

theorem run_snoc (s : MemStore) (ops op) : s.run (ops ++ [op]) = (s.run ops).step op := by
  simp [run, List.foldl_append]

end MemStore
end Dtn

namespace Dtn.MemStore

theorem Pack.ext_constraints {p q : Pack} (h : { q with constraints := p.constraints } = p)
    (hc : ∀ c, q.has c = p.has c) : q = p := by
  have : q.constraints = p.constraints := CSet.ext_has hc
  rw [← h]; cases q; simp_all

theorem tomb_frame (p : Pack) (c : CSet) : { tomb p with constraints := c } = { p with constraints := c } := by
  simp only [tomb, Pack.add, Pack.clear]; split <;> rfl

theorem tomb_idem (p : Pack) : tomb (tomb p) = tomb p := by
  apply Pack.ext_constraints
  · rw [tomb_frame]
  · intro c
    simp only [tomb, Pack.has_add, Pack.has_clear]
    by_cases h : c = .deleted
    · simp [h]
    · simp [h]

theorem Inv.deleteAll {s : MemStore} (inv : Inv s) (now ms) : Inv (deleteAll now ms s) := by
  induction ms generalizing s with
  | nil => exact inv
  | cons m ms ih =>
    unfold MemStore.deleteAll
    split
    · exact ih (inv.remove _)
    · exact ih inv

theorem Inv.deleteExpired {s : MemStore} (inv : Inv s) (now) : Inv (s.deleteExpired now) :=
  inv.deleteAll _ _

open Classical in
theorem deleteAll_spec {s : MemStore} (inv : Inv s) (now ms j) :
    (deleteAll now ms s).getBundle j =
      (if ∃ m ∈ ms, m.id = j ∧ m.hasExpired now = true then none else s.getBundle j) ∧
    (deleteAll now ms s).getMetadata j =
      (if ∃ m ∈ ms, m.id = j ∧ m.hasExpired now = true then (s.getMetadata j).map tomb
       else s.getMetadata j) := by
  induction ms generalizing s with
  | nil => simp [MemStore.deleteAll]
  | cons m ms ih =>
    unfold MemStore.deleteAll
    by_cases he : m.hasExpired now = true
    · simp only [he, if_true]
      have := ih (inv.remove m.id)
      rw [this.1, this.2]
      simp only [List.mem_cons, getBundle_remove inv, getMetadata_remove inv]
      by_cases hj : j = m.id
      · subst hj
        have hex : ∃ m' , (m' = m ∨ m' ∈ ms) ∧ m'.id = m.id ∧ m'.hasExpired now = true :=
          ⟨m, Or.inl rfl, rfl, he⟩
        simp only [if_true, hex, Option.map_map]
        refine ⟨by split <;> rfl, ?_⟩
        split
        · congr 1; funext p; exact tomb_idem p
        · rfl
      · have hiff : (∃ m', (m' = m ∨ m' ∈ ms) ∧ m'.id = j ∧ m'.hasExpired now = true) ↔
            (∃ m', m' ∈ ms ∧ m'.id = j ∧ m'.hasExpired now = true) := by
          constructor
          · rintro ⟨m', rfl | h, h2, h3⟩
            · exact absurd h2.symm hj
            · exact ⟨m', h, h2, h3⟩
          · rintro ⟨m', h, h2⟩; exact ⟨m', Or.inr h, h2⟩
        simp only [hj, if_false, hiff]
        exact ⟨trivial, trivial⟩
    · simp only [he]
      have := ih inv
      simp only [if_false, Bool.false_eq_true]
      rw [this.1, this.2]
      have hiff : (∃ m', m' ∈ (m :: ms) ∧ m'.id = j ∧ m'.hasExpired now = true) ↔
            (∃ m', m' ∈ ms ∧ m'.id = j ∧ m'.hasExpired now = true) := by
        constructor
        · rintro ⟨m', h, h2, h3⟩
          rcases List.mem_cons.mp h with rfl | h
          · exact absurd h3 he
          · exact ⟨m', h, h2, h3⟩
        · rintro ⟨m', h, h2⟩; exact ⟨m', List.mem_cons_of_mem _ h, h2⟩
      simp only [hiff]
      exact ⟨trivial, trivial⟩

theorem mem_packs_iff {s : MemStore} (inv : Inv s) (p) : p ∈ s.packs ↔ s.getMetadata p.id = some p := by
  unfold packs getMetadata
  rw [inv.wfM.mem_values_iff]
  constructor
  · rintro ⟨k, h⟩; have := inv.metaId _ _ h; subst this; exact h
  · intro h; exact ⟨_, h⟩

open Classical in
theorem deleteExpired_spec {s : MemStore} (inv : Inv s) (now j) :
    (s.deleteExpired now).getBundle j =
      (if ∃ m, s.getMetadata j = some m ∧ m.has .deleted = false ∧ m.hasExpired now = true then none
       else s.getBundle j) ∧
    (s.deleteExpired now).getMetadata j =
      (if ∃ m, s.getMetadata j = some m ∧ m.has .deleted = false ∧ m.hasExpired now = true
       then (s.getMetadata j).map tomb else s.getMetadata j) := by
  have := deleteAll_spec inv now (s.packs.filter (fun bp => !bp.has .deleted)) j
  have hiff : (∃ m, m ∈ (s.packs.filter (fun bp => !bp.has .deleted)) ∧ m.id = j ∧ m.hasExpired now = true) ↔
      (∃ m, s.getMetadata j = some m ∧ m.has .deleted = false ∧ m.hasExpired now = true) := by
    constructor
    · rintro ⟨m, h, rfl, h3⟩
      simp only [List.mem_filter, mem_packs_iff inv, Bool.not_eq_true'] at h
      exact ⟨m, h.1, h.2, h3⟩
    · rintro ⟨m, h, h2, h3⟩
      have hid := inv.metaId _ _ h
      refine ⟨m, ?_, hid, h3⟩
      simp only [List.mem_filter, mem_packs_iff inv, Bool.not_eq_true']
      exact ⟨by rw [hid]; exact h, h2⟩
  simp only [hiff] at this
  exact this

/-- ids of packs in the metadata map are distinct. -/
theorem nodup_packs_ids {s : MemStore} (inv : Inv s) : (s.packs.map Pack.id).Nodup := by
  have h : s.packs.map Pack.id = AList.keys s.metadata := by
    unfold packs AList.values AList.keys
    rw [List.map_map]
    apply List.map_congr_left
    intro p hp
    obtain ⟨k, v⟩ := p
    exact inv.metaId _ _ (inv.wfM.get?_of_mem hp)
  rw [h]; exact inv.wfM

end Dtn.MemStore
