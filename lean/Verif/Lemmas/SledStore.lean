import Verif.Lemmas.MemStore
import Verif.Model.SledStore

namespace Dtn.SledStore

/-- Representation invariant: also holds at every crash point. -/
structure Inv (s : SledStore) : Prop where
  wfB : AList.WF s.bundles
  wfM : AList.WF s.metadata
  metaId : ∀ bid p, AList.get? s.metadata bid = some p → p.id = bid
  bundleId : ∀ bid b, AList.get? s.bundles bid = some b → b.id = bid
  hasMeta : ∀ bid b, AList.get? s.bundles bid = some b → ∃ p, AList.get? s.metadata bid = some p

theorem Inv.new : Inv new := by
  refine ⟨AList.wf_nil, AList.wf_nil, ?_, ?_, ?_⟩ <;> intro _ _ h <;> simp [SledStore.new] at h

theorem Inv.meta_ {s} (inv : Inv s) (bp) : Inv (s.apply (.meta_ bp)) := by
  refine ⟨inv.wfB, inv.wfM.insert _ _, ?_, inv.bundleId, ?_⟩
  · intro j p h
    simp only [apply, AList.get?_insert] at h
    split at h
    · rename_i hj; cases h; exact hj.symm
    · exact inv.metaId _ _ h
  · intro j b h
    obtain ⟨p, hp⟩ := inv.hasMeta j b h
    simp only [apply, AList.get?_insert]
    split
    · exact ⟨_, rfl⟩
    · exact ⟨p, hp⟩

theorem Inv.bundle {s} (inv : Inv s) (b) (hm : ∃ p, AList.get? s.metadata b.id = some p) :
    Inv (s.apply (.bundle b)) := by
  refine ⟨inv.wfB.insert _ _, inv.wfM, inv.metaId, ?_, ?_⟩
  · intro j b' h
    simp only [apply, AList.get?_insert] at h
    split at h
    · rename_i hj; cases h; exact hj.symm
    · exact inv.bundleId _ _ h
  · intro j b' h
    simp only [apply, AList.get?_insert] at h ⊢
    split at h
    · rename_i hj; subst hj; exact hm
    · exact inv.hasMeta _ _ h

theorem Inv.drop {s} (inv : Inv s) (bid) : Inv (s.apply (.dropBundle bid)) := by
  refine ⟨inv.wfB.erase _, inv.wfM, inv.metaId, ?_, ?_⟩ <;> intro j b h <;>
    simp only [apply, AList.get?_erase] at h <;> split at h
  · cases h
  · exact inv.bundleId _ _ h
  · cases h
  · exact inv.hasMeta _ _ h

/-- The possible write sequences of a call. -/
theorem writes_cases {s : SledStore} {op ws} (_inv : Inv s) (h : s.writes op = .ok ws) :
    (∃ now b, op = .push now b ∧ ws = [.bundle b] ∧ ∃ b', AList.get? s.bundles b.id = some b') ∨
    (∃ now b, op = .push now b ∧ ws = [.meta_ (Pack.ofBundle now b), .bundle b] ∧
        AList.get? s.metadata b.id = none ∧ AList.get? s.bundles b.id = none) ∨
    (∃ bp, op = .update bp ∧ ws = [.meta_ bp] ∧ ∃ p, AList.get? s.metadata bp.id = some p) ∨
    (∃ bid m, op = .remove bid ∧ AList.get? s.metadata bid = some m ∧
        ws = [.meta_ (m.clear.add .deleted), .dropBundle bid]) := by
  cases op with
  | push now b =>
    simp only [writes, pushW] at h
    split at h
    · rename_i hc
      left; cases h
      exact ⟨now, b, rfl, rfl, (AList.contains_iff _ _).mp hc⟩
    · split at h
      · cases h
      · rename_i h1 h2
        right; left; cases h
        refine ⟨now, b, rfl, rfl, ?_, ?_⟩
        · cases hm : AList.get? s.metadata b.id with
          | none => rfl
          | some p => exact absurd ((AList.contains_iff _ _).mpr ⟨p, hm⟩) h2
        · cases hm : AList.get? s.bundles b.id with
          | none => rfl
          | some p => exact absurd ((AList.contains_iff _ _).mpr ⟨p, hm⟩) h1
  | update bp =>
    simp only [writes, updateW] at h
    split at h
    · rename_i hc
      right; right; left; cases h
      exact ⟨bp, rfl, rfl, (AList.contains_iff _ _).mp hc⟩
    · cases h
  | remove bid =>
    simp only [writes, removeW, getMetadata] at h
    cases hm : AList.get? s.metadata bid with
    | none => simp [hm] at h
    | some m =>
      simp [hm] at h
      right; right; right
      exact ⟨bid, m, rfl, hm, h.symm⟩

theorem Inv.applyTake {s : SledStore} {op ws} (inv : Inv s) (h : s.writes op = .ok ws) (n) :
    Inv (s.applyAll (ws.take n)) := by
  rcases writes_cases inv h with ⟨now, b, _, rfl, b', hb⟩ | ⟨now, b, _, rfl, hm, hb⟩ |
    ⟨bp, _, rfl, _⟩ | ⟨bid, m, _, hm, rfl⟩
  · have h1 := inv.bundle b (inv.hasMeta _ _ hb)
    rcases n with _ | n <;> simpa [applyAll] using by assumption
  · have h1 := inv.meta_ (Pack.ofBundle now b)
    have h2 := h1.bundle b ⟨Pack.ofBundle now b, by simp [apply]⟩
    rcases n with _ | _ | n <;> simpa [applyAll] using by assumption
  · have h1 := inv.meta_ bp
    rcases n with _ | n <;> simpa [applyAll] using by assumption
  · have h1 := inv.meta_ (m.clear.add .deleted)
    have h2 := h1.drop bid
    rcases n with _ | _ | n <;> simpa [applyAll] using by assumption

theorem step_eq_crash (s : SledStore) (op) : ∃ n, s.step op = s.crashStep op n := by
  unfold step crashStep
  cases h : s.writes op with
  | ok ws => exact ⟨ws.length, by simp⟩
  | err => exact ⟨0, rfl⟩
  | panic => exact ⟨0, rfl⟩

theorem Inv.crash {s : SledStore} (inv : Inv s) (op n) : Inv (s.crashStep op n) := by
  unfold crashStep
  split
  · rename_i ws h; exact inv.applyTake h n
  · exact inv

theorem Inv.step {s : SledStore} (inv : Inv s) (op) : Inv (s.step op) := by
  obtain ⟨n, h⟩ := step_eq_crash s op
  rw [h]; exact inv.crash op n

theorem Inv.event {s : SledStore} (inv : Inv s) (e) : Inv (s.event e) := by
  cases e
  · exact inv.step _
  · exact inv.crash _ _

theorem Inv.run {s : SledStore} (inv : Inv s) (es) : Inv (s.run es) := by
  induction es generalizing s with
  | nil => exact inv
  | cons e es ih => exact ih (inv.event e)

/-- An id known only by metadata (a tombstone or an interrupted push) stays so. -/
theorem lost_crash {s : SledStore} (inv : Inv s) {bid : String}
    (hb : AList.get? s.bundles bid = none) (hm : AList.get? s.metadata bid ≠ none) (op n) :
    AList.get? (s.crashStep op n).bundles bid = none ∧
    AList.get? (s.crashStep op n).metadata bid ≠ none := by
  unfold crashStep
  split
  · rename_i ws h
    rcases writes_cases inv h with ⟨now, b, _, rfl, b', hb'⟩ | ⟨now, b, _, rfl, hm', hb'⟩ |
      ⟨bp, _, rfl, _⟩ | ⟨bid', m, _, hm', rfl⟩
    · have hne : bid ≠ b.id := by intro e; subst e; simp [hb] at hb'
      rcases n with _ | n <;> simp [applyAll, apply, hb, hm, AList.get?_insert, hne]
    · have hne : bid ≠ b.id := by intro e; subst e; exact hm hm'
      rcases n with _ | _ | n <;> simp [applyAll, apply, hb, hm, AList.get?_insert, hne]
    · rcases n with _ | n <;> simp [applyAll, apply, hb, hm, AList.get?_insert]
      split <;> simp [hm]
    · rcases n with _ | _ | n <;>
        simp [applyAll, apply, hb, hm, AList.get?_insert, AList.get?_erase] <;> split <;> simp [hm]
  · exact ⟨hb, hm⟩

theorem lost_event {s : SledStore} (inv : Inv s) {bid : String}
    (hb : AList.get? s.bundles bid = none) (hm : AList.get? s.metadata bid ≠ none) (e) :
    AList.get? (s.event e).bundles bid = none ∧ AList.get? (s.event e).metadata bid ≠ none := by
  cases e with
  | call op =>
    obtain ⟨n, h⟩ := step_eq_crash s op
    show AList.get? (s.step op).bundles bid = none ∧ AList.get? (s.step op).metadata bid ≠ none
    rw [h]; exact lost_crash inv hb hm op n
  | crash op n => exact lost_crash inv hb hm op n

theorem lost_run {s : SledStore} (inv : Inv s) {bid : String}
    (hb : AList.get? s.bundles bid = none) (hm : AList.get? s.metadata bid ≠ none) (es) :
    AList.get? (s.run es).bundles bid = none ∧ AList.get? (s.run es).metadata bid ≠ none := by
  induction es generalizing s with
  | nil => exact ⟨hb, hm⟩
  | cons e es ih =>
    have := lost_event inv hb hm e
    exact ih (inv.event e) this.1 this.2

end Dtn.SledStore
