import Verif.Props.Store
import Verif.Model.Janitor
/-!
Properties C11 (expiry sweep) and C12 (janitor selection).
-/

namespace Dtn.Props
open Spec

/-! ## C11 -/

theorem hasExpired_iff_of_lt {now : Nat} {p : Pack} (h : p.creationTime + p.lifetime < 2 ^ 64) :
    p.hasExpired now = true ↔ Expired now p := by
  unfold Pack.hasExpired Expired u64
  rw [Nat.mod_eq_of_lt h]
  by_cases h0 : p.lifetime = 0 <;> simp [h0]

open Classical in
/-- C11 (for metadata whose creation time plus lifetime fits into 64 bits, see
`C11_overflow_violated`): the sweep removes exactly the expired bundles, marks exactly
their metadata as deleted, and changes nothing else. -/
theorem C11_expiry_sweep_exact_partial (ops : List MemStore.Op) (now : Nat) (bid : String)
    (hfit : ∀ p, (MemStore.new.run ops).getMetadata bid = some p →
      p.creationTime + p.lifetime < 2 ^ 64) :
    let s := MemStore.new.run ops
    let s' := s.deleteExpired now
    let dead := ∃ p, s.getMetadata bid = some p ∧ p.has .deleted = false ∧ Expired now p
    (dead → s'.getBundle bid = none ∧ ∃ q, s'.getMetadata bid = some q ∧ q.has .deleted = true) ∧
    (¬ dead → s'.getBundle bid = s.getBundle bid ∧ s'.getMetadata bid = s.getMetadata bid) := by
  intro s s' dead
  have inv : MemStore.Inv s := MemStore.Inv.new.run _
  have hs := MemStore.deleteExpired_spec inv now bid
  have hd : (∃ m, s.getMetadata bid = some m ∧ m.has .deleted = false ∧ m.hasExpired now = true) ↔ dead := by
    constructor
    · rintro ⟨m, h1, h2, h3⟩; exact ⟨m, h1, h2, (hasExpired_iff_of_lt (hfit m h1)).mp h3⟩
    · rintro ⟨m, h1, h2, h3⟩; exact ⟨m, h1, h2, (hasExpired_iff_of_lt (hfit m h1)).mpr h3⟩
  simp only [hd] at hs
  constructor
  · intro hdead
    simp only [hdead, if_true] at hs
    refine ⟨hs.1, ?_⟩
    obtain ⟨p, hp, _⟩ := hdead
    exact ⟨MemStore.tomb p, by rw [hs.2, hp]; rfl, by simp [MemStore.tomb, Pack.has_add]⟩
  · intro hdead
    simp only [hdead, if_false] at hs
    exact hs

example : ∃ p, (MemStore.new.run exOps).getMetadata "a-1" = some p ∧ p.has .deleted = false ∧
    Expired 70000 p ∧ ¬ Expired 60000 p ∧ p.creationTime + p.lifetime < 2 ^ 64 := by
  exact ⟨_, rfl, by decide, by simp [Expired]; decide, by simp [Expired]; decide, by decide⟩

/-- A bundle whose creation time plus lifetime does not fit into 64 bits. -/
def exOverflow : Bundle :=
  { exBundle "a-3" with primary := { (exBundle "a-3").primary with lifetime := 2 ^ 64 - 1 } }

/-- C11 is false when creation time plus lifetime exceeds 64 bits: a bundle that is not expired
(created at 1000, now 2000, lifetime of 584 million years) is removed by the sweep. -/
theorem C11_overflow_violated :
    let s := MemStore.new.run [.push 5 exOverflow]
    (∃ p, s.getMetadata "a-3" = some p ∧ ¬ Expired 2000 p) ∧
    s.getBundle "a-3" = some exOverflow ∧ (s.deleteExpired 2000).getBundle "a-3" = none := by
  refine ⟨⟨Pack.ofBundle 5 exOverflow, by decide, by simp [Expired, Pack.ofBundle, exOverflow, exBundle]⟩, by decide, by decide⟩

/-! ## C12 -/

/-- C12: with an accepting CLA, a janitor run forwards exactly the packs marked
`ForwardPending` and not `Deleted` after the expiry sweep, each once, in order of creation time. -/
theorem C12_janitor_forwards_pending_in_order (ops : List MemStore.Op) (now : Nat) :
    let r := Janitor.processBundles now true (MemStore.new.run ops)
    (∀ p, p ∈ r.2 ↔ r.1.getMetadata p.id = some p ∧ p.has .forwardPending = true ∧
        p.has .deleted = false) ∧
    (r.2.map Pack.id).Nodup ∧
    r.2.Pairwise (fun a b => a.creationTime ≤ b.creationTime) ∧
    r.1 = (MemStore.new.run ops).deleteExpired now := by
  intro r
  have inv0 : MemStore.Inv (MemStore.new.run ops) := MemStore.Inv.new.run _
  have inv : MemStore.Inv ((MemStore.new.run ops).deleteExpired now) := inv0.deleteExpired now
  have hr : r = ((MemStore.new.run ops).deleteExpired now,
      Janitor.selection ((MemStore.new.run ops).deleteExpired now)) := by
    simp [r, Janitor.processBundles]
  rw [hr]
  generalize (MemStore.new.run ops).deleteExpired now = s at *
  have hfm : s.forwarding.filterMap s.getMetadata =
      s.packs.filter (fun e => e.has .forwardPending) := by
    unfold MemStore.forwarding MemStore.filter
    have hp : AList.values s.metadata = s.packs := rfl
    rw [hp, List.filterMap_map]
    have : ∀ l : List Pack, (∀ p ∈ l, p ∈ s.packs) →
        (l.filter (fun e => [Constraint.forwardPending].all fun c => e.has c)).filterMap
          (s.getMetadata ∘ Pack.id) = l.filter (fun e => e.has .forwardPending) := by
      intro l hl
      induction l with
      | nil => rfl
      | cons p l ih =>
        have hm := (MemStore.mem_packs_iff inv p).mp (hl p (by simp))
        have ih := ih (fun q hq => hl q (by simp [hq]))
        by_cases hf : p.has .forwardPending = true
        · simp only [List.all_cons, List.all_nil, Bool.and_true] at ih ⊢
          simp [hf, hm, ih]
        · simp only [List.all_cons, List.all_nil, Bool.and_true] at ih ⊢
          simp [hf, ih]
    exact this s.packs (fun p hp => hp)
  have hsel : Janitor.selection s = ((s.packs.filter (fun e => e.has .forwardPending)).filter
      (fun bp => !bp.has .deleted)).mergeSort (fun a b => decide (a.creationTime ≤ b.creationTime)) := by
    unfold Janitor.selection; dsimp only; rw [hfm]
  refine ⟨?_, ?_, ?_, rfl⟩
  · intro p
    show p ∈ Janitor.selection s ↔ _
    rw [hsel, List.mem_mergeSort, List.mem_filter, List.mem_filter, MemStore.mem_packs_iff inv]
    simp [and_assoc]
  · show ((Janitor.selection s).map Pack.id).Nodup
    rw [hsel]
    have hperm := List.mergeSort_perm ((s.packs.filter (fun e => e.has .forwardPending)).filter
      (fun bp => !bp.has .deleted)) (fun a b => decide (a.creationTime ≤ b.creationTime))
    rw [(hperm.map Pack.id).nodup_iff]
    refine List.Pairwise.sublist ?_ (MemStore.nodup_packs_ids inv)
    exact ((List.filter_sublist).trans (List.filter_sublist)).map _
  · show (Janitor.selection s).Pairwise _
    rw [hsel]
    have := List.pairwise_mergeSort (le := fun a b : Pack => decide (a.creationTime ≤ b.creationTime))
      (by intro a b c; simp only [decide_eq_true_eq]; omega)
      (by intro a b; simp only [Bool.or_eq_true, decide_eq_true_eq]; omega)
      ((s.packs.filter (fun e => e.has .forwardPending)).filter (fun bp => !bp.has .deleted))
    simpa using this

/-- C12: without an accepting CLA nothing is forwarded. -/
theorem C12_janitor_idle_without_cla (s : MemStore) (now : Nat) :
    (Janitor.processBundles now false s).2 = [] := rfl

example : ((Janitor.processBundles 2000 true (MemStore.new.run exOps)).2.map Pack.id) = ["a-1"] := by
  simp [Janitor.processBundles, Janitor.selection, MemStore.deleteExpired, exOps, exBundle, MemStore.run, MemStore.step,
    MemStore.push, MemStore.new, AList.contains, AList.get?, AList.insert, AList.erase, Pack.ofBundle, MemStore.remove,
    MemStore.updateMetadata, MemStore.getMetadata, MemStore.packs, AList.values, Pack.add, Pack.clear, Pack.has, CSet.has,
    CSet.set, CSet.empty, Bundle.id, MemStore.deleteAll, Pack.hasExpired, u64, MemStore.forwarding, MemStore.filter]

end Dtn.Props
