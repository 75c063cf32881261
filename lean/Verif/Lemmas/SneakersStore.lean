import Verif.Spec.SneakersStore
import Verif.Lemmas.ConnectNRun
/-! Lemmas about the store on directory and database. -/

namespace Dtn.Sneakers
open Spec Spec.SneakersSpec

variable {w : World} {parse : String → Option EID} {names : EID → Option String × Option String}

theorem toSet_toBits (s : CSet) : toSet (toBits s) = s := by
  obtain ⟨a, b, c, d, e, f⟩ := s
  cases a <;> cases b <;> cases c <;> cases d <;> cases e <;> cases f <;> decide

theorem and_or_eq (b f g : Bits) : b &&& (f ||| g) = f ||| g ↔ b &&& f = f ∧ b &&& g = g := by
  constructor
  · intro h
    constructor <;>
    · refine BitVec.eq_of_getLsbD_eq fun i hi => ?_
      have := congrArg (fun x => x.getLsbD i) h
      simp only [BitVec.getLsbD_and, BitVec.getLsbD_or] at this ⊢
      revert this
      cases b.getLsbD i <;> cases f.getLsbD i <;> cases g.getLsbD i <;> decide
  · rintro ⟨h1, h2⟩
    rw [BitVec.and_or_distrib_left, h1, h2]

/-- The flag of a constraint. -/
def flag : Constraint → Bits
  | .dispatchPending => DISPATCH_PENDING
  | .forwardPending => FORWARD_PENDING
  | .reassemblyPending => REASSEMBLY_PENDING
  | .contraindicated => CONTRAINDICATED
  | .localEndpoint => LOCAL_ENDPOINT
  | .deleted => DELETED

theorem toSet_has (c : Bits) (k : Constraint) : (toSet c).has k = contains c (flag k) := by
  unfold toSet
  generalize h1 : contains c DISPATCH_PENDING = a1
  generalize h2 : contains c FORWARD_PENDING = a2
  generalize h3 : contains c REASSEMBLY_PENDING = a3
  generalize h4 : contains c CONTRAINDICATED = a4
  generalize h5 : contains c LOCAL_ENDPOINT = a5
  generalize h6 : contains c DELETED = a6
  have : contains c (flag k) = (match k with
    | .dispatchPending => a1 | .forwardPending => a2 | .reassemblyPending => a3 | .contraindicated => a4 | .localEndpoint => a5 | .deleted => a6) := by
    cases k <;> assumption
  rw [this]
  clear this h1 h2 h3 h4 h5 h6
  revert a1 a2 a3 a4 a5 a6 k
  intro k a1 a2 a3 a4 a5 a6
  cases a1 <;> cases a2 <;> cases a3 <;> cases a4 <;> cases a5 <;> cases a6 <;> cases k <;> rfl

theorem has_iff (c : Bits) (k : Constraint) : (toSet c).has k = true ↔ c &&& flag k = flag k := by
  rw [toSet_has, contains, beq_iff_eq]

theorem sub_iff (c : Bits) (s : CSet) : c &&& toBits s = toBits s ↔ ∀ k, s.has k = true → (toSet c).has k = true := by
  have e : ∀ (x : Bits) (p : Bool) (f : Bits), c &&& (if p then x ||| f else x) = (if p then x ||| f else x) ↔ c &&& x = x ∧ (p = true → c &&& f = f) := by
    intro x p f
    cases p <;> simp [and_or_eq]
  unfold toBits
  simp only []
  rw [e, e, e, e, e, e]
  simp only [has_iff]
  constructor
  · rintro ⟨⟨⟨⟨⟨⟨-, h1⟩, h2⟩, h3⟩, h4⟩, h5⟩, h6⟩ k
    cases k <;> assumption
  · intro h
    exact ⟨⟨⟨⟨⟨⟨by simp, h _⟩, h _⟩, h _⟩, h _⟩, h _⟩, h _⟩

/-- What the calls do, as far as the history tells. -/
structure Reflects (w : World) (parse : String → Option EID) (first : String → Option Bundle) (s : w.σ) (log : List (MemStore.Op × Bool)) : Prop where
  bundle : ∀ id, w.bundle s id = held first id log
  marks : ∀ id c, written id log = some c → w.marks s id = some (toBits c)

theorem updateMetadata_ok (hl : Lawful w names) {s t : w.σ} {bp : Pack} (h : updateMetadata w s bp = (t, true)) :
    w.has s bp.id = true ∧ (∀ j, w.bundle t j = w.bundle s j) ∧ ∀ j, w.marks t j = if j = bp.id then some (toBits bp.constraints) else w.marks s j := by
  unfold updateMetadata at h
  by_cases hh : w.has s bp.id = true
  · rw [hh] at h
    simp only [Bool.not_true, Bool.false_eq_true, if_false] at h
    cases hm : w.mark s bp.id (toBits bp.constraints) with
    | none => rw [hm] at h; simp at h
    | some t' =>
      rw [hm] at h
      simp only [Prod.mk.injEq, and_true] at h
      subst h
      exact ⟨hh, hl.mark _ _ _ _ hm hh⟩
  · simp [hh] at h

theorem updateMetadata_err {s t : w.σ} {bp : Pack} (h : updateMetadata w s bp = (t, false)) : t = s := by
  unfold updateMetadata at h
  split at h
  · simpa using h.symm
  · split at h
    · simp at h
    · simpa using h.symm

theorem getMetadata_id {s : w.σ} {id : String} {m : Pack} (h : getMetadata w parse s id = some m) : m.id = id := by
  unfold getMetadata at h
  split at h
  · cases h
  · split at h
    · cases h
    · cases h; rfl

theorem clear_id (p : Pack) : (p.clear.add .deleted).id = p.id := by
  unfold Pack.clear Pack.add
  dsimp only
  split <;> rfl

theorem remove_cases (hl : Lawful w names) {s t : w.σ} {id : String} {r : Bool} (h : remove w parse s id = (t, r)) :
    (∀ j, j ≠ id → w.marks t j = w.marks s j) ∧ (∀ j, w.bundle t j = if j = id ∧ r = true then none else w.bundle s j) := by
  have drop : ∀ (s' : w.σ), (match w.remove s' id with | some t => (t, true) | none => (s', false)) = (t, r) →
      (∀ j, j ≠ id → w.marks t j = w.marks s' j) ∧ (∀ j, w.bundle t j = if j = id ∧ r = true then none else w.bundle s' j) := by
    intro s' h
    cases hr : w.remove s' id with
    | none =>
      rw [hr] at h
      simp only [Prod.mk.injEq] at h
      obtain ⟨rfl, rfl⟩ := h
      exact ⟨fun _ _ => rfl, fun j => by simp⟩
    | some t' =>
      rw [hr] at h
      simp only [Prod.mk.injEq] at h
      obtain ⟨rfl, rfl⟩ := h
      obtain ⟨h1, h2⟩ := hl.remove _ _ _ hr
      exact ⟨h2, fun j => by simp [h1]⟩
  unfold remove at h
  dsimp only at h
  cases hg : getMetadata w parse s id with
  | none => rw [hg] at h; exact drop s h
  | some m =>
    rw [hg] at h
    dsimp only at h
    cases hu : updateMetadata w s (m.clear.add .deleted) with
    | mk s' ok =>
      rw [hu] at h
      cases ok with
      | false =>
        simp only [Prod.mk.injEq] at h
        obtain ⟨rfl, rfl⟩ := h
        rw [updateMetadata_err hu]
        exact ⟨fun _ _ => rfl, fun j => by simp⟩
      | true =>
        dsimp only at h
        obtain ⟨-, h1, h2⟩ := updateMetadata_ok hl hu
        obtain ⟨h3, h4⟩ := drop s' h
        rw [clear_id, getMetadata_id hg] at h2
        exact ⟨fun j hj => by rw [h3 j hj, h2, if_neg hj], fun j => by rw [h4, h1]⟩

theorem Reflects.step (hl : Lawful w names) {first : String → Option Bundle} {s : w.σ} {log : List (MemStore.Op × Bool)} (v : Reflects w parse first s log)
    (op : MemStore.Op) : Reflects w parse first (step w parse s op).1 ((op, (step w parse s op).2) :: log) := by
  cases op with
  | push now b =>
    simp only [Sneakers.step, push]
    cases hp : w.push now s b with
    | none => exact ⟨v.bundle, v.marks⟩
    | some t =>
      obtain ⟨h1, h2⟩ := hl.push _ _ _ _ hp
      refine ⟨fun id => ?_, fun id c hc => ?_⟩
      · simp only [held]
        rw [h1]
        by_cases e : id = b.id
        · rw [if_pos e, if_pos e.symm]
        · rw [if_neg e, if_neg (Ne.symm e), v.bundle]
      · simp only [written] at hc
        by_cases e : b.id = id
        · rw [if_pos e] at hc; cases hc
        · rw [if_neg e] at hc
          rw [h2 _ (Ne.symm e)]; exact v.marks _ _ hc
  | update bp =>
    simp only [Sneakers.step]
    cases hu : updateMetadata w s bp with
    | mk t ok =>
      cases ok with
      | false => rw [updateMetadata_err hu]; exact ⟨v.bundle, v.marks⟩
      | true =>
        obtain ⟨-, h1, h2⟩ := updateMetadata_ok hl hu
        refine ⟨fun id => by simp only [held]; rw [h1, v.bundle], fun id c hc => ?_⟩
        simp only [written] at hc
        rw [h2]
        by_cases e : bp.id = id
        · rw [if_pos e] at hc; cases hc; rw [if_pos e.symm]
        · rw [if_neg e] at hc
          rw [if_neg (Ne.symm e)]; exact v.marks _ _ hc
  | remove id =>
    simp only [Sneakers.step]
    cases hr : remove w parse s id with
    | mk t ok =>
      obtain ⟨h1, h2⟩ := remove_cases hl hr
      refine ⟨fun j => ?_, fun j c hc => ?_⟩
      · rw [h2]
        cases ok with
        | false => simp only [held]; simp [v.bundle]
        | true =>
          simp only [held]
          by_cases e : j = id
          · simp [e]
          · rw [if_neg (by simp [e]), if_neg (Ne.symm e), v.bundle]
      · have hc' : (if id = j then none else written j log) = some c := by cases ok <;> exact hc
        by_cases e : id = j
        · rw [if_pos e] at hc'; cases hc'
        · rw [if_neg e] at hc'
          rw [h1 _ (Ne.symm e)]; exact v.marks _ _ hc'

theorem Reflects.run (hl : Lawful w names) (s : w.σ) (ops : List MemStore.Op) :
    Reflects w parse (w.bundle s) (run w parse s ops).1 (run w parse s ops).2 := by
  induction ops using List.reverseRecOn with
  | nil => exact ⟨fun _ => rfl, fun _ _ h => by cases h⟩
  | append_singleton ops op ih =>
    have := ih.step hl op
    simpa [Sneakers.run, List.foldl_append] using this

theorem parseU64_toString (n : Nat) (h : n < 2 ^ 64) : parseU64 (toString n).toList = some n := by
  have e : parseU64 (toString n).toList = ConnectN.parseUsize (toString n).toList := rfl
  rw [e, ConnectN.parseUsize_toString h]

end Dtn.Sneakers
