import Verif.Spec.EclaLocks
/-! Threads that take locks in a fixed order do not deadlock. -/

namespace Dtn.EclaLocks
open Spec.EclaLocks

/-- From `held` on, the actions take only locks of greater rank than those held and give everything back. -/
def Ok (rank : Lock → Nat) : List Lock → List Act → Prop
  | held, [] => held = []
  | held, .acq l :: r => (∀ h ∈ held, rank h < rank l) ∧ Ok rank (l :: held) r
  | held, .rel l :: r => Ok rank (held.erase l) r

theorem ok_step {rank ts t t'} (h : Ok rank t.held t.rest) (hs : stepThread ts t = some t') : Ok rank t'.held t'.rest := by
  unfold stepThread at hs
  split at hs
  · cases hs
  · rename_i l r he
    rw [he] at h
    split at hs
    · cases hs
    · cases hs; exact h.2
  · rename_i l r he
    rw [he] at h
    cases hs; exact h

theorem ok_run {rank ts is ts'} (h : ∀ t ∈ ts, Ok rank t.held t.rest) (hr : run ts is = some ts') :
    ∀ t ∈ ts', Ok rank t.held t.rest := by
  induction is generalizing ts with
  | nil => cases hr; exact h
  | cons i is ih =>
    simp only [run] at hr
    cases hs : step ts i with
    | none => simp [hs] at hr
    | some us =>
      rw [hs] at hr
      refine ih ?_ hr
      unfold step at hs
      split at hs
      · cases hs
      · rename_i t ht
        cases hst : stepThread ts t with
        | none => simp [hst] at hs
        | some t' =>
          rw [hst] at hs
          cases hs
          intro u hu
          rcases List.mem_or_eq_of_mem_set hu with hu | rfl
          · exact h u hu
          · exact ok_step (h t (List.mem_of_getElem? ht)) hst

/-- If nothing moves, an unfinished thread waits for a lock held by an unfinished thread that waits for a lock of
greater rank. -/
theorem waits {rank ts} (h : ∀ t ∈ ts, Ok rank t.held t.rest) (hd : ∀ i, step ts i = none) {t : Thread} (ht : t ∈ ts)
    {l r} (hr : t.rest = .acq l :: r) : ∃ u ∈ ts, ∃ l' r', u.rest = .acq l' :: r' ∧ rank l < rank l' := by
  have stuck : ∀ u ∈ ts, stepThread ts u = none := by
    intro u hu
    obtain ⟨i, hi⟩ := List.getElem?_of_mem hu
    have := hd i
    simpa [step, hi] using this
  have h1 := stuck t ht
  unfold stepThread at h1
  rw [hr] at h1
  dsimp only at h1
  split at h1
  · rename_i hany
    obtain ⟨u, hu, hl⟩ := List.any_eq_true.mp hany
    have hl : l ∈ u.held := by simpa using hl
    have hok := h u hu
    cases hrest : u.rest with
    | nil =>
      rw [hrest] at hok
      rw [show u.held = [] from hok] at hl
      cases hl
    | cons a r' =>
      cases a with
      | rel l' =>
        have := stuck u hu
        unfold stepThread at this
        rw [hrest] at this
        cases this
      | acq l' =>
        rw [hrest] at hok
        exact ⟨u, hu, l', r', hrest, hok.1 l hl⟩
  · cases h1

theorem no_deadlock {rank ts B} (hB : ∀ l, rank l < B) (h : ∀ t ∈ ts, Ok rank t.held t.rest) : ¬ Deadlock ts := by
  rintro ⟨hnf, hd⟩
  have key : ∀ n, ∀ t ∈ ts, ∀ l r, t.rest = .acq l :: r → B - rank l = n → False := by
    intro n
    induction n using Nat.strongRecOn with
    | _ n ih =>
      intro t ht l r hr hn
      obtain ⟨u, hu, l', r', hr', hlt⟩ := waits h hd ht hr
      have := hB l'
      have := hB l
      exact ih (B - rank l') (by omega) u hu l' r' hr' rfl
  apply hnf
  intro t ht
  cases hrest : t.rest with
  | nil => rfl
  | cons a r =>
    exfalso
    cases a with
    | acq l => exact key _ t ht l r hrest rfl
    | rel l =>
      obtain ⟨i, hi⟩ := List.getElem?_of_mem ht
      have := hd i
      simp [step, hi, stepThread, hrest] at this

/-! ### The calls -/

/-- `MODULE_MAP` before `CONNECTORS_MAP` before everything else. -/
def rank : Lock → Nat
  | .modules => 0
  | .connectors => 1
  | _ => 2

/-- `CONNECTORS_MAP` before `MODULE_MAP` before everything else. -/
def rank' : Lock → Nat
  | .connectors => 0
  | .modules => 1
  | _ => 2

theorem ok_brief {rk held l r} (h : ∀ k ∈ held, rk k < rk l) (hr : Ok rk held r) : Ok rk held (brief l ++ r) := by
  refine ⟨h, ?_⟩
  change Ok rk ((l :: held).erase l) r
  rw [List.erase_cons_head]
  exact hr

theorem ok_acts {c : Call} (h : ∀ ls, c ≠ .submit ls) : Ok rank [] c.acts := by
  cases c with
  | packet l k => cases l <;> cases k <;> simp [Call.acts, Case.acts, brief, peerMap, beacon, Ok, rank]
  | unknown => simp [Call.acts, brief, Ok]
  | connect l => cases l <;> simp [Call.acts, brief, peerMap, Ok]
  | disconnect l b => cases l <;> cases b <;> simp [Call.acts, disconnectActs, brief, Ok, rank]
  | announce ls =>
    simp only [Call.acts]
    refine ⟨by simp, ?_⟩
    induction ls with
    | nil => simp [Ok]
    | cons l ls ih =>
      simp only [List.flatMap_cons]
      cases l <;> simpa [brief, peerMap, beacon, Ok, rank] using ih
  | submit ls => exact absurd rfl (h ls)

theorem ok_submit {c : Call} (h : (∃ ls, c = .submit ls) ∨ (∃ l, c = .connect l) ∨ (∃ l b, c = .disconnect l b) ∨ c = .unknown) :
    Ok rank' [] c.acts := by
  rcases h with ⟨ls, rfl⟩ | ⟨l, rfl⟩ | ⟨l, b, rfl⟩ | rfl
  · simp only [Call.acts]
    refine ⟨by simp, by simp [rank'], ?_⟩
    induction ls with
    | nil => simp [Ok]
    | cons l ls ih =>
      simp only [List.flatMap_cons]
      cases l <;> simpa [brief, peerMap, Ok, rank'] using ih
  · cases l <;> simp [Call.acts, brief, peerMap, Ok]
  · cases l <;> cases b <;> simp [Call.acts, disconnectActs, brief, Ok, rank']
  · simp [Call.acts, brief, Ok]

end Dtn.EclaLocks
