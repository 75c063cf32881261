import Verif.Lemmas.ProcGood
import Verif.Lemmas.ProcBlocks
/-! What is known about the copies that are sent. -/

namespace Dtn.Proc
open Spec (SameBut PassedOn AtMostOne)

theorem SameBut.perm {A : List Nat} {ys zs : List Block} (hp : ys.Perm zs) :
    ∀ {xs : List Block}, SameBut A xs ys → ∃ ws, xs.Perm ws ∧ SameBut A ws zs := by
  induction hp with
  | nil => intro xs h; exact ⟨xs, .refl _, h⟩
  | cons y _ ih =>
    intro xs h
    match xs, h with
    | x :: xs, h =>
      obtain ⟨ws, h1, h2⟩ := ih h.2
      exact ⟨x :: ws, h1.cons x, h.1, h2⟩
  | swap y z l =>
    intro xs h
    match xs, h with
    | a :: b :: xs, h => exact ⟨b :: a :: xs, .swap _ _ _, h.2.1, h.1, h.2.2⟩
    | [_], h => exact h.2.elim
  | trans _ _ ih1 ih2 =>
    intro xs h
    obtain ⟨ws, h1, h2⟩ := ih1 h
    obtain ⟨vs, h3, h4⟩ := ih2 h2
    exact ⟨vs, h1.trans h3, h4⟩

theorem hop_ne_prev : HOP_COUNT_BLOCK ≠ PREVIOUS_NODE_BLOCK := by decide
theorem hop_ne_age : HOP_COUNT_BLOCK ≠ BUNDLE_AGE_BLOCK := by decide
theorem age_ne_prev : BUNDLE_AGE_BLOCK ≠ PREVIOUS_NODE_BLOCK := by decide

theorem hopCount_congr {b b' : Bundle} (h : first HOP_COUNT_BLOCK b.canonicals = first HOP_COUNT_BLOCK b'.canonicals) :
    Spec.hopCount b = Spec.hopCount b' := by
  unfold first at h; unfold Spec.hopCount; rw [h]

theorem bundleAge_congr {b b' : Bundle} (h : first BUNDLE_AGE_BLOCK b.canonicals = first BUNDLE_AGE_BLOCK b'.canonicals) :
    Spec.bundleAge b = Spec.bundleAge b' := by
  unfold first at h; unfold Spec.bundleAge; rw [h]

theorem previousNode_congr {b b' : Bundle}
    (h : first PREVIOUS_NODE_BLOCK b.canonicals = first PREVIOUS_NODE_BLOCK b'.canonicals) :
    Spec.previousNode b = Spec.previousNode b' := by
  unfold first at h; unfold Spec.previousNode; rw [h]

variable {host : EID} {t : Transfer}

theorem Copied.primary (h : Copied host t) : t.out.primary = t.stored.primary := by
  obtain ⟨b2, h1, h2, -⟩ := h.made
  rw [h2, raiseAge_primary, setPrevious_primary h1, raiseHop_primary]

theorem Copied.hopCount (h : Copied host t) (hone : AtMostOne HOP_COUNT_BLOCK t.stored) :
    Spec.hopCount t.out = (Spec.hopCount t.stored).map fun (l, k) => (l, (k + 1) % 256) := by
  obtain ⟨b2, h1, h2, -⟩ := h.made
  rw [← raiseHop_hopCount]
  apply hopCount_congr
  rw [h2, raiseAge_first hop_ne_age, setPrevious_first h1 hop_ne_prev]
  rw [raiseHop_howMany]; exact hone

theorem Copied.previousNode (h : Copied host t) : Spec.previousNode t.out = some host := by
  obtain ⟨b2, h1, h2, -⟩ := h.made
  rw [← setPrevious_previousNode h1]
  apply previousNode_congr
  rw [h2, raiseAge_first age_ne_prev.symm]

theorem Copied.age (h : Copied host t) (hone : AtMostOne BUNDLE_AGE_BLOCK t.stored) {a r : Nat}
    (ha : Spec.bundleAge t.stored = some a) (hr : t.receivedAt = some r) (hle : r ≤ t.agedAt)
    (ho : a + (t.agedAt - r) < u64) : Spec.bundleAge t.out = some (a + (t.agedAt - r)) := by
  obtain ⟨b2, h1, h2, -⟩ := h.made
  rw [h2, hr]
  refine raiseAge_age ?_ hle ho
  rw [← ha]
  apply bundleAge_congr
  rw [setPrevious_first h1 age_ne_prev, raiseHop_first hop_ne_age.symm]
  rw [raiseHop_howMany]; exact hone

theorem SameBut.types {A : List Nat} : ∀ {xs ys : List Block}, SameBut A xs ys → xs.map Block.btype = ys.map Block.btype
  | [], [], _ => rfl
  | x :: xs, y :: ys, h => by
    simp only [List.map_cons, SameBut.types h.2, List.cons.injEq, and_true]
    rcases h.1 with rfl | h1
    · rfl
    · exact h1.2.1
  | [], _ :: _, h => h.elim
  | _ :: _, [], h => h.elim

theorem SameBut.nums {A : List Nat} : ∀ {xs ys : List Block}, SameBut A xs ys → xs.map Block.num = ys.map Block.num
  | [], [], _ => rfl
  | x :: xs, y :: ys, h => by
    simp only [List.map_cons, SameBut.nums h.2, List.cons.injEq, and_true]
    rcases h.1 with rfl | h1
    · rfl
    · exact h1.2.2.1
  | [], _ :: _, h => h.elim
  | _ :: _, [], h => h.elim

theorem Copied.passedOn (h : Copied host t) : PassedOn host t.out t.stored := by
  refine ⟨h.primary, ?_⟩
  obtain ⟨b2, h1, h2, -⟩ := h.made
  have s3 := raiseAge_sameBut t.agedAt t.receivedAt b2
  rw [← h2] at s3
  have s1 := raiseHop_sameBut t.stored
  rcases setPrevious_cases h1 with ⟨c, e, hf, hd, rfl⟩ | ⟨hf, rfl⟩
  · left
    rw [raiseHop_first hop_ne_prev.symm] at hf
    have hc := List.find?_some hf
    refine ⟨⟨c, List.mem_of_find?_eq_some hf, by simpa using hc⟩, ?_⟩
    refine SameBut.trans (SameBut.mono (by simp) s3) (SameBut.trans (SameBut.mono (by simp) (SameBut.setFirst _ _ _)) ?_)
    exact SameBut.mono (by simp) s1
  · right
    rw [raiseHop_first hop_ne_prev.symm] at hf
    refine ⟨by simpa using List.find?_eq_none.mp hf, ?_⟩
    obtain ⟨num, hnum, hp⟩ := addBlock_perm (raiseHop t.stored).1
      { btype := PREVIOUS_NODE_BLOCK, num := 0, data := .previousNode host }
    obtain ⟨ws, hw1, hw2⟩ := SameBut.perm hp s3
    match ws, hw1, hw2 with
    | w :: ws, hw1, hw2 =>
      have hw : w = { btype := PREVIOUS_NODE_BLOCK, num := num, data := .previousNode host } := by
        rcases hw2.1 with h | ⟨h, h', -⟩
        · exact h
        · rw [List.mem_singleton] at h
          rw [h] at h'
          exact absurd h' age_ne_prev
      refine ⟨w, ws, hw1, SameBut.trans (SameBut.mono (by simp) hw2.2) (SameBut.mono (by simp) s1), ?_, ?_, ?_⟩
      · rw [hw]
      · rw [hw]
      · rw [hw]
        intro c hc he
        have : c.num ∈ (raiseHop t.stored).1.canonicals.map Block.num := by
          rw [SameBut.nums s1]; exact List.mem_map.mpr ⟨c, hc, rfl⟩
        obtain ⟨x, hx, hxn⟩ := List.mem_map.mp this
        exact hnum x hx (hxn.trans he)

end Dtn.Proc
