import Verif.Model.Digest
import Verif.Spec.Digest
import Verif.Lemmas.Listing
/-! Lemmas about digests. -/

namespace Dtn.Digest
open Spec

theorem sortIds_perm (l : List String) : (sortIds l).Perm l := List.mergeSort_perm _ _

theorem sortIds_sorted (l : List String) : (sortIds l).Pairwise (fun a b => a.toList ≤ b.toList) := by
  have := List.pairwise_mergeSort (le := fun a b : String => decide (a.toList ≤ b.toList))
    (fun a b c h1 h2 => by simp only [decide_eq_true_eq] at *; exact List.le_trans h1 h2)
    (fun a b => by
      simp only [Bool.or_eq_true, decide_eq_true_eq]; exact List.le_total _ _) l
  simpa [sortIds] using this

theorem sortIds_congr {l l' : List String} (h : l.Perm l') : sortIds l = sortIds l' := by
  refine List.Perm.eq_of_pairwise (le := fun a b : String => a.toList ≤ b.toList) ?_ (sortIds_sorted l) (sortIds_sorted l')
    ((sortIds_perm l).trans (h.trans (sortIds_perm l').symm))
  intro a b _ _ h1 h2
  exact String.toList_inj.mp (List.le_antisymm h1 h2)

theorem OneColon.ne_nil {s : List Char} (h : OneColon s) : s ≠ [] := by
  obtain ⟨a, b, c, r, rfl, _⟩ := h; simp

/-- Two decodings that start with ids of different length contradict each other. -/
theorem no_longer {x y : List Char} {r : List Char} {l : List (List Char)} (hx : OneColon x) (hy : OneColon (x ++ y)) (hne : y ≠ [])
    (hl : ∀ z ∈ l, OneColon z) (hr : r = [] ∨ ∃ z t, OneColon z ∧ r = z ++ t) (h : l.flatten = y ++ r) : False := by
  have hyc : ':' ∉ y := by
    obtain ⟨a, b, c, s, rfl, _⟩ := hx
    obtain ⟨a', b', c', s', e, _, _, _, hs'⟩ := hy
    simp only [List.cons_append, List.cons.injEq, true_and] at e
    obtain ⟨_, _, _, rfl⟩ := e
    intro hc; exact hs' (List.mem_append_right _ hc)
  cases l with
  | nil =>
    simp only [List.flatten_nil] at h
    cases y with
    | nil => exact hne rfl
    | cons c y => simp at h
  | cons z l =>
    obtain ⟨a, b, c, s, rfl, ha, hb, hc, _⟩ := hl z (by simp)
    rw [List.flatten_cons] at h
    have hr' : ':' ∈ r := by
      have : ':' ∈ y ++ r := by rw [← h]; simp
      rcases List.mem_append.mp this with h' | h'
      · exact absurd h' hyc
      · exact h'
    rcases hr with rfl | ⟨z', t, ⟨a', b', c', s', rfl, ha', hb', hc', _⟩, rfl⟩
    · simp at hr'
    · rcases y with _ | ⟨y1, _ | ⟨y2, _ | ⟨y3, _ | ⟨y4, y⟩⟩⟩⟩
      · exact hne rfl
      · simp only [List.cons_append, List.nil_append, List.cons.injEq] at h
        exact hc' h.2.2.2.1.symm
      · simp only [List.cons_append, List.nil_append, List.cons.injEq] at h
        exact hb' h.2.2.2.1.symm
      · simp only [List.cons_append, List.nil_append, List.cons.injEq] at h
        exact ha' h.2.2.2.1.symm
      · simp only [List.cons_append, List.cons.injEq] at h
        apply hyc
        rw [← h.2.2.2.1]; simp

theorem flatten_start {l : List (List Char)} (hl : ∀ z ∈ l, OneColon z) :
    l.flatten = [] ∨ ∃ z t, OneColon z ∧ l.flatten = z ++ t := by
  cases l with
  | nil => left; rfl
  | cons z l => right; exact ⟨z, l.flatten, hl z (by simp), List.flatten_cons⟩

theorem flatten_inj : ∀ {l l' : List (List Char)}, (∀ z ∈ l, OneColon z) → (∀ z ∈ l', OneColon z) →
    l.flatten = l'.flatten → l = l'
  | [], [], _, _, _ => rfl
  | [], z :: l', _, h', h => by
    obtain ⟨a, b, c, r, rfl, _⟩ := h' z (by simp)
    simp at h
  | z :: l, [], h', _, h => by
    obtain ⟨a, b, c, r, rfl, _⟩ := h' z (by simp)
    simp at h
  | z :: l, z' :: l', hl, hl', h => by
    rw [List.flatten_cons, List.flatten_cons] at h
    have hz := hl z (by simp)
    have hz' := hl' z' (by simp)
    have ht : ∀ w ∈ l, OneColon w := fun w hw => hl w (List.mem_cons_of_mem _ hw)
    have ht' : ∀ w ∈ l', OneColon w := fun w hw => hl' w (List.mem_cons_of_mem _ hw)
    rcases List.append_eq_append_iff.mp h with ⟨y, e1, e2⟩ | ⟨y, e1, e2⟩
    · by_cases hy : y = []
      · subst hy
        simp only [List.append_nil] at e1
        simp only [List.nil_append] at e2
        rw [e1, flatten_inj ht ht' e2]
      · exact absurd (no_longer hz (e1 ▸ hz') hy ht (flatten_start ht') e2) id
    · by_cases hy : y = []
      · subst hy
        simp only [List.append_nil] at e1
        simp only [List.nil_append] at e2
        rw [e1, flatten_inj ht ht' e2.symm]
      · exact absurd (no_longer hz' (e1 ▸ hz) hy ht' (flatten_start ht) e2) id

theorem textOfBids_inj {l l' : List String} (h : ∀ z ∈ l, OneColon z.toList) (h' : ∀ z ∈ l', OneColon z.toList)
    (e : textOfBids l = textOfBids l') : l = l' := by
  have := @flatten_inj (l.map String.toList) (l'.map String.toList)
    (by simpa using h) (by simpa using h') (by simpa [textOfBids, List.flatMap] using e)
  exact List.map_inj_right (fun a b h => String.toList_inj.mp h) |>.mp this

theorem nodup_mem_perm {l l' : List String} (h : l.Nodup) (h' : l'.Nodup) (e : ∀ x, x ∈ l ↔ x ∈ l') : l.Perm l' :=
  (List.perm_ext_iff_of_nodup h h').mpr e

/-- Metadata exists exactly for the ids ever pushed. -/
theorem known_iff_pushed (ops : List MemStore.Op) (bid : String) :
    (∃ p, (MemStore.new.run ops).getMetadata bid = some p) ↔ pushedMem ops bid := by
  suffices H : ∀ l : List MemStore.Op, (∃ p, (MemStore.new.run l.reverse).getMetadata bid = some p) ↔
      pushedMem l.reverse bid by simpa using H ops.reverse
  intro l
  induction l with
  | nil => simp [pushedMem, MemStore.run, MemStore.new, MemStore.getMetadata]
  | cons op l ih =>
    have inv : MemStore.Inv (MemStore.new.run l.reverse) := MemStore.Inv.new.run _
    rw [List.reverse_cons, MemStore.run_snoc]
    have hp : pushedMem (l.reverse ++ [op]) bid ↔ pushedMem l.reverse bid ∨ ∃ now b, op = .push now b ∧ b.id = bid := by
      constructor
      · rintro ⟨now, b, h, e⟩
        rcases List.mem_append.mp h with h | h
        · exact Or.inl ⟨now, b, h, e⟩
        · exact Or.inr ⟨now, b, (List.mem_singleton.mp h).symm, e⟩
      · rintro (⟨now, b, h, e⟩ | ⟨now, b, h, e⟩)
        · exact ⟨now, b, List.mem_append_left _ h, e⟩
        · exact ⟨now, b, List.mem_append_right _ (by simp [h]), e⟩
    rw [hp, ← ih]
    cases op with
    | push now b =>
      show (∃ p, (MemStore.push now _ b).getMetadata bid = some p) ↔ _
      rw [MemStore.getMetadata_push]
      by_cases h : bid = b.id
      · subst h
        by_cases hb : (MemStore.new.run l.reverse).getBundle b.id = none
        · rw [if_pos ⟨rfl, hb⟩]; exact ⟨fun _ => Or.inr ⟨now, b, rfl, rfl⟩, fun _ => ⟨_, rfl⟩⟩
        · rw [if_neg (fun h => hb h.2)]
          obtain ⟨b', hb'⟩ := Option.ne_none_iff_exists'.mp hb
          have := inv.hasMeta _ _ hb'
          simp [this]
      · rw [if_neg (fun h' => h h'.1)]
        simp only [MemStore.Op.push.injEq]
        constructor
        · exact Or.inl
        · rintro (h' | ⟨_, _, ⟨_, rfl⟩, e⟩)
          · exact h'
          · exact absurd e.symm h
    | update bp =>
      show (∃ p, (MemStore.updateMetadata _ bp).1.getMetadata bid = some p) ↔ _
      rw [MemStore.getMetadata_update]
      simp only [reduceCtorEq, false_and, exists_false, or_false]
      by_cases h : bid = bp.id ∧ (MemStore.new.run l.reverse).getMetadata bp.id ≠ none
      · rw [if_pos h]
        obtain ⟨rfl, h⟩ := h
        obtain ⟨p, hp⟩ := Option.ne_none_iff_exists'.mp h
        simp [hp]
      · rw [if_neg h]
    | remove j =>
      show (∃ p, (MemStore.remove _ j).1.getMetadata bid = some p) ↔ _
      rw [MemStore.getMetadata_remove inv]
      simp only [reduceCtorEq, false_and, exists_false, or_false]
      by_cases h : bid = j
      · subst h; rw [if_pos rfl]
        cases (MemStore.new.run l.reverse).getMetadata bid <;> simp
      · rw [if_neg h]

theorem mem_ids {s : MemStore} (inv : MemStore.Inv s) (bid : String) :
    bid ∈ s.packs.map Pack.id ↔ ∃ p, s.getMetadata bid = some p := by
  show bid ∈ (AList.values s.metadata).map Pack.id ↔ _
  rw [map_id_values inv.wfM inv.metaId, AList.mem_keys_iff]; rfl

theorem mem_ids_sled {s : SledStore} (inv : SledStore.Inv s) (bid : String) :
    bid ∈ s.packs.map Pack.id ↔ ∃ p, s.getMetadata bid = .ok (some p) := by
  show bid ∈ (AList.values s.metadata).map Pack.id ↔ _
  rw [map_id_values inv.wfM inv.metaId, AList.mem_keys_iff]
  simp only [SledStore.getMetadata_ok]

theorem nodup_ids_sled {s : SledStore} (inv : SledStore.Inv s) : (s.packs.map Pack.id).Nodup := by
  show ((AList.values s.metadata).map Pack.id).Nodup
  rw [map_id_values inv.wfM inv.metaId]; exact inv.wfM

theorem completeText_inj {ps qs : List Pack} (h : ∀ p ∈ ps, OneColon p.id.toList) (h' : ∀ p ∈ qs, OneColon p.id.toList)
    (e : completeText ps = completeText qs) (bid : String) : bid ∈ ps.map Pack.id ↔ bid ∈ qs.map Pack.id := by
  have hs : ∀ l : List Pack, (∀ p ∈ l, OneColon p.id.toList) → ∀ z ∈ sortIds (l.map Pack.id), OneColon z.toList := by
    intro l hl z hz
    obtain ⟨p, hp, rfl⟩ := List.mem_map.mp ((sortIds_perm _).mem_iff.mp hz)
    exact hl p hp
  have := textOfBids_inj (hs _ h) (hs _ h') e
  rw [← (sortIds_perm (ps.map Pack.id)).mem_iff, this, (sortIds_perm _).mem_iff]

theorem digit_ne_colon {n : Nat} : ':' ∉ Nat.toDigits 10 n := by
  intro this
  have := Nat.isDigit_of_mem_toDigits (by decide) (by decide) this
  exact absurd this (by decide)

theorem bundleId_oneColon {e : EID} (h : ∀ n s, e = .dtn n s → ':' ∉ n.toList ∧ ':' ∉ s.toList) (t q : Nat) :
    OneColon (bundleId e t q).toList := by
  have hd := @digit_ne_colon t
  have hq := @digit_ne_colon q
  cases e with
  | none =>
    refine ⟨'d', 't', 'n', "none-".toList ++ (toString t).toList ++ '-' :: (toString q).toList, ?_, by decide, by decide, by decide, ?_⟩
    · simp [bundleId, EID.print]
    · simp [hd, hq]
  | dtn n s =>
    obtain ⟨hn, hs⟩ := h n s rfl
    refine ⟨'d', 't', 'n', '/' :: '/' :: n.toList ++ '/' :: s.toList ++ '-' :: (toString t).toList ++ '-' :: (toString q).toList,
      ?_, by decide, by decide, by decide, ?_⟩
    · simp [bundleId, EID.print]
    · simp [hd, hq, hn, hs]
  | ipn n s =>
    have h1 := @digit_ne_colon n
    have h2 := @digit_ne_colon s
    refine ⟨'i', 'p', 'n', (toString n).toList ++ '.' :: (toString s).toList ++ '-' :: (toString t).toList ++ '-' :: (toString q).toList,
      ?_, by decide, by decide, by decide, ?_⟩
    · simp [bundleId, EID.print]
    · simp [hd, hq, h1, h2]

end Dtn.Digest
