import Verif.Spec.Discovery
import Verif.Lemmas.White
/-! Lemmas about words and numbers in texts. -/

namespace Dtn.Discovery
open Spec.Discovery

theorem isSpace_iff (c : Char) : isSpace c = true ↔ Space c := by
  exact isWhite_iff c

theorem wordsAux_word (w : List Char) (hw : ∀ c ∈ w, isSpace c = false) : ∀ (cur rest : List Char),
    wordsAux cur (w ++ rest) = wordsAux (w.reverse ++ cur) rest := by
  induction w with
  | nil => intro cur rest; rfl
  | cons c w ih =>
    intro cur rest
    simp only [List.cons_append, wordsAux, hw c (by simp), Bool.false_eq_true, if_false]
    rw [ih (fun x hx => hw x (by simp [hx]))]
    simp

theorem wordsAux_space (sp : List Char) (h : ∀ c ∈ sp, isSpace c = true) (rest : List Char) :
    wordsAux [] (sp ++ rest) = wordsAux [] rest := by
  induction sp with
  | nil => rfl
  | cons c sp ih =>
    simp only [List.cons_append, wordsAux, h c (by simp), if_true, List.isEmpty_nil]
    exact ih fun x hx => h x (by simp [hx])

theorem words_of_splits {s : List Char} {ws : List (List Char)} (h : Splits s ws) : words s = ws := by
  unfold words
  induction h with
  | nil h =>
    have := wordsAux_space _ (fun c hc => (isSpace_iff c).mpr (h c hc)) []
    rw [List.append_nil] at this
    rw [this]; rfl
  | @word sp w rest ws h1 h2 h3 h4 _ ih =>
    rw [List.append_assoc, wordsAux_space sp (fun c hc => (isSpace_iff c).mpr (h1 c hc)),
      wordsAux_word w (fun c hc => by rw [Bool.eq_false_iff]; exact fun hs => h3 c hc ((isSpace_iff c).mp hs))]
    have hne : (w.reverse ++ []).isEmpty = false := by simpa using h2
    rcases h4 with rfl | ⟨c, cs, rfl, hc⟩
    · rw [wordsAux] at ih
      simp only [wordsAux, hne, Bool.false_eq_true, if_false]
      simp only [List.isEmpty_nil, if_true] at ih
      simp [← ih]
    · have hs := (isSpace_iff c).mpr hc
      simp only [wordsAux, hs, if_true, hne, Bool.false_eq_true, if_false, List.isEmpty_nil] at ih ⊢
      rw [ih]; simp

/-- The text begun and the text left, split. -/
theorem splits_wordsAux : ∀ (rest cur : List Char), (∀ c ∈ cur, ¬Space c) → Splits (cur.reverse ++ rest) (wordsAux cur rest) := by
  intro rest
  induction rest with
  | nil =>
    intro cur hc
    simp only [wordsAux, List.append_nil]
    cases cur with
    | nil => exact .nil (by simp)
    | cons a cur =>
      have := Splits.word (sp := []) (w := (a :: cur).reverse) (rest := []) (ws := []) (by simp) (by simp)
        (fun c h => hc c (List.mem_reverse.mp h)) (.inl rfl) (.nil (by simp))
      simpa using this
  | cons c rest ih =>
    intro cur hc
    by_cases hs : Space c
    · have h1 := (isSpace_iff c).mpr hs
      have h2 : Splits (c :: rest) (wordsAux [] rest) := by
        have := ih [] (by simp)
        rw [List.reverse_nil, List.nil_append] at this
        generalize wordsAux [] rest = ws at this
        cases this with
        | nil h => exact .nil (by intro x hx; rcases List.mem_cons.mp hx with rfl | hx; exact hs; exact h x hx)
        | @word sp w r ws g1 g2 g3 g4 g5 =>
          have := Splits.word (sp := c :: sp) (by intro x hx; rcases List.mem_cons.mp hx with rfl | hx; exact hs; exact g1 x hx) g2 g3 g4 g5
          simpa using this
      cases cur with
      | nil =>
        simp only [wordsAux, h1, if_true, List.isEmpty_nil]
        exact h2
      | cons a cur =>
        simp only [wordsAux, h1, if_true, List.isEmpty_cons, Bool.false_eq_true, if_false]
        have := Splits.word (sp := []) (w := (a :: cur).reverse) (by simp) (by simp)
          (fun x h => hc x (List.mem_reverse.mp h)) (.inr ⟨c, rest, rfl, hs⟩) h2
        simpa using this
    · have h1 : isSpace c = false := by rw [Bool.eq_false_iff]; exact fun h => hs ((isSpace_iff c).mp h)
      simp only [wordsAux, h1, Bool.false_eq_true, if_false]
      have := ih (c :: cur) (by intro x hx; rcases List.mem_cons.mp hx with rfl | hx; exact hs; exact hc x hx)
      simpa using this

theorem splits_iff {s : List Char} {ws : List (List Char)} : Splits s ws ↔ words s = ws := by
  refine ⟨words_of_splits, ?_⟩
  rintro rfl
  exact splits_wordsAux s [] (by simp)

theorem digit_iff {c : Char} {d : Nat} : digit c = some d ↔ ('0' ≤ c ∧ c ≤ '9') ∧ d = c.toNat - '0'.toNat := by
  have h0 : '0' ≤ c ↔ 48 ≤ c.toNat := Iff.rfl
  have h9 : c ≤ '9' ↔ c.toNat ≤ 57 := Iff.rfl
  have hz : '0'.toNat = 48 := rfl
  unfold digit
  rw [h0, h9, hz]
  split
  · next h => simp [h]; exact eq_comm
  · next h => simp; omega

theorem digits_iff (ds : List Char) : ∀ (acc n : Nat), digits acc ds = some n ↔
    (∀ c ∈ ds, '0' ≤ c ∧ c ≤ '9') ∧ n = ds.foldl (fun n c => 10 * n + (c.toNat - '0'.toNat)) acc := by
  induction ds with
  | nil => intro acc n; simp [digits]; exact eq_comm
  | cons c ds ih =>
    intro acc n
    unfold digits
    by_cases h : '0' ≤ c ∧ c ≤ '9'
    · rw [digit_iff.mpr ⟨h, rfl⟩]
      dsimp only
      rw [ih, Nat.mul_comm acc 10]
      simp [h]
    · have : digit c = none := by
        cases hd : digit c with
        | none => rfl
        | some d => exact absurd (digit_iff.mp hd).1 h
      rw [this]
      simp [h]

theorem parseI8_iff {s : List Char} {i : Int} : parseI8 s = some i ↔ IsNumber s i ∧ -128 ≤ i ∧ i ≤ 127 := by
  have hm : ¬('0' ≤ '-' ∧ '-' ≤ '9') := by decide
  have hp : ¬('0' ≤ '+' ∧ '+' ≤ '9') := by decide
  constructor
  · intro h
    unfold parseI8 at h
    split at h
    · next cs =>
      split at h
      · cases h
      · next he =>
        split at h
        · next n hn =>
          split at h
          · next hl =>
            cases h
            obtain ⟨h1, h2⟩ := (digits_iff _ _ _).mp hn
            exact ⟨⟨['-'], cs, rfl, by simpa using he, h1, .inr ⟨rfl, by rw [decimal, ← h2]⟩⟩, by omega, by omega⟩
          · cases h
        · cases h
    · next cs =>
      split at h
      · cases h
      · next he =>
        split at h
        · next n hn =>
          split at h
          · next hl =>
            cases h
            obtain ⟨h1, h2⟩ := (digits_iff _ _ _).mp hn
            exact ⟨⟨['+'], cs, rfl, by simpa using he, h1, .inl ⟨.inr rfl, by rw [decimal, ← h2]⟩⟩, by omega, by omega⟩
          · cases h
        · cases h
    · next cs _ _ =>
      split at h
      · cases h
      · next he =>
        split at h
        · next n hn =>
          split at h
          · next hl =>
            cases h
            obtain ⟨h1, h2⟩ := (digits_iff _ _ _).mp hn
            exact ⟨⟨[], _, rfl, by simpa using he, h1, .inl ⟨.inl rfl, by rw [decimal, ← h2]⟩⟩, by omega, by omega⟩
          · cases h
        · cases h
  · rintro ⟨⟨sign, ds, rfl, hne, hd, hv⟩, hlo, hhi⟩
    have hds : digits 0 ds = some (decimal ds) := (digits_iff _ _ _).mpr ⟨hd, rfl⟩
    have he : ds.isEmpty = false := by simpa using hne
    rcases hv with ⟨hs, rfl⟩ | ⟨rfl, rfl⟩
    · rcases hs with rfl | rfl
      · cases ds with
        | nil => exact absurd rfl hne
        | cons c cs =>
          have hc := hd c (by simp)
          unfold parseI8
          rw [List.nil_append]
          split
          · next h => cases h; exact absurd hc hm
          · next h => cases h; exact absurd hc hp
          · rw [hds]; simp only [he, Bool.false_eq_true, if_false]; rw [if_pos (by omega)]
      · unfold parseI8
        simp only [List.cons_append, List.nil_append, hds, he, Bool.false_eq_true, if_false]
        rw [if_pos (by omega)]
    · unfold parseI8
      simp only [List.cons_append, List.nil_append, hds, he, Bool.false_eq_true, if_false]
      rw [if_pos (by omega)]

/-- Splitting yields one list of words. -/
theorem Splits.unique {s : List Char} {ws vs : List (List Char)} (h : Splits s ws) (g : Splits s vs) : ws = vs := by
  rw [← splits_iff.mp h, splits_iff.mp g]

theorem length_five {l : List (List Char)} (h : l.length = 5) : ∃ a b c d e, l = [a, b, c, d, e] := by
  match l, h with
  | [a, b, c, d, e], _ => exact ⟨a, b, c, d, e, rfl⟩

end Dtn.Discovery
