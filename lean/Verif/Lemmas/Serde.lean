import Verif.Spec.JsonGrammar
import Verif.Lemmas.Json
import Mathlib.Tactic.Tauto
/-! What the reader of JSON makes of texts of the grammar, and that what is written is in the grammar. -/

namespace Dtn.Serde
open Spec.Rfc8259
open JsonText (jsonChar jsonString)

/-- The reader goes over a text. -/
abbrev Steps (cs : List Char) (a b : State) : Prop := cs.foldlM read a = some b

theorem Steps.nil (a : State) : Steps [] a a := rfl

theorem Steps.cons {c : Char} {cs : List Char} {a b d : State} (h : read a c = some b) (h2 : Steps cs b d) : Steps (c :: cs) a d := by
  unfold Steps; rw [List.foldlM_cons, h]; exact h2

theorem Steps.append {cs ds : List Char} {a b d : State} (h : Steps cs a b) (h2 : Steps ds b d) : Steps (cs ++ ds) a d := by
  unfold Steps; rw [List.foldlM_append, h]; exact h2

theorem isSpace_of {c : Char} (h : c = ' ' ∨ c = '\t' ∨ c = '\n' ∨ c = '\r') : isSpace c = true := by
  rcases h with rfl | rfl | rfl | rfl <;> rfl

/-- A place where white space is skipped. -/
def Stays (st : State) : Prop := ∀ c, isSpace c = true → read st c = some st

theorem Stays.space {st : State} (h : Stays st) {a : List Char} (ha : Space a) : Steps a st st := by
  induction a with
  | nil => rfl
  | cons c a ih => exact .cons (h c (isSpace_of (ha c (by simp)))) (ih fun x hx => ha x (by simp [hx]))

theorem stays_value (up) : Stays (.value up) := by intro c hc; simp [read, readValue, hc]
theorem stays_bracket (up) : Stays (.bracket up) := by intro c hc; simp [read, hc]
theorem stays_brace (up) : Stays (.brace up) := by intro c hc; simp [read, hc]
theorem stays_name (up got key) : Stays (.name up got key) := by intro c hc; simp [read, hc]
theorem stays_comma (up got) : Stays (.comma up got) := by intro c hc; simp [read, hc]
theorem stays_finish (up v) : Stays (finish up v) := by
  intro c hc
  cases up with
  | nil => simp [finish, read, readBehind, hc]
  | cons f up => cases f <;> simp [finish, read, readBehind, hc]

theorem read_finish (up : List Frame) (v : Value) (c : Char) : read (finish up v) c = readBehind (finish up v) c := by
  cases up with
  | nil => rfl
  | cons f up => cases f <;> rfl

/-- A character with which no number goes on. -/
def EndsNumber (c : Char) : Prop := ∀ ph, next ph c = none

theorem ends_of {c : Char} (h : c ∈ [' ', '\t', '\n', '\r', ',', ']', '}']) : EndsNumber c := by
  simp only [List.mem_cons, List.not_mem_nil, or_false] at h
  rcases h with rfl | rfl | rfl | rfl | rfl | rfl | rfl <;> intro ph <;> cases ph <;> rfl

/-- Two places from which the reader goes on alike, unless a number goes on. -/
def Alike (a b : State) : Prop := (∀ c, EndsNumber c → read a c = read b c) ∧ result a = result b

theorem Alike.refl (a : State) : Alike a a := ⟨fun _ _ => rfl, rfl⟩

theorem alike_number (up t ph) (h : complete ph = true) : Alike (.number up t ph) (finish up (numValue t)) := by
  refine ⟨fun c hc => ?_, ?_⟩
  · rw [read_finish]; simp only [read, hc ph, h, if_true]
  · cases up with
    | nil => simp [result, h, finish]
    | cons f up => cases f <;> rfl

/-- The reader goes from `a` over the text to a place like `b`. -/
def Over (cs : List Char) (a b : State) : Prop := ∃ st, Steps cs a st ∧ Alike st b

theorem Steps.over {cs a b} (h : Steps cs a b) : Over cs a b := ⟨b, h, .refl b⟩

/-- After white space the places are the same, if white space is skipped there. -/
theorem Over.space {cs b : List Char} {s t : State} (h : Over cs s t) (ht : Stays t) (hb : Space b) : Over (cs ++ b) s t := by
  obtain ⟨st, h1, al⟩ := h
  cases b with
  | nil => exact ⟨st, by simpa using h1, al⟩
  | cons c b =>
    have hc := isSpace_of (hb c (by simp))
    have hd : EndsNumber c := ends_of (by have := hb c (by simp); simp only [List.mem_cons]; tauto)
    exact (h1.append (.cons ((al.1 c hd).trans (ht c hc)) (ht.space fun x hx => hb x (by simp [hx])))).over

theorem Over.then {cs : List Char} {c : Char} {a b d : State} (h : Over cs a b) (hc : EndsNumber c) (h2 : read b c = some d) :
    Steps (cs ++ [c]) a d := by
  obtain ⟨st, h1, al⟩ := h
  exact h1.append (.cons ((al.1 c hc).trans h2) (.nil _))

theorem Steps.then_over {cs ds : List Char} {a b d : State} (h : Steps cs a b) (h2 : Over ds b d) : Over (cs ++ ds) a d := by
  obtain ⟨st, h1, al⟩ := h2
  exact ⟨st, h.append h1, al⟩

/-! Strings. -/

theorem hexDigit_of {n : Nat} {c : Char} (h : Hex n c) : hexDigit c = some n ∧ n < 16 := by
  have lt : n < 16 := by
    rcases h with h | h <;> (have := List.getElem?_eq_some_iff.1 h; obtain ⟨k, -⟩ := this; exact k)
  refine ⟨?_, lt⟩
  have key : ∀ m : Fin 16, ∀ c, ("0123456789abcdef".toList[m.1]? = some c ∨ "0123456789ABCDEF".toList[m.1]? = some c) →
      hexDigit c = some m.1 := by
    have k1 : ∀ m : Fin 16, ("0123456789abcdef".toList[m.1]?).bind hexDigit = some m.1 := by decide
    have k2 : ∀ m : Fin 16, ("0123456789ABCDEF".toList[m.1]?).bind hexDigit = some m.1 := by decide
    intro m c h
    rcases h with h | h
    · have := k1 m; rwa [h] at this
    · have := k2 m; rwa [h] at this
  exact key ⟨n, lt⟩ c h

theorem read_hex4 {n : Nat} {cs : List Char} (h : Hex4 n cs) (up r cur high) {st : State} (hst : codeUnit up r cur high n = some st) :
    Steps cs (.digits up r cur high 4 0) st ∧ n < 65536 := by
  obtain ⟨a, b, c, d, w, x, y, z, rfl, ha, hb, hc, hd, rfl⟩ := h
  obtain ⟨ha, la⟩ := hexDigit_of ha
  obtain ⟨hb, lb⟩ := hexDigit_of hb
  obtain ⟨hc, lc⟩ := hexDigit_of hc
  obtain ⟨hd, ld⟩ := hexDigit_of hd
  refine ⟨?_, by omega⟩
  refine .cons (b := .digits up r cur high 3 a) (by simp [read, ha]) ?_
  refine .cons (b := .digits up r cur high 2 (16 * a + b)) (by simp [read, hb]) ?_
  refine .cons (b := .digits up r cur high 1 (16 * (16 * a + b) + c)) (by simp [read, hc]) ?_
  refine .cons (b := st) ?_ (.nil _)
  have e : 16 * (16 * (16 * a + b) + c) + d = ((a * 16 + b) * 16 + c) * 16 + d := by omega
  simp only [read, hd, if_true, e, hst]

theorem read_written {c : Char} {w : List Char} (h : Written c w) (up r cur) : Steps w (.text up r cur) (.text up r (cur ++ [c])) := by
  cases h with
  | plain h1 h2 h3 => exact .cons (by simp [read, h1, h2]; omega) (.nil _)
  | unicode h1 h2 =>
    refine .cons (b := .escape up r cur) (by simp [read]) (.cons (b := .digits up r cur none 4 0) (by simp [read]) ?_)
    refine (read_hex4 h2 up r cur none ?_).1
    have hv := c.valid
    have : ¬ (0xd800 ≤ c.toNat ∧ c.toNat < 0xe000) := by
      rintro ⟨k1, k2⟩
      rcases hv with hv | hv
      · have : c.toNat < 0xd800 := hv; omega
      · have : 0xdfff < c.toNat := hv.1; omega
    unfold codeUnit
    simp only
    rw [if_neg (by omega), if_neg (by omega)]
    simp
  | pair h1 h2 h3 =>
    rename_i hi lo
    have hv : c.toNat < 0x110000 := by
      rcases c.valid with hv | hv
      · have : c.toNat < 0xd800 := hv; omega
      · exact hv.2
    have e1 : codeUnit up r cur none (0xd800 + (c.toNat - 0x10000) / 1024) =
        some (.surrogate up r cur (0xd800 + (c.toNat - 0x10000) / 1024) false) := by
      unfold codeUnit; simp only; rw [if_pos (by omega)]
    have e2 : codeUnit up r cur (some (0xd800 + (c.toNat - 0x10000) / 1024)) (0xdc00 + (c.toNat - 0x10000) % 1024) =
        some (.text up r (cur ++ [c])) := by
      unfold codeUnit; simp only; rw [if_pos (by omega)]
      have : 0x10000 + (0xd800 + (c.toNat - 0x10000) / 1024 - 0xd800) * 1024 + (0xdc00 + (c.toNat - 0x10000) % 1024 - 0xdc00) = c.toNat := by
        omega
      rw [this]; simp
    have s1 := (read_hex4 h2 up r cur none e1).1
    have s2 := (read_hex4 h3 up r cur _ e2).1
    refine .cons (b := .escape up r cur) (by simp [read]) (.cons (b := .digits up r cur none 4 0) (by simp [read]) ?_)
    exact s1.append (.cons (b := .surrogate up r cur (0xd800 + (c.toNat - 0x10000) / 1024) true) (by simp [read]) (.cons (by simp [read]) s2))
  | _ => exact .cons (b := .escape up r cur) (by simp [read]) (.cons (by simp [read]) (.nil _))

theorem read_chars {s cs : List Char} (h : Chars s cs) (up r) : ∀ cur, Steps cs (.text up r cur) (.text up r (cur ++ s)) := by
  induction h with
  | nil => intro cur; simpa using Steps.nil _
  | cons hw _ ih => intro cur; simpa using (read_written hw up r cur).append (ih (cur ++ [_]))

theorem read_str {s : String} {cs : List Char} (h : Str s cs) {st : State} {up r} (hst : read st '"' = some (.text up r [])) :
    Steps cs st (finishText up r s) := by
  obtain ⟨body, hb, rfl⟩ := h
  refine .cons hst ((read_chars hb up r []).append (.cons ?_ (.nil _)))
  simp [read]

/-! Numbers. -/

theorem digit_facts {c : Char} (h : '0' ≤ c ∧ c ≤ '9') :
    isSpace c = false ∧ c ≠ '[' ∧ c ≠ '{' ∧ c ≠ '"' ∧ c ≠ 'n' ∧ c ≠ 't' ∧ c ≠ 'f' ∧ c ≠ ']' ∧ c ≠ '}' := by
  refine ⟨?_, ?_, ?_, ?_, ?_, ?_, ?_, ?_, ?_⟩
  · cases hs : isSpace c with
    | false => rfl
    | true =>
      have : c = ' ' ∨ c = '\t' ∨ c = '\n' ∨ c = '\r' := by simpa [isSpace, or_assoc] using hs
      rcases this with rfl | rfl | rfl | rfl <;> revert h <;> decide
  all_goals rintro rfl; revert h; decide

theorem isDigit_iff {c : Char} : isDigit c = true ↔ '0' ≤ c ∧ c ≤ '9' := by simp [isDigit]

theorem not_digit {c : Char} (h : c ∈ ['-', '+', '.', 'e', 'E']) : ¬ ('0' ≤ c ∧ c ≤ '9') := by
  simp only [List.mem_cons, List.not_mem_nil, or_false] at h
  rcases h with rfl | rfl | rfl | rfl | rfl <;> decide

theorem run_stays {ph : Phase} {ds : List Char} (h : ∀ c ∈ ds, next ph c = some ph) : ds.foldlM next ph = some ph := by
  induction ds with
  | nil => rfl
  | cons d ds ih => rw [List.foldlM_cons, h d (by simp)]; exact ih fun c hc => h c (by simp [hc])

theorem run_append {cs ds : List Char} {a b c : Phase} (h : cs.foldlM next a = some b) (h2 : ds.foldlM next b = some c) :
    (cs ++ ds).foldlM next a = some c := by rw [List.foldlM_append, h]; exact h2

theorem run_int {i : List Char} (h : Int i) {a : Phase} (ha : a = .start ∨ a = .minus) :
    ∃ ph, i.foldlM next a = some ph ∧ (ph = .zero ∨ ph = .int) := by
  obtain ⟨⟨h0, h1⟩, h2⟩ := h
  cases i with
  | nil => exact absurd rfl h0
  | cons d ds =>
    by_cases hz : d = '0'
    · subst hz
      cases h2 rfl
      exact ⟨.zero, by rcases ha with rfl | rfl <;> rfl, .inl rfl⟩
    · refine ⟨.int, ?_, .inr rfl⟩
      have hd := h1 d (by simp)
      have hm : d ≠ '-' := by rintro rfl; exact not_digit (by simp) hd
      rw [List.foldlM_cons]
      have e : next a d = some .int := by
        have := isDigit_iff.2 hd
        rcases ha with rfl | rfl <;> simp [next, hz, hm, this]
      rw [e]
      exact run_stays fun c hc => by simp [next, isDigit_iff.2 (h1 c (by simp [hc]))]

theorem run_frac {f : List Char} (h : Frac f) {a : Phase} (ha : a = .zero ∨ a = .int) :
    ∃ ph, f.foldlM next a = some ph ∧ (ph = .zero ∨ ph = .int ∨ ph = .frac) := by
  rcases h with rfl | ⟨ds, ⟨h0, h1⟩, rfl⟩
  · exact ⟨a, rfl, by tauto⟩
  · refine ⟨.frac, ?_, by simp⟩
    have e : next a '.' = some .point := by rcases ha with rfl | rfl <;> rfl
    rw [List.foldlM_cons, e]
    cases ds with
    | nil => exact absurd rfl h0
    | cons d ds =>
      show (d :: ds).foldlM next .point = _
      rw [List.foldlM_cons]
      simp only [next, isDigit_iff.2 (h1 d (by simp)), if_true]
      exact run_stays fun c hc => by simp [next, isDigit_iff.2 (h1 c (by simp [hc]))]

theorem run_exp {x : List Char} (h : Exp x) {a : Phase} (ha : a = .zero ∨ a = .int ∨ a = .frac) :
    ∃ ph, x.foldlM next a = some ph ∧ complete ph = true := by
  rcases h with rfl | ⟨e, s, ds, he, hs, ⟨h0, h1⟩, rfl⟩
  · exact ⟨a, rfl, by rcases ha with rfl | rfl | rfl <;> rfl⟩
  · refine ⟨.exp, ?_, rfl⟩
    have e1 : next a e = some .e := by rcases he with rfl | rfl <;> rcases ha with rfl | rfl | rfl <;> rfl
    rw [List.foldlM_cons, e1]
    show (s ++ ds).foldlM next .e = _
    cases ds with
    | nil => exact absurd rfl h0
    | cons d ds =>
      have hd := h1 d (by simp)
      have e2 : ds.foldlM next .exp = some .exp := run_stays fun c hc => by simp [next, isDigit_iff.2 (h1 c (by simp [hc]))]
      have n1 : d ≠ '+' := by rintro rfl; exact not_digit (by simp) hd
      have n2 : d ≠ '-' := by rintro rfl; exact not_digit (by simp) hd
      rcases hs with rfl | rfl | rfl
      · show (d :: ds).foldlM next .e = _
        rw [List.foldlM_cons]
        simp only [next, n1, n2, isDigit_iff.2 hd, or_self, if_false, if_true]
        exact e2
      all_goals
        show (d :: ds).foldlM next .sign = _
        rw [List.foldlM_cons]
        simp only [next, isDigit_iff.2 hd, if_true]
        exact e2

/-- Numbers are gone through. -/
theorem run_number {cs : List Char} (h : Number cs) : ∃ ph, cs.foldlM next .start = some ph ∧ complete ph = true := by
  obtain ⟨m, i, f, x, hm, hi, hf, hx, rfl⟩ := h
  have h1 : ∃ a, m.foldlM next .start = some a ∧ (a = .start ∨ a = .minus) := by
    rcases hm with rfl | rfl
    · exact ⟨_, rfl, .inl rfl⟩
    · exact ⟨_, rfl, .inr rfl⟩
  obtain ⟨a, e1, ha⟩ := h1
  obtain ⟨b, e2, hb⟩ := run_int hi ha
  obtain ⟨c, e3, hc⟩ := run_frac hf hb
  obtain ⟨d, e4, hd⟩ := run_exp hx hc
  exact ⟨d, run_append e1 (run_append e2 (run_append e3 e4)), hd⟩

/-- What was read of a number. -/
def Prefix : Phase → List Char → Prop
  | .start, cs => cs = []
  | .minus, cs => cs = ['-']
  | .zero, cs => ∃ m, (m = [] ∨ m = ['-']) ∧ cs = m ++ ['0']
  | .int, cs => ∃ m i, (m = [] ∨ m = ['-']) ∧ Int i ∧ i.head? ≠ some '0' ∧ cs = m ++ i
  | .point, cs => ∃ m i, (m = [] ∨ m = ['-']) ∧ Int i ∧ cs = m ++ (i ++ ['.'])
  | .frac, cs => ∃ m i ds, (m = [] ∨ m = ['-']) ∧ Int i ∧ Digits ds ∧ cs = m ++ (i ++ '.' :: ds)
  | .e, cs => ∃ m i f e, (m = [] ∨ m = ['-']) ∧ Int i ∧ Frac f ∧ (e = 'e' ∨ e = 'E') ∧ cs = m ++ (i ++ (f ++ [e]))
  | .sign, cs => ∃ m i f e s, (m = [] ∨ m = ['-']) ∧ Int i ∧ Frac f ∧ (e = 'e' ∨ e = 'E') ∧ (s = '+' ∨ s = '-') ∧ cs = m ++ (i ++ (f ++ [e, s]))
  | .exp, cs => ∃ m i f e s ds, (m = [] ∨ m = ['-']) ∧ Int i ∧ Frac f ∧ (e = 'e' ∨ e = 'E') ∧ (s = [] ∨ s = ['+'] ∨ s = ['-']) ∧ Digits ds ∧
      cs = m ++ (i ++ (f ++ e :: (s ++ ds)))

theorem digits_snoc {ds : List Char} {c : Char} (h : ∀ c ∈ ds, '0' ≤ c ∧ c ≤ '9') (hc : isDigit c = true) : Digits (ds ++ [c]) := by
  refine ⟨by simp, fun x hx => ?_⟩
  rcases List.mem_append.1 hx with hx | hx
  · exact h x hx
  · rw [List.mem_singleton.1 hx]; exact isDigit_iff.1 hc

theorem digits_one {c : Char} (hc : isDigit c = true) : Digits [c] := digits_snoc (ds := []) (by simp) hc

theorem int_zero : Int ['0'] := ⟨digits_one rfl, fun _ => rfl⟩

theorem int_one {c : Char} (hc : isDigit c = true) (hz : c ≠ '0') : Int [c] := ⟨digits_one hc, fun h => by simp at h; exact (hz h).elim⟩

theorem prefix_next {a b : Phase} {c : Char} {cs : List Char} (h : Prefix a cs) (hn : next a c = some b) : Prefix b (cs ++ [c]) := by
  cases a with
  | start =>
    have h : cs = [] := h
    subst h
    simp only [next] at hn
    split at hn
    · rename_i e; subst e; cases hn; rfl
    split at hn
    · rename_i e; subst e; cases hn; exact ⟨[], .inl rfl, rfl⟩
    split at hn
    · rename_i hz hd; cases hn; exact ⟨[], [c], .inl rfl, int_one hd hz, by simpa using hz, rfl⟩
    · cases hn
  | minus =>
    have h : cs = ['-'] := h
    subst h
    simp only [next] at hn
    split at hn
    · rename_i e; subst e; cases hn; exact ⟨['-'], .inr rfl, rfl⟩
    split at hn
    · rename_i hz hd; cases hn; exact ⟨['-'], [c], .inr rfl, int_one hd hz, by simpa using hz, rfl⟩
    · cases hn
  | zero =>
    obtain ⟨m, hm, rfl⟩ := h
    simp only [next] at hn
    split at hn
    · rename_i e; subst e; cases hn; exact ⟨m, ['0'], hm, int_zero, by simp⟩
    split at hn
    · rename_i e; cases hn; exact ⟨m, ['0'], [], c, hm, int_zero, .inl rfl, e, by simp⟩
    · cases hn
  | int =>
    obtain ⟨m, i, hm, hi, hz, rfl⟩ := h
    simp only [next] at hn
    split at hn
    · rename_i hd; cases hn
      have hh : (i ++ [c]).head? = i.head? := by
        cases i with
        | nil => exact (hi.1.1 rfl).elim
        | cons => rfl
      exact ⟨m, i ++ [c], hm, ⟨digits_snoc hi.1.2 hd, by rw [hh]; exact fun e => (hz e).elim⟩, by rw [hh]; exact hz, by simp⟩
    split at hn
    · rename_i e; subst e; cases hn; exact ⟨m, i, hm, hi, by simp⟩
    split at hn
    · rename_i e; cases hn; exact ⟨m, i, [], c, hm, hi, .inl rfl, e, by simp⟩
    · cases hn
  | point =>
    obtain ⟨m, i, hm, hi, rfl⟩ := h
    simp only [next] at hn
    split at hn
    · rename_i hd; cases hn; exact ⟨m, i, [c], hm, hi, digits_one hd, by simp⟩
    · cases hn
  | frac =>
    obtain ⟨m, i, ds, hm, hi, hf, rfl⟩ := h
    simp only [next] at hn
    split at hn
    · rename_i hd; cases hn; exact ⟨m, i, ds ++ [c], hm, hi, digits_snoc hf.2 hd, by simp⟩
    split at hn
    · rename_i e; cases hn; exact ⟨m, i, _, c, hm, hi, .inr ⟨ds, hf, rfl⟩, e, by simp⟩
    · cases hn
  | e =>
    obtain ⟨m, i, f, e, hm, hi, hf, he, rfl⟩ := h
    simp only [next] at hn
    split at hn
    · rename_i e'; cases hn; exact ⟨m, i, f, e, c, hm, hi, hf, he, e', by simp⟩
    split at hn
    · rename_i hd; cases hn; exact ⟨m, i, f, e, [], [c], hm, hi, hf, he, .inl rfl, digits_one hd, by simp⟩
    · cases hn
  | sign =>
    obtain ⟨m, i, f, e, s, hm, hi, hf, he, hs, rfl⟩ := h
    simp only [next] at hn
    split at hn
    · rename_i hd; cases hn
      exact ⟨m, i, f, e, [s], [c], hm, hi, hf, he, by rcases hs with rfl | rfl <;> simp, digits_one hd, by simp⟩
    · cases hn
  | exp =>
    obtain ⟨m, i, f, e, s, ds, hm, hi, hf, he, hs, hd, rfl⟩ := h
    simp only [next] at hn
    split at hn
    · rename_i hc; cases hn; exact ⟨m, i, f, e, s, ds ++ [c], hm, hi, hf, he, hs, digits_snoc hd.2 hc, by simp⟩
    · cases hn

theorem number_of_prefix {ph : Phase} {cs : List Char} (h : Prefix ph cs) (hc : complete ph = true) : Number cs := by
  cases ph with
  | zero => obtain ⟨m, hm, rfl⟩ := h; exact ⟨m, ['0'], [], [], hm, int_zero, .inl rfl, .inl rfl, by simp⟩
  | int => obtain ⟨m, i, hm, hi, -, rfl⟩ := h; exact ⟨m, i, [], [], hm, hi, .inl rfl, .inl rfl, by simp⟩
  | frac => obtain ⟨m, i, ds, hm, hi, hd, rfl⟩ := h; exact ⟨m, i, _, [], hm, hi, .inr ⟨ds, hd, rfl⟩, .inl rfl, by simp⟩
  | exp =>
    obtain ⟨m, i, f, e, s, ds, hm, hi, hf, he, hs, hd, rfl⟩ := h
    exact ⟨m, i, f, _, hm, hi, hf, .inr ⟨e, s, ds, he, hs, hd, rfl⟩, rfl⟩
  | _ => cases hc

/-- A number of digits alone is an integer. -/
theorem int_of_number {cs : List Char} (h : Number cs) (hd : ∀ c ∈ cs, '0' ≤ c ∧ c ≤ '9') : Int cs := by
  obtain ⟨m, i, f, x, hm, hi, hf, hx, rfl⟩ := h
  have e1 : m = [] := by
    rcases hm with rfl | rfl
    · rfl
    · exact absurd (hd '-' (by simp)) (by decide)
  have e2 : f = [] := by
    rcases hf with rfl | ⟨ds, -, rfl⟩
    · rfl
    · exact absurd (hd '.' (by simp)) (by decide)
  have e3 : x = [] := by
    rcases hx with rfl | ⟨e, s, ds, he, -, -, rfl⟩
    · rfl
    · exact absurd (hd e (by simp)) (not_digit (by rcases he with rfl | rfl <;> simp))
  subst e1 e2 e3
  simpa using hi

theorem number_of_num {k : Nat} {cs : List Char} (h : Num k cs) : Number cs :=
  ⟨[], cs, [], [], .inl rfl, ⟨⟨h.1, h.2.1⟩, h.2.2.1⟩, .inl rfl, .inl rfl, by simp⟩

theorem numValue_num {k : Nat} {cs : List Char} (h : Num k cs) : numValue cs = .num k := by
  obtain ⟨h0, h1, h2, rfl, h4⟩ := h
  unfold numValue
  have e : decimal cs = cs.foldl (fun n c => 10 * n + (c.toNat - 48)) 0 := rfl
  simp only [← e]
  rw [if_pos ⟨List.all_eq_true.2 fun c hc => isDigit_iff.2 (h1 c hc), h4⟩]

theorem numValue_other {cs : List Char} (h : Number cs) (hn : ∀ k, ¬ Num k cs) : numValue cs = .other cs := by
  unfold numValue
  have e : decimal cs = cs.foldl (fun n c => 10 * n + (c.toNat - 48)) 0 := rfl
  simp only [← e]
  rw [if_neg]
  rintro ⟨k1, k2⟩
  have hd : ∀ c ∈ cs, '0' ≤ c ∧ c ≤ '9' := fun c hc => isDigit_iff.1 (List.all_eq_true.1 k1 c hc)
  have hi := int_of_number h hd
  exact hn _ ⟨hi.1.1, hi.1.2, hi.2, rfl, k2⟩

/-- The value of a number is that of the grammar. -/
theorem gram_number {cs : List Char} (h : Number cs) (n : Nat) : Gram n (.value (numValue cs)) cs := by
  by_cases hk : ∃ k, Num k cs
  · obtain ⟨k, hk⟩ := hk
    rw [numValue_num hk]; exact .num hk
  · have hk' : ∀ k, ¬ Num k cs := fun k h => hk ⟨k, h⟩
    rw [numValue_other h hk']; exact .other h hk'

theorem steps_run (up) (ds : List Char) : ∀ (t : List Char) (a b : Phase), ds.foldlM next a = some b → Steps ds (.number up t a) (.number up (t ++ ds) b) := by
  induction ds with
  | nil => intro t a b h; cases h; simpa using Steps.nil _
  | cons d ds ih =>
    intro t a b h
    rw [List.foldlM_cons, Option.bind_eq_bind, Option.bind_eq_some_iff] at h
    obtain ⟨m, h1, h2⟩ := h
    refine .cons (b := .number up (t ++ [d]) m) (by simp only [read, h1]) ?_
    simpa using ih (t ++ [d]) m b h2

theorem start_facts {c : Char} {ph : Phase} (h : next .start c = some ph) :
    isSpace c = false ∧ c ≠ '[' ∧ c ≠ '{' ∧ c ≠ '"' ∧ c ≠ 'n' ∧ c ≠ 't' ∧ c ≠ 'f' ∧ c ≠ ']' ∧ c ≠ '}' := by
  by_cases hm : c = '-'
  · subst hm; decide
  · refine digit_facts (isDigit_iff.1 ?_)
    simp only [next, hm, if_false] at h
    split at h
    · subst_vars; rfl
    split at h
    · assumption
    · cases h

theorem read_number {cs : List Char} (h : Number cs) (up) : Over cs (.value up) (finish up (numValue cs)) := by
  obtain ⟨ph, h1, h2⟩ := run_number h
  refine ⟨.number up cs ph, ?_, alike_number up cs ph h2⟩
  cases cs with
  | nil => cases h1; cases h2
  | cons d ds =>
    rw [List.foldlM_cons, Option.bind_eq_bind, Option.bind_eq_some_iff] at h1
    obtain ⟨m, e1, e2⟩ := h1
    obtain ⟨f1, f2, f3, f4, f5, f6, f7, -, -⟩ := start_facts e1
    refine .cons (b := .number up [d] m) ?_ (steps_run up ds [d] m ph e2)
    simp only [read, readValue, f1, f2, f3, f4, f5, f6, f7, e1]; simp

/-! Values. -/

theorem number_head {cs : List Char} (h : Number cs) : ∃ c r, cs = c :: r ∧ isSpace c = false ∧ c ≠ ']' := by
  obtain ⟨ph, h1, h2⟩ := run_number h
  cases cs with
  | nil => cases h1; cases h2
  | cons d ds =>
    rw [List.foldlM_cons, Option.bind_eq_bind, Option.bind_eq_some_iff] at h1
    obtain ⟨m, e1, e2⟩ := h1
    have f := start_facts e1
    exact ⟨d, ds, rfl, f.1, f.2.2.2.2.2.2.2.1⟩

theorem gram_head {n : Nat} {v : Value} {cs : List Char} (h : Gram n (.value v) cs) : ∃ c r, cs = c :: r ∧ isSpace c = false ∧ c ≠ ']' := by
  cases h with
  | null => exact ⟨'n', _, rfl, rfl, by decide⟩
  | true => exact ⟨'t', _, rfl, rfl, by decide⟩
  | false => exact ⟨'f', _, rfl, rfl, by decide⟩
  | num h => exact number_head (number_of_num h)
  | other h _ => exact number_head h
  | str h => obtain ⟨b, -, rfl⟩ := h; exact ⟨'"', _, rfl, rfl, by decide⟩
  | noItems => exact ⟨'[', _, rfl, rfl, by decide⟩
  | list => exact ⟨'[', _, rfl, rfl, by decide⟩
  | noFields => exact ⟨'{', _, rfl, rfl, by decide⟩
  | obj => exact ⟨'{', _, rfl, rfl, by decide⟩

theorem gram_first {n : Nat} {v : Value} {cs : List Char} (h : Gram n (.value v) cs) {up : List Frame} {st : State}
    (ho : Over cs (.value (.list [] :: up)) st) : Over cs (.bracket up) st := by
  obtain ⟨c, r, rfl, h1, h2⟩ := gram_head h
  obtain ⟨s, k, al⟩ := ho
  refine ⟨s, ?_, al⟩
  unfold Steps at k ⊢
  rw [List.foldlM_cons] at k ⊢
  rw [← k]
  congr 1
  simp [read, h1, h2]

/-- A place at which a field may begin. -/
def AtField (up : List Frame) (got : List (String × Value)) (st : State) : Prop :=
  Stays st ∧ read st '"' = some (.text up (.key got) [])

/-- A place at which an element may begin. -/
def AtItem (up : List Frame) (got : List Value) (st : State) : Prop := st = .value (.list got :: up) ∨ (got = [] ∧ st = .bracket up)

theorem AtItem.stays {up got st} (h : AtItem up got st) : Stays st := by
  rcases h with rfl | ⟨-, rfl⟩
  · exact stays_value _
  · exact stays_bracket _

/-- What the reader does with a part of a text. -/
def Reads (n : Nat) : Part → List Char → Prop
  | .value v, cs => ∀ up : List Frame, up.length + n ≤ 127 → Over cs (.value up) (finish up v)
  | .items l, cs => ∀ (up : List Frame) got st, up.length + 1 + n ≤ 127 → AtItem up got st → Over cs st (.behindItem up (got ++ l))
  | .fields l, cs => ∀ (up : List Frame) got st, up.length + 1 + n ≤ 127 → AtField up got st → Over cs st (.behindField up (got ++ l))

theorem read_item {n : Nat} {v : Value} {a cs b : List Char} (ha : Space a) (h : Gram n (.value v) cs) (hr : Reads n (.value v) cs) (hb : Space b)
    {up : List Frame} {got : List Value} {st : State} (hn : up.length + 1 + n ≤ 127) (hst : AtItem up got st) :
    Over (a ++ cs ++ b) st (.behindItem up (got ++ [v])) := by
  have h1 := hr (.list got :: up) (by simpa using hn)
  have h2 : Over cs st (.behindItem up (got ++ [v])) := by
    rcases hst with rfl | ⟨rfl, rfl⟩
    · exact h1
    · exact gram_first h h1
  rw [List.append_assoc]
  exact (hst.stays.space ha).then_over (h2.space (stays_finish (.list got :: up) v) hb)

theorem read_field {n : Nat} {k : String} {v : Value} {a ks b c cs d : List Char} (ha : Space a) (hk : Str k ks) (hb : Space b) (hc : Space c)
    (hr : Reads n (.value v) cs) (hd : Space d) {up : List Frame} {got : List (String × Value)} {st : State}
    (hn : up.length + 1 + n ≤ 127) (hst : AtField up got st) :
    Over (a ++ ks ++ b ++ ':' :: c ++ cs ++ d) st (.behindField up (got ++ [(k, v)])) := by
  have h1 := hr (.obj got k :: up) (by simpa using hn)
  have e : a ++ ks ++ b ++ ':' :: c ++ cs ++ d = (a ++ (ks ++ (b ++ ([':'] ++ c)))) ++ (cs ++ d) := by simp
  rw [e]
  refine Steps.then_over ?_ (h1.space (stays_finish (.obj got k :: up) v) hd)
  refine (hst.1.space ha).append ((read_str hk hst.2).append ?_)
  refine ((stays_name up got k).space hb).append (.cons (b := .value (.obj got k :: up)) (by simp [read, isSpace]) ?_)
  exact (stays_value _).space hc

theorem reads {n : Nat} {p : Part} {cs : List Char} (h : Gram n p cs) : Reads n p cs := by
  induction h with
  | null => intro up _; exact Steps.over rfl
  | true => intro up _; exact Steps.over rfl
  | false => intro up _; exact Steps.over rfl
  | num h => intro up _; rw [← numValue_num h]; exact read_number (number_of_num h) up
  | other h hn => intro up _; rw [← numValue_other h hn]; exact read_number h up
  | str h => intro up _; exact (read_str h (r := .item) (by simp [read, readValue, isSpace])).over
  | noItems ha =>
    intro up hn
    refine (Steps.cons (b := .bracket up) (by simp [read, readValue, isSpace, opened]; omega) ?_).over
    exact ((stays_bracket up).space ha).append (.cons (by simp [read, isSpace]) (.nil _))
  | noFields ha =>
    intro up hn
    refine (Steps.cons (b := .brace up) (by simp [read, readValue, isSpace, opened]; omega) ?_).over
    exact ((stays_brace up).space ha).append (.cons (by simp [read, isSpace]) (.nil _))
  | list _ ih =>
    intro up hn
    refine (Steps.cons (b := .bracket up) (by simp [read, readValue, isSpace, opened]; omega) ?_).over
    exact Over.then (ih up [] (.bracket up) (by omega) (.inr ⟨rfl, rfl⟩)) (ends_of (by simp)) (by simp [read, readBehind, isSpace])
  | obj _ ih =>
    intro up hn
    refine (Steps.cons (b := .brace up) (by simp [read, readValue, isSpace, opened]; omega) ?_).over
    exact Over.then (ih up [] (.brace up) (by omega) ⟨stays_brace up, by simp [read, isSpace]⟩) (ends_of (by simp)) (by simp [read, readBehind, isSpace])
  | item ha h hb ih => intro up got st hn hst; exact read_item ha h ih hb hn hst
  | items ha h hb _ ih ih2 =>
    intro up got st hn hst
    have h1 := Over.then (c := ',') (read_item ha h ih hb hn hst) (ends_of (by simp)) (by simp [read, readBehind, isSpace]; rfl)
    have h2 := h1.then_over (ih2 up _ _ hn (.inl rfl))
    simpa using h2
  | field ha hk hb hc _ hd ih => intro up got st hn hst; exact read_field ha hk hb hc ih hd hn hst
  | fields ha hk hb hc _ hd _ ih ih2 =>
    intro up got st hn hst
    have h1 := Over.then (c := ',') (read_field ha hk hb hc ih hd hn hst) (ends_of (by simp)) (by simp [read, readBehind, isSpace]; rfl)
    have h2 := h1.then_over (ih2 up _ _ hn ⟨stays_comma up _, by simp only [read, isSpace]; rfl⟩)
    simpa using h2

mutual
theorem others_iff (v : Value) (t : List Char) : t ∈ others v ↔ Other v t := by
  cases v with
  | other u => rw [others, List.mem_singleton]; exact ⟨fun h => h ▸ .here, fun h => by cases h; rfl⟩
  | list l =>
    rw [others, othersOfItems_iff l t]
    exact ⟨fun ⟨v, h1, h2⟩ => .item h1 h2, fun h => by cases h with | item h1 h2 => exact ⟨_, h1, h2⟩⟩
  | obj l =>
    rw [others, othersOfFields_iff l t]
    exact ⟨fun ⟨f, h1, h2⟩ => .field (k := f.1) (v := f.2) h1 h2, fun h => by cases h with | field h1 h2 => exact ⟨(_, _), h1, h2⟩⟩
  | _ => simp only [others, List.not_mem_nil, false_iff]; intro h; cases h

theorem othersOfItems_iff (l : List Value) (t : List Char) : t ∈ othersOfItems l ↔ ∃ v ∈ l, Other v t := by
  cases l with
  | nil => simp [othersOfItems]
  | cons v l => rw [othersOfItems, List.mem_append, others_iff v t, othersOfItems_iff l t]; simp

theorem othersOfFields_iff (l : List (String × Value)) (t : List Char) : t ∈ othersOfFields l ↔ ∃ f ∈ l, Other f.2 t := by
  match l with
  | [] => simp [othersOfFields]
  | (k, v) :: l => rw [othersOfFields, List.mem_append, others_iff v t, othersOfFields_iff l t]; simp
end

/-- Every text of the grammar with at most 127 levels is read. -/
theorem machine_text {v : Value} {cs : List Char} (h : Text 127 v cs) : (cs.foldlM read (.value [])).bind result = some v := by
  obtain ⟨a, m, b, ha, hm, hb, rfl⟩ := h
  have h1 := ((reads hm) [] (by simp)).space (stays_finish [] v) hb
  have h2 := ((stays_value []).space ha).then_over h1
  obtain ⟨st, hs, al⟩ := h2
  rw [← List.append_assoc] at hs
  rw [hs]
  exact al.2

/-! What is written. -/

theorem written_jsonChar (c : Char) : Written c (jsonChar c) := by
  unfold jsonChar
  split
  · subst_vars; exact .quote
  · split
    · subst_vars; exact .backslash
    · split
      · rw [JsonText.char_of_toNat ‹c.toNat = 8›]; exact .backspace
      · split
        · subst_vars; exact .tab
        · split
          · subst_vars; exact .lineFeed
          · split
            · rw [JsonText.char_of_toNat ‹c.toNat = 12›]; exact .formFeed
            · split
              · subst_vars; exact .carriageReturn
              · split
                · rename_i hlt
                  refine .unicode (by omega) ?_
                  have k : ∀ m : Fin 16, "0123456789abcdef".toList[m.1]? = some (JsonText.lowHex m.1) := by decide
                  exact ⟨0, 0, c.toNat / 16, c.toNat % 16, _, _, _, _, rfl, .inl (k 0), .inl (k 0), .inl (k ⟨c.toNat / 16, by omega⟩),
                    .inl (k ⟨c.toNat % 16, by omega⟩), by omega⟩
                · rename_i hq hb _ _ _ _ _ hge
                  exact .plain hq hb (by omega)

theorem chars_jsonChar (s : List Char) : Chars s (s.flatMap jsonChar) := by
  induction s with
  | nil => exact .nil
  | cons c s ih => rw [List.flatMap_cons]; exact .cons (written_jsonChar c) ih

theorem str_jsonString (s : String) : Str s (jsonString s) := ⟨_, chars_jsonChar s.toList, rfl⟩

theorem toDigits_head (n : Nat) : (Nat.toDigits 10 n).head? = some '0' → n = 0 := by
  induction n using Nat.strongRecOn with
  | ind n ih =>
    by_cases h : n < 10
    · rw [Nat.toDigits_of_lt_base h]
      have : ∀ m : Fin 10, [Nat.digitChar m.1].head? = some '0' → m.1 = 0 := by decide
      exact this ⟨n, h⟩
    · rw [Nat.toDigits_of_base_le (by omega) (by omega)]
      intro hh
      have hne := Nat.toDigits_ne_nil (n := n / 10) (b := 10)
      have := ih (n / 10) (by omega) (by
        cases hx : Nat.toDigits 10 (n / 10) with
        | nil => exact absurd hx hne
        | cons c cs => rw [hx] at hh; exact hh)
      omega

theorem num_toString {n : Nat} (h : n < 2 ^ 64) : Num n (toString n).toList := by
  have e : (toString n).toList = Nat.toDigits 10 n := by
    show (Nat.repr n).toList = _
    simp [Nat.repr]
  have hd := Routing.StaticRouting.toDigits_digit n
  have hv := Nat.ofDigitChars_ten_toDigits (n := n)
  rw [e]
  refine ⟨Nat.toDigits_ne_nil, hd, ?_, ?_, h⟩
  · intro hh
    rw [toDigits_head n hh]; rfl
  · exact hv.symm.trans rfl

/-- Levels of lists and objects. -/
theorem gram_mono {n : Nat} {p : Part} {cs : List Char} (h : Gram n p cs) : Gram (n + 1) p cs := by
  induction h with
  | null => exact .null
  | true => exact .true
  | false => exact .false
  | num h => exact .num h
  | other h k => exact .other h k
  | str h => exact .str h
  | noItems h => exact .noItems h
  | noFields h => exact .noFields h
  | list _ ih => exact .list ih
  | obj _ ih => exact .obj ih
  | item a _ b ih => exact .item a ih b
  | items a _ b _ ih ih2 => exact .items a ih b ih2
  | field a k b c _ d ih => exact .field a k b c ih d
  | fields a k b c _ d _ ih ih2 => exact .fields a k b c ih d ih2

theorem gram_le {n m : Nat} {p : Part} {cs : List Char} (h : Gram n p cs) (hm : n ≤ m) : Gram m p cs := by
  induction hm with
  | refl => exact h
  | step _ ih => exact gram_mono ih

theorem space_nil : Space [] := by simp [Space]

theorem gram_items {n : Nat} {v : Value} {l : List Value} (h : ∀ x ∈ v :: l, Gram n (.value x) (chars x)) :
    ∃ cs, Gram n (.items (v :: l)) cs ∧ chars v ++ moreItems l = cs ++ [']'] := by
  induction l generalizing v with
  | nil =>
    refine ⟨[] ++ chars v ++ [], .item space_nil (h v (by simp)) space_nil, ?_⟩
    simp [moreItems]
  | cons w l ih =>
    obtain ⟨cs, hc, e⟩ := ih fun x hx => h x (by simp only [List.mem_cons] at hx ⊢; exact .inr hx)
    refine ⟨_, .items space_nil (h v (by simp)) space_nil hc, ?_⟩
    rw [moreItems, e]
    simp

theorem gram_fields {n : Nat} {f : String × Value} {l : List (String × Value)} (h : ∀ x ∈ f :: l, Gram n (.value x.2) (chars x.2)) :
    ∃ cs, Gram n (.fields (f :: l)) cs ∧ fieldChars f ++ moreFields l = cs ++ ['}'] := by
  induction l generalizing f with
  | nil =>
    obtain ⟨k, v⟩ := f
    refine ⟨_, .field space_nil (str_jsonString k) space_nil space_nil (h (k, v) (by simp)) space_nil, ?_⟩
    simp [moreFields, fieldChars]
  | cons g l ih =>
    obtain ⟨k, v⟩ := f
    obtain ⟨cs, hc, e⟩ := ih fun x hx => h x (by simp only [List.mem_cons] at hx ⊢; exact .inr hx)
    refine ⟨_, .fields space_nil (str_jsonString k) space_nil space_nil (h (k, v) (by simp)) space_nil hc, ?_⟩
    rw [moreFields, e]
    simp [fieldChars]

theorem gram_list {n : Nat} {l : List Value} (h : ∀ x ∈ l, Gram n (.value x) (chars x)) : Gram (n + 1) (.value (.list l)) (chars (.list l)) := by
  cases l with
  | nil => rw [chars]; exact Gram.noItems (a := []) space_nil
  | cons v l =>
    obtain ⟨cs, hc, e⟩ := gram_items h
    rw [chars, e]
    exact .list hc

theorem gram_obj {n : Nat} {l : List (String × Value)} (h : ∀ x ∈ l, Gram n (.value x.2) (chars x.2)) :
    Gram (n + 1) (.value (.obj l)) (chars (.obj l)) := by
  cases l with
  | nil => rw [chars]; exact Gram.noFields (a := []) space_nil
  | cons v l =>
    obtain ⟨cs, hc, e⟩ := gram_fields h
    rw [chars, e]
    exact .obj hc

theorem gram_str (n : Nat) (s : String) : Gram n (.value (.str s)) (chars (.str s)) := by rw [chars]; exact .str (str_jsonString s)

theorem gram_num (n : Nat) {k : Nat} (h : k < 2 ^ 64) : Gram n (.value (.num k)) (chars (.num k)) := by rw [chars]; exact .num (num_toString h)

theorem gram_bool (n : Nat) (b : Bool) : Gram n (.value (.bool b)) (chars (.bool b)) := by
  cases b <;> rw [chars]
  · exact .false
  · exact .true

theorem gram_null (n : Nat) : Gram n (.value .null) (chars .null) := by rw [chars]; exact .null

theorem text_gram {n : Nat} {v : Value} {cs : List Char} (h : Gram n (.value v) cs) : Text n v cs := ⟨[], cs, [], space_nil, h, space_nil, by simp⟩

end Dtn.Serde
