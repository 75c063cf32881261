import Verif.Spec.Json
import Verif.Lemmas.StaticRouting
/-! What `serde_json` writes is read back. -/

namespace Dtn.JsonText
open Spec

theorem char_of_toNat {c : Char} {n : Nat} (h : c.toNat = n) : c = Char.ofNat n := by
  subst h; simp

theorem read_jsonChar (up : List Json.Frame) (r : Json.Role) (cur : List Char) (c : Char) :
    (jsonChar c).foldlM Json.read (.text up r cur) = some (.text up r (cur ++ [c])) := by
  unfold jsonChar
  split
  · subst_vars; rfl
  · split
    · subst_vars; rfl
    · split
      · rw [char_of_toNat ‹c.toNat = 8›]; rfl
      · split
        · subst_vars; rfl
        · split
          · subst_vars; rfl
          · split
            · rw [char_of_toNat ‹c.toNat = 12›]; rfl
            · split
              · subst_vars; rfl
              · split
                · rename_i hlt
                  obtain ⟨n, hn⟩ : ∃ n, c.toNat = n := ⟨_, rfl⟩
                  rw [char_of_toNat hn]
                  rw [hn] at hlt
                  clear hn
                  have : ∀ m : Fin 32, (Char.ofNat m.1).toNat = m.1 ∧ Json.digit (lowHex (m.1 / 16)) = some (m.1 / 16) ∧ Json.digit (lowHex (m.1 % 16)) = some (m.1 % 16) := by
                    decide
                  obtain ⟨h0, h1, h2⟩ := this ⟨n, hlt⟩
                  dsimp only at h0 h1 h2
                  rw [h0]
                  have hz : Json.digit '0' = some 0 := by decide
                  have more : ∀ l v c d, Json.digit c = some d → l ≠ 1 →
                      Json.read (.digits up r cur l v) c = some (.digits up r cur (l - 1) (16 * v + d)) := by
                    intro l v c d hd hl; simp [Json.read, hd, hl]
                  have last : ∀ v c d, Json.digit c = some d →
                      Json.read (.digits up r cur 1 v) c = some (.text up r (cur ++ [Char.ofNat (16 * v + d)])) := by
                    intro v c d hd; simp [Json.read, hd]
                  rw [List.foldlM_cons, show Json.read (.text up r cur) '\\' = some (.escape up r cur) by simp [Json.read],
                    Option.bind_eq_bind, Option.bind_some, List.foldlM_cons,
                    show Json.read (.escape up r cur) 'u' = some (.digits up r cur 4 0) by simp [Json.read],
                    Option.bind_eq_bind, Option.bind_some, List.foldlM_cons, more _ _ _ _ hz (by decide),
                    Option.bind_eq_bind, Option.bind_some, List.foldlM_cons, more _ _ _ _ hz (by decide),
                    Option.bind_eq_bind, Option.bind_some, List.foldlM_cons, more _ _ _ _ h1 (by decide),
                    Option.bind_eq_bind, Option.bind_some, List.foldlM_cons, last _ _ _ h2]
                  have : 16 * (16 * (16 * (16 * 0 + 0) + 0) + n / 16) + n % 16 = n := by omega
                  rw [this]
                  rfl
                · rename_i hq hb _ _ _ _ _ hge
                  simp [Json.read, hq, hb, hge]

theorem read_jsonText (up : List Json.Frame) (r : Json.Role) (s : List Char) : ∀ cur,
    (s.flatMap jsonChar).foldlM Json.read (.text up r cur) = some (.text up r (cur ++ s)) := by
  induction s with
  | nil => intro cur; simp
  | cons c s ih =>
    intro cur
    rw [List.flatMap_cons, List.foldlM_append, read_jsonChar]
    simp [ih]

theorem read_jsonString {st : Json.State} {up : List Json.Frame} {r : Json.Role} (h : Json.read st '"' = some (.text up r [])) (s : String) :
    (jsonString s).foldlM Json.read st = some (Json.finishText up r s) := by
  unfold jsonString
  rw [List.foldlM_cons, h]
  simp [List.foldlM_append, read_jsonText, Json.read]

/-- Two places from which the reader goes on alike, unless a digit follows. -/
def Alike (a b : Json.State) : Prop :=
  (∀ c, ¬ ('0' ≤ c ∧ c ≤ '9') → Json.read a c = Json.read b c) ∧ Json.result a = Json.result b

theorem Alike.refl (a : Json.State) : Alike a a := ⟨fun _ _ => rfl, rfl⟩

theorem read_finish (up : List Json.Frame) (v : Value) (c : Char) :
    Json.read (Json.finish up v) c = Json.readBehind (Json.finish up v) c := by
  cases up with
  | nil => rfl
  | cons f up => cases f <;> rfl

theorem alike_number (up : List Json.Frame) (n : Nat) : Alike (.number up n) (Json.finish up (.num n)) := by
  refine ⟨fun c hc => ?_, ?_⟩
  · rw [read_finish]; simp only [Json.read]; rw [if_neg hc]
  · cases up with
    | nil => rfl
    | cons f up => cases f <;> rfl

/-- A text that starts with another character than a digit. -/
theorem Alike.foldlM {a b : Json.State} (h : Alike a b) {c : Char} {cs : List Char} (hc : ¬ ('0' ≤ c ∧ c ≤ '9')) :
    (c :: cs).foldlM Json.read a = (c :: cs).foldlM Json.read b := by
  simp only [List.foldlM_cons, h.1 c hc]

theorem read_spaces {st : Json.State} (h : ∀ c, Json.isSpace c = true → Json.read st c = some st) (n : Nat) :
    (newLine n).foldlM Json.read st = some st := by
  unfold newLine
  rw [List.foldlM_cons, h '\n' (by decide)]
  simp only [Option.bind_eq_bind, Option.bind_some]
  generalize 2 * n = k
  induction k with
  | zero => rfl
  | succ k ih => rw [List.replicate_succ, List.foldlM_cons, h ' ' (by decide)]; simpa using ih

theorem read_digits (up : List Json.Frame) (ds : List Char) (hd : ∀ c ∈ ds, '0' ≤ c ∧ c ≤ '9') : ∀ n,
    ds.foldlM Json.read (.number up n) = some (.number up (Nat.ofDigitChars 10 ds n)) := by
  induction ds with
  | nil => intro n; simp
  | cons d ds ih =>
    intro n
    have h1 := hd d (by simp)
    rw [List.foldlM_cons]
    simp only [Json.read]
    rw [if_pos h1]
    simp only [Option.bind_eq_bind, Option.bind_some]
    rw [ih fun c hc => hd c (by simp [hc]), Nat.ofDigitChars_cons]
    rfl

theorem space_ne {c : Char} (h : Json.isSpace c = true) : c = ' ' ∨ c = '\t' ∨ c = '\n' ∨ c = '\r' := by
  simpa [Json.isSpace, or_assoc] using h

theorem digit_facts {c : Char} (h : '0' ≤ c ∧ c ≤ '9') :
    Json.isSpace c = false ∧ c ≠ '[' ∧ c ≠ '{' ∧ c ≠ '"' ∧ c ≠ 'n' ∧ c ≠ ']' ∧ c ≠ '}' := by
  refine ⟨?_, ?_, ?_, ?_, ?_, ?_, ?_⟩
  · cases hs : Json.isSpace c with
    | false => rfl
    | true => rcases space_ne hs with rfl | rfl | rfl | rfl <;> revert h <;> decide
  all_goals rintro rfl; revert h; decide

theorem read_number (up : List Json.Frame) (n : Nat) :
    (toString n).toList.foldlM Json.read (.value up) = some (.number up n) := by
  have e : (toString n).toList = Nat.toDigits 10 n := by
    show (Nat.repr n).toList = _
    simp [Nat.repr]
  have hd := Routing.StaticRouting.toDigits_digit n
  have hv := Nat.ofDigitChars_ten_toDigits (n := n)
  rw [e]
  cases ht : Nat.toDigits 10 n with
  | nil => exact absurd ht Nat.toDigits_ne_nil
  | cons d ds =>
    rw [ht] at hd hv
    have h1 := hd d (by simp)
    obtain ⟨f1, f2, f3, f4, f5, -, -⟩ := digit_facts h1
    rw [List.foldlM_cons]
    simp only [Json.read, Json.readValue, f1, f2, f3, f4, f5, if_pos h1]
    simp only [Bool.false_eq_true, if_false, Option.bind_eq_bind, Option.bind_some]
    rw [read_digits up ds fun c hc => hd c (by simp [hc])]
    rw [Nat.ofDigitChars_cons] at hv
    simp at hv
    simp [hv]

/-- A value does not start with white space or a closing bracket. -/
theorem chars_head (n : Nat) (v : Value) : ∃ c cs, chars n v = c :: cs ∧ Json.isSpace c = false ∧ c ≠ ']' := by
  cases v with
  | null => exact ⟨'n', _, by rw [chars]; rfl, by decide, by decide⟩
  | num k =>
    have e : (toString k).toList = Nat.toDigits 10 k := by
      show (Nat.repr k).toList = _
      simp [Nat.repr]
    cases ht : Nat.toDigits 10 k with
    | nil => exact absurd ht Nat.toDigits_ne_nil
    | cons d ds =>
      have h1 := Routing.StaticRouting.toDigits_digit k d (by simp [ht])
      obtain ⟨f1, -, -, -, -, f6, -⟩ := digit_facts h1
      exact ⟨d, ds, by rw [chars, e, ht], f1, f6⟩
  | str s => exact ⟨'"', _, by rw [chars]; rfl, by decide, by decide⟩
  | list l =>
    cases l with
    | nil => exact ⟨'[', _, by rw [chars], by decide, by decide⟩
    | cons => exact ⟨'[', _, by rw [chars], by decide, by decide⟩
  | obj l =>
    cases l with
    | nil => exact ⟨'{', _, by rw [chars], by decide, by decide⟩
    | cons => exact ⟨'{', _, by rw [chars], by decide, by decide⟩

theorem read_first (up : List Json.Frame) (n : Nat) (v : Value) :
    (chars n v).foldlM Json.read (.bracket up) = (chars n v).foldlM Json.read (.value (.list [] :: up)) := by
  obtain ⟨c, cs, e, h1, h2⟩ := chars_head n v
  rw [e, List.foldlM_cons, List.foldlM_cons]
  simp [Json.read, h1, h2]

theorem stays_behindItem (up : List Json.Frame) (got) : ∀ c, Json.isSpace c = true → Json.read (.behindItem up got) c = some (.behindItem up got) := by
  intro c hc; simp [Json.read, Json.readBehind, hc]

theorem stays_behindField (up : List Json.Frame) (got) : ∀ c, Json.isSpace c = true → Json.read (.behindField up got) c = some (.behindField up got) := by
  intro c hc; simp [Json.read, Json.readBehind, hc]

theorem stays_value (up : List Json.Frame) : ∀ c, Json.isSpace c = true → Json.read (.value up) c = some (.value up) := by
  intro c hc; simp [Json.read, Json.readValue, hc]

theorem more_head (n : Nat) (l : List Value) : ∃ c cs, moreItems n l = c :: cs ∧ ¬ ('0' ≤ c ∧ c ≤ '9') := by
  cases l with
  | nil => exact ⟨'\n', _, by rw [moreItems]; rfl, by decide⟩
  | cons => exact ⟨',', _, by rw [moreItems], by decide⟩

theorem moreF_head (n : Nat) (l : List (String × Value)) : ∃ c cs, moreFields n l = c :: cs ∧ ¬ ('0' ≤ c ∧ c ≤ '9') := by
  cases l with
  | nil => exact ⟨'\n', _, by rw [moreFields]; rfl, by decide⟩
  | cons => exact ⟨',', _, by rw [moreFields], by decide⟩

/-- The reader goes from `a` over the text to a place like `b`. -/
def Over (cs : List Char) (a b : Json.State) : Prop := ∃ st, cs.foldlM Json.read a = some st ∧ Alike st b

theorem Over.then {cs ds : List Char} {a b d : Json.State} (h : Over cs a b) (hd : ∃ c cs', ds = c :: cs' ∧ ¬ ('0' ≤ c ∧ c ≤ '9'))
    (h2 : ds.foldlM Json.read b = some d) : (cs ++ ds).foldlM Json.read a = some d := by
  obtain ⟨st, h1, al⟩ := h
  obtain ⟨c, cs', rfl, hc⟩ := hd
  rw [List.foldlM_append, h1]
  simp only [Option.bind_eq_bind, Option.bind_some]
  rw [al.foldlM hc, h2]

mutual
theorem read_chars : ∀ (v : Value) (n : Nat) (up : List Json.Frame), Over (chars n v) (.value up) (Json.finish up v)
  | .null, n, up => ⟨_, by rw [chars]; rfl, .refl _⟩
  | .num k, n, up => ⟨_, by rw [chars]; exact read_number up k, alike_number up k⟩
  | .str s, n, up => ⟨_, by rw [chars]; exact read_jsonString (r := .item) rfl s, .refl _⟩
  | .list [], n, up => ⟨_, by rw [chars]; rfl, .refl _⟩
  | .list (v :: l), n, up => by
    refine ⟨Json.finish up (.list (v :: l)), ?_, .refl _⟩
    rw [chars, List.foldlM_cons, show Json.read (.value up) '[' = some (.bracket up) from rfl]
    simp only [Option.bind_eq_bind, Option.bind_some]
    rw [List.append_assoc, List.foldlM_append, read_spaces (st := .bracket up) (by intro c hc; simp [Json.read, hc])]
    simp only [Option.bind_eq_bind, Option.bind_some]
    have h := read_chars v (n + 1) (.list [] :: up)
    rw [Over, ← read_first] at h
    exact Over.then h (more_head n l) (by simpa [Json.finish] using read_more l n up [v])
  | .obj [], n, up => ⟨_, by rw [chars]; rfl, .refl _⟩
  | .obj (f :: l), n, up => by
    refine ⟨Json.finish up (.obj (f :: l)), ?_, .refl _⟩
    rw [chars, List.foldlM_cons, show Json.read (.value up) '{' = some (.brace up) from rfl]
    simp only [Option.bind_eq_bind, Option.bind_some]
    rw [List.append_assoc, List.foldlM_append, read_spaces (st := .brace up) (by intro c hc; simp [Json.read, hc])]
    simp only [Option.bind_eq_bind, Option.bind_some]
    exact Over.then (read_field f (n + 1) up [] rfl) (moreF_head n l) (by simpa using read_moreF l n up [f])

theorem read_more : ∀ (l : List Value) (n : Nat) (up : List Json.Frame) (got : List Value),
    (moreItems n l).foldlM Json.read (.behindItem up got) = some (Json.finish up (.list (got ++ l)))
  | [], n, up, got => by
    rw [moreItems, List.foldlM_append, read_spaces (stays_behindItem up got)]
    simp [Json.read, Json.readBehind, Json.isSpace]
  | v :: l, n, up, got => by
    rw [moreItems, List.foldlM_cons, show Json.read (.behindItem up got) ',' = some (.value (.list got :: up)) from rfl]
    simp only [Option.bind_eq_bind, Option.bind_some]
    rw [List.append_assoc, List.foldlM_append, read_spaces (stays_value _)]
    simp only [Option.bind_eq_bind, Option.bind_some]
    exact Over.then (read_chars v (n + 1) (.list got :: up)) (more_head n l) (by simpa [Json.finish] using read_more l n up (got ++ [v]))

theorem read_moreF : ∀ (l : List (String × Value)) (n : Nat) (up : List Json.Frame) (got : List (String × Value)),
    (moreFields n l).foldlM Json.read (.behindField up got) = some (Json.finish up (.obj (got ++ l)))
  | [], n, up, got => by
    rw [moreFields, List.foldlM_append, read_spaces (stays_behindField up got)]
    simp [Json.read, Json.readBehind, Json.isSpace]
  | f :: l, n, up, got => by
    rw [moreFields, List.foldlM_cons, show Json.read (.behindField up got) ',' = some (.comma up got) from rfl]
    simp only [Option.bind_eq_bind, Option.bind_some]
    rw [List.append_assoc, List.foldlM_append, read_spaces (st := .comma up got) (by intro c hc; simp [Json.read, hc])]
    simp only [Option.bind_eq_bind, Option.bind_some]
    exact Over.then (read_field f (n + 1) up got rfl) (moreF_head n l) (by simpa using read_moreF l n up (got ++ [f]))

theorem read_field : ∀ (f : String × Value) (n : Nat) (up : List Json.Frame) (got : List (String × Value)) {st : Json.State},
    Json.read st '"' = some (.text up (.key got) []) → Over (fieldChars n f) st (.behindField up (got ++ [f]))
  | (k, v), n, up, got, st, h => by
    obtain ⟨st', h1, al⟩ := read_chars v n (.obj got k :: up)
    refine ⟨st', ?_, al⟩
    rw [fieldChars, List.foldlM_append, List.foldlM_append, read_jsonString h]
    simp only [Option.bind_eq_bind, Option.bind_some]
    rw [show [':', ' '].foldlM Json.read (Json.finishText up (.key got) k) = some (.value (.obj got k :: up)) from rfl]
    exact h1
end

/-- Every value is read back from its text. -/
theorem read_pretty (v : Value) : Json.value (pretty v) = some v := by
  obtain ⟨st, h, al⟩ := read_chars v 0 []
  unfold Json.value pretty
  rw [String.toList_ofList, h]
  show Json.result st = _
  rw [al.2]
  rfl

theorem strings_pretty (l : List String) : Json.strings (pretty (.list (l.map .str))) = some l := by
  unfold Json.strings
  rw [read_pretty]
  simp only
  induction l with
  | nil => rfl
  | cons s l ih => simp [Json.asString, ih]

end Dtn.JsonText
