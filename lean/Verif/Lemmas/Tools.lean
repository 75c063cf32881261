import Verif.Spec.Tools
import Verif.Lemmas.Httpd
/-! Lemmas about the command line tools. -/

namespace Dtn.Tools
open Httpd Spec

theorem plainChar_iff (c : Char) :
    plainChar c = true ↔ 0x21 ≤ c.toNat ∧ c.toNat ≤ 0x7e ∧ c ∉ ['"', '#', '<', '>', '\''] := by
  simp only [plainChar, Bool.and_eq_true, decide_eq_true_eq, Bool.not_eq_true', Bool.or_eq_false_iff, beq_eq_false_iff_ne,
    List.mem_cons, List.not_mem_nil, or_false, not_or]
  constructor
  · rintro ⟨⟨h1, h2⟩, h3⟩
    exact ⟨by omega, by omega, h3.1.1.1.1, h3.1.1.1.2, h3.1.1.2, h3.1.2, h3.2⟩
  · rintro ⟨h1, h2, h3, h4, h5, h6, h7⟩
    exact ⟨⟨by omega, by omega⟩, ⟨⟨⟨h3, h4⟩, h5⟩, h6⟩, h7⟩

theorem trimEnd_of_last {cs : List Char} (h : ∀ c, cs.getLast? = some c → ¬ c.toNat ≤ 0x20) : trimEnd cs = cs := by
  unfold trimEnd
  cases hc : cs.reverse with
  | nil => rw [List.reverse_eq_nil_iff] at hc; subst hc; rfl
  | cons a l =>
    have : cs.getLast? = some a := by
      rw [← List.reverse_reverse cs, hc]; simp
    rw [List.dropWhile_cons, if_neg (by simpa using h a this), ← hc, List.reverse_reverse]

theorem flatMap_plain {cs : List Char} (h : ∀ c ∈ cs, plainChar c = true) : cs.flatMap queryChar = cs := by
  induction cs with
  | nil => rfl
  | cons c cs ih =>
    rw [List.flatMap_cons, ih fun c hc => h c (by simp [hc])]
    unfold queryChar
    rw [if_pos (h c (by simp))]
    rfl

theorem takeWhile_all {α : Type} {p : α → Bool} {l : List α} (h : ∀ a ∈ l, p a = true) : l.takeWhile p = l := by
  induction l with
  | nil => rfl
  | cons a l ih => rw [List.takeWhile_cons, if_pos (h a (by simp)), ih fun b hb => h b (by simp [hb])]

/-- What a URL makes of text without tabs, line breaks and `#` that does not end in a space. -/
theorem urlQuery_simple {s : String} (h1 : ∀ c ∈ s.toList, c ≠ '\t' ∧ c ≠ '\n' ∧ c ≠ '\r' ∧ c ≠ '#')
    (h2 : ∀ c, s.toList.getLast? = some c → ¬ c.toNat ≤ 0x20) : urlQuery s = .ofList (s.toList.flatMap queryChar) := by
  unfold urlQuery
  rw [trimEnd_of_last h2, List.filter_eq_self.mpr, takeWhile_all]
  · intro c hc; simpa using (h1 c hc).2.2.2
  · intro c hc
    obtain ⟨a, b, d, -⟩ := h1 c hc
    simp [a, b, d]

theorem plain_simple {s : String} (h : PlainText s) :
    (∀ c ∈ s.toList, c ≠ '\t' ∧ c ≠ '\n' ∧ c ≠ '\r' ∧ c ≠ '#') ∧ ∀ c, s.toList.getLast? = some c → ¬ c.toNat ≤ 0x20 := by
  constructor
  · intro c hc
    obtain ⟨h1, h2, h3⟩ := h c hc
    refine ⟨?_, ?_, ?_, ?_⟩ <;> rintro rfl
    · exact absurd h1 (by decide)
    · exact absurd h1 (by decide)
    · exact absurd h1 (by decide)
    · exact h3 (by simp)
  · intro c hc
    have := (h c (List.mem_of_getLast? hc)).1
    omega

theorem urlQuery_plain {s : String} (h : PlainText s) : urlQuery s = s := by
  rw [urlQuery_simple (plain_simple h).1 (plain_simple h).2, flatMap_plain fun c hc => (plainChar_iff c).mpr (h c hc)]
  simp

theorem loopback_host (cfg : Cfg) : cfg.unsafe_ = true ∨ HostItself loopback := .inr (by simp [HostItself, loopback])

/-- The payload that the tools find. -/
theorem payload_iff (b : Bundle) (d : Bytes) : payload b = some d ↔ HasPayload b d := by
  unfold payload HasPayload
  constructor
  · intro h
    cases hf : b.canonicals.find? (fun c => decide (c.btype = PAYLOAD_BLOCK)) with
    | none => rw [hf] at h; cases h
    | some c =>
      rw [hf] at h
      obtain ⟨hc, pre, post, he, hn⟩ := List.find?_eq_some_iff_append.mp hf
      refine ⟨pre, c, post, he, fun x hx => by simpa using hn x hx, by simpa using hc, ?_⟩
      dsimp only at h
      cases hd : c.data with
      | data d' => rw [hd] at h; cases h; rfl
      | _ => rw [hd] at h; cases h
  · rintro ⟨pre, c, post, he, hn, hc, hd⟩
    have : b.canonicals.find? (fun c => decide (c.btype = PAYLOAD_BLOCK)) = some c :=
      List.find?_eq_some_iff_append.mpr ⟨by simpa using hc, pre, post, he, fun x hx => by simpa using hn x hx⟩
    rw [this]
    dsimp only
    rw [hd]

theorem showBundle_payload {x : Ext} {a : RecvArgs} {writable : Bool} {buf : Bytes} {b : Bundle} {d : Bytes}
    (hx : a.hex = false) (hr : a.raw = false) (hp : x.parseBundle buf = some b) (hd : HasPayload b d) :
    showBundle x a writable buf = writeBytes d a.outfile a.verbose writable := by
  rw [← payload_iff] at hd
  unfold payload at hd
  unfold showBundle
  rw [if_neg (by simp [hx]), if_neg (by simp [hr]), hp]
  dsimp only
  split at hd
  · rename_i c hc
    rw [hc]
    dsimp only
    split at hd
    · rename_i d' hd'
      cases hd
      rfl
    · cases hd
  · cases hd

theorem isSpace_iff (c : Char) : isSpace c = true ↔ WhiteSpace c := by
  unfold isSpace WhiteSpace
  simp only [Bool.or_eq_true, decide_eq_true_eq, List.mem_cons, List.not_mem_nil, or_false, beq_iff_eq]
  omega

theorem isSpace_false (c : Char) : isSpace c = false ↔ ¬WhiteSpace c := by
  rw [← isSpace_iff, Bool.not_eq_true]

theorem splitWords_words (cs : List Char) : ∀ cur : List Char, (∀ c ∈ cur, isSpace c = false) →
    Words (cur.reverse ++ cs) ((splitWords cur cs).map String.toList) := by
  induction cs with
  | nil =>
    intro cur h
    unfold splitWords
    split
    · rename_i hc; subst hc; exact .nil
    · rename_i hc
      simp only [List.append_nil, List.map_cons, List.map_nil, String.toList_ofList]
      exact .last (by simpa using hc) (by simpa [isSpace_false] using h)
  | cons c cs ih =>
    intro cur h
    unfold splitWords
    split
    · rename_i hs
      split
      · rename_i hc; subst hc
        exact .space ((isSpace_iff c).mp hs) (ih [] (by simp))
      · rename_i hc
        simp only [List.map_cons, String.toList_ofList]
        exact .word (by simpa using hc) (by simpa [isSpace_false] using h) ((isSpace_iff c).mp hs) (ih [] (by simp))
    · rename_i hs
      have := ih (c :: cur) (by
        intro d hd
        rcases List.mem_cons.mp hd with rfl | hd
        · simpa using hs
        · exact h d hd)
      simpa using this

theorem splitWords_append (w : List Char) (h : ∀ c ∈ w, isSpace c = false) (cs : List Char) :
    ∀ cur, splitWords cur (w ++ cs) = splitWords (w.reverse ++ cur) cs := by
  induction w with
  | nil => intro cur; rfl
  | cons c w ih =>
    intro cur
    rw [List.cons_append, splitWords, if_neg (by simp [h c]), ih fun d hd => h d (by simp [hd])]
    simp

theorem words_unique {cs : List Char} {ws : List (List Char)} (h : Words cs ws) : (splitWords [] cs).map String.toList = ws := by
  induction h with
  | nil => rfl
  | space hs _ ih => rw [splitWords, if_pos ((isSpace_iff _).mpr hs), if_pos rfl]; exact ih
  | @last w hw hn =>
    have := splitWords_append w (fun c hc => (isSpace_false c).mpr (hn c hc)) [] []
    simp only [List.append_nil] at this
    rw [this, splitWords, if_neg (by simpa using hw)]
    simp
  | @word w c cs ws hw hn hs _ ih =>
    rw [splitWords_append w (fun c hc => (isSpace_false c).mpr (hn c hc)), splitWords, if_pos ((isSpace_iff c).mpr hs), if_neg (by simpa using hw)]
    simp [ih]

theorem words_of {s : String} {ws : List String} (h : Words s.toList (ws.map String.toList)) : words s = ws := by
  have := words_unique h
  unfold words
  exact (List.map_inj_right fun a b h => String.toList_inj.mp h).mp this

theorem sendPostTool_eq (x : SendExt) (cfg : Cfg) (w : World) (b : Bundle) (out : List Out) :
    sendPostTool x cfg w b out =
      match x.parseBundle (x.toCbor b) with
      | some b' => ({ w with submitted := w.submitted ++ [b'] },
          { out := out ++ [.line ("Result: " ++ ("Sent " ++ toString (x.toCbor b).length ++ " bytes")), .line "Time"], code := 0 })
      | none => (w, { out := out ++ [.line ("Result: " ++ "error"), .line "Time"], code := 0 }) := by
  unfold sendPostTool
  have := serve_local x.toExt cfg w { addr := loopback, method := .post, path := "/insert", body := x.toCbor b }
    (e := ⟨"/insert", [(.get, .insertGet), (.post, .insertPost)], true⟩) (h := .insertPost) rfl rfl (loopback_host cfg)
  dsimp only
  rw [this]
  simp only [handle, insertPost]
  cases x.parseBundle (x.toCbor b) <;> rfl

theorem mem_lines (x : SendExt) (a : SendArgs) (data : Bytes) (b : Bundle) :
    .line ("Bundle-Id: " ++ b.id) ∈ a.lines x data b ∧ (a.dryrun = true → .line (x.hexify (x.toCbor b)) ∈ a.lines x data b) := by
  unfold SendArgs.lines
  refine ⟨by simp, fun h => by simp [h]⟩

end Dtn.Tools
