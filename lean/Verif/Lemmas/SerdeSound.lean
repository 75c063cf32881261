import Verif.Lemmas.Serde
/-! The reader of JSON accepts only texts of the grammar. -/

namespace Dtn.Serde
open Spec.Rfc8259

/-- Places in a text: behind an opening bracket, a comma or a colon, in front of a value, and in front of the name of a field. -/
inductive Place where
  | start (up : List Frame)
  | value (up : List Frame)
  | key (up : List Frame) (got : List (String × Value))

/-- The text up to a place. -/
inductive UpTo : Place → List Char → Prop where
  | top : UpTo (.start []) []
  | space {up p a} : UpTo (.start up) p → Space a → UpTo (.value up) (p ++ a)
  | first {up p} : UpTo (.value up) p → up.length < 127 → UpTo (.start (.list [] :: up)) (p ++ ['['])
  | next {up p got items} : UpTo (.value up) p → up.length < 127 → Gram (126 - up.length) (.items got) items →
      UpTo (.start (.list got :: up)) (p ++ '[' :: (items ++ [',']))
  | key {up p a} : UpTo (.value up) p → up.length < 127 → Space a → UpTo (.key up []) (p ++ '{' :: a)
  | keys {up p got fs a} : UpTo (.value up) p → up.length < 127 → Gram (126 - up.length) (.fields got) fs → Space a →
      UpTo (.key up got) (p ++ '{' :: (fs ++ ',' :: a))
  | field {up got p k ks b} : UpTo (.key up got) p → Str k ks → Space b → UpTo (.start (.obj got k :: up)) (p ++ ks ++ b ++ [':'])

/-- Hexadecimal digits and their value. -/
inductive Hexes : Nat → List Char → Prop where
  | nil : Hexes 0 []
  | snoc {n ds d c} : Hexes n ds → Hex d c → Hexes (16 * n + d) (ds ++ [c])

/-- In front of a string. -/
def TextAt (up : List Frame) (r : Role) (p : List Char) : Prop :=
  match r with
  | .item => UpTo (.value up) p
  | .key got => UpTo (.key up got) p

/-- The text that was read when the reader is in a state. -/
def Inv : State → List Char → Prop
  | .value up, cs => UpTo (.value up) cs
  | .bracket up, cs => ∃ p a, UpTo (.value up) p ∧ up.length < 127 ∧ Space a ∧ cs = p ++ '[' :: a
  | .brace up, cs => ∃ p a, UpTo (.value up) p ∧ up.length < 127 ∧ Space a ∧ cs = p ++ '{' :: a
  | .text up r cur, cs => ∃ p body, TextAt up r p ∧ Chars cur body ∧ cs = p ++ '"' :: body
  | .escape up r cur, cs => ∃ p body, TextAt up r p ∧ Chars cur body ∧ cs = p ++ '"' :: (body ++ ['\\'])
  | .digits up r cur high left v, cs => ∃ p body ds, TextAt up r p ∧ Chars cur body ∧ Hexes v ds ∧ ds.length + left = 4 ∧ 0 < left ∧
      match high with
      | none => cs = p ++ '"' :: (body ++ '\\' :: 'u' :: ds)
      | some h => ∃ hi, Hex4 h hi ∧ 0xd800 ≤ h ∧ h < 0xdc00 ∧ cs = p ++ '"' :: (body ++ '\\' :: 'u' :: (hi ++ '\\' :: 'u' :: ds))
  | .surrogate up r cur h slash, cs => ∃ p body hi, TextAt up r p ∧ Chars cur body ∧ Hex4 h hi ∧ 0xd800 ≤ h ∧ h < 0xdc00 ∧
      cs = p ++ '"' :: (body ++ '\\' :: 'u' :: (hi ++ if slash then ['\\'] else []))
  | .number up t ph, cs => ∃ p, UpTo (.value up) p ∧ Prefix ph t ∧ cs = p ++ t
  | .word up left v, cs => ∃ p w, UpTo (.value up) p ∧ (∀ n, Gram n (.value v) (w ++ left)) ∧ cs = p ++ w
  | .name up got k, cs => ∃ p ks b, UpTo (.key up got) p ∧ Str k ks ∧ Space b ∧ cs = p ++ ks ++ b
  | .behindItem up got, cs => ∃ p items, UpTo (.value up) p ∧ up.length < 127 ∧ Gram (126 - up.length) (.items got) items ∧ cs = p ++ '[' :: items
  | .behindField up got, cs => ∃ p fs, UpTo (.value up) p ∧ up.length < 127 ∧ Gram (126 - up.length) (.fields got) fs ∧ cs = p ++ '{' :: fs
  | .comma up got, cs => ∃ p fs a, UpTo (.value up) p ∧ up.length < 127 ∧ Gram (126 - up.length) (.fields got) fs ∧ Space a ∧
      cs = p ++ '{' :: (fs ++ ',' :: a)
  | .finished v, cs => Text 127 v cs

theorem space_of {c : Char} (h : isSpace c = true) : c = ' ' ∨ c = '\t' ∨ c = '\n' ∨ c = '\r' := by
  simpa [isSpace, Bool.or_eq_true, or_assoc] using h

theorem space_snoc {a : List Char} {c : Char} (ha : Space a) (h : isSpace c = true) : Space (a ++ [c]) := by
  intro x hx
  rcases List.mem_append.1 hx with hx | hx
  · exact ha x hx
  · rw [List.mem_singleton.1 hx]; exact space_of h

theorem space_append {a b : List Char} (ha : Space a) (hb : Space b) : Space (a ++ b) := by
  intro x hx
  rcases List.mem_append.1 hx with hx | hx
  exacts [ha x hx, hb x hx]

theorem items_snoc {n : Nat} {v : Value} {l : List Value} {cs a m b : List Char} (h : Gram n (.items l) cs) (ha : Space a) (hm : Gram n (.value v) m)
    (hb : Space b) : Gram n (.items (l ++ [v])) (cs ++ ',' :: (a ++ m ++ b)) := by
  induction l generalizing cs with
  | nil => cases h
  | cons w l ih =>
    cases h with
    | item h1 h2 h3 => exact .items h1 h2 h3 (.item ha hm hb)
    | items h1 h2 h3 h4 =>
      have := Gram.items h1 h2 h3 (ih h4)
      simpa [List.append_assoc] using this

theorem fields_snoc {n : Nat} {k : String} {v : Value} {l : List (String × Value)} {cs a ks b c m d : List Char} (h : Gram n (.fields l) cs) (ha : Space a)
    (hk : Str k ks) (hb : Space b) (hc : Space c) (hm : Gram n (.value v) m) (hd : Space d) :
    Gram n (.fields (l ++ [(k, v)])) (cs ++ ',' :: (a ++ ks ++ b ++ ':' :: c ++ m ++ d)) := by
  induction l generalizing cs with
  | nil => cases h
  | cons w l ih =>
    cases h with
    | field h1 h2 h3 h4 h5 h6 => exact .fields h1 h2 h3 h4 h5 h6 (.field ha hk hb hc hm hd)
    | fields h1 h2 h3 h4 h5 h6 h7 =>
      have := Gram.fields h1 h2 h3 h4 h5 h6 (ih h7)
      simpa [List.append_assoc] using this

theorem items_space {n : Nat} {l : List Value} {cs a : List Char} (h : Gram n (.items l) cs) (ha : Space a) : Gram n (.items l) (cs ++ a) := by
  induction l generalizing cs with
  | nil => cases h
  | cons w l ih =>
    cases h with
    | item h1 h2 h3 => have := Gram.item h1 h2 (space_append h3 ha); simpa [List.append_assoc] using this
    | items h1 h2 h3 h4 => have := Gram.items h1 h2 h3 (ih h4); simpa [List.append_assoc] using this

theorem fields_space {n : Nat} {l : List (String × Value)} {cs a : List Char} (h : Gram n (.fields l) cs) (ha : Space a) : Gram n (.fields l) (cs ++ a) := by
  induction l generalizing cs with
  | nil => cases h
  | cons w l ih =>
    cases h with
    | field h1 h2 h3 h4 h5 h6 => have := Gram.field h1 h2 h3 h4 h5 (space_append h6 ha); simpa [List.append_assoc] using this
    | fields h1 h2 h3 h4 h5 h6 h7 => have := Gram.fields h1 h2 h3 h4 h5 h6 (ih h7); simpa [List.append_assoc] using this

/-- A value was read. -/
theorem inv_finish {up : List Frame} {v : Value} {p m : List Char} (h : UpTo (.value up) p) (hm : Gram (127 - up.length) (.value v) m) :
    Inv (finish up v) (p ++ m) := by
  cases h with
  | @space _ q a h ha =>
    cases h with
    | top => exact ⟨a, m, [], ha, hm, space_nil, by simp⟩
    | @first up p h hl =>
      refine ⟨p, _, h, hl, .item ha (b := []) (cs := m) ?_ space_nil, by simp⟩
      have : 126 - up.length = 127 - (up.length + 1) := by omega
      rw [this]; exact hm
    | @next up p got items h hl hi =>
      have e : 126 - up.length = 127 - (up.length + 1) := by omega
      refine ⟨p, _, h, hl, items_snoc hi ha (b := []) (m := m) ?_ space_nil, by simp⟩
      rw [e]; exact hm
    | @field up got p k ks b h hk hb =>
      have e : 126 - up.length = 127 - (up.length + 1) := by omega
      cases h with
      | @key _ p a' h hl ha' =>
        refine ⟨p, _, h, hl, .field ha' hk hb ha (d := []) (cs := m) ?_ space_nil, by simp⟩
        rw [e]; exact hm
      | @keys _ p _ fs a' h hl hf ha' =>
        refine ⟨p, _, h, hl, fields_snoc hf ha' hk hb ha (d := []) (m := m) ?_ space_nil, by simp⟩
        rw [e]; exact hm

theorem depth_succ {n : Nat} (h : n < 127) : 126 - n + 1 = 127 - n := by omega

theorem inv_behind {st st' : State} {c : Char} {cs : List Char} (h : Inv st cs) (hr : readBehind st c = some st') : Inv st' (cs ++ [c]) := by
  unfold readBehind at hr
  split at hr
  · obtain ⟨p, items, h1, hl, h2, rfl⟩ := h
    split at hr
    · rename_i hs
      cases hr
      exact ⟨p, _, h1, hl, items_space h2 (a := [c]) (by intro x hx; rw [List.mem_singleton.1 hx]; exact space_of hs), by simp⟩
    split at hr
    · rename_i e; subst e; cases hr
      have := UpTo.space (UpTo.next h1 hl h2) space_nil
      simpa [Inv] using this
    split at hr
    · rename_i e; subst e; cases hr
      have := inv_finish h1 (depth_succ hl ▸ Gram.list h2)
      simpa using this
    · cases hr
  · obtain ⟨p, fs, h1, hl, h2, rfl⟩ := h
    split at hr
    · rename_i hs
      cases hr
      exact ⟨p, _, h1, hl, fields_space h2 (a := [c]) (by intro x hx; rw [List.mem_singleton.1 hx]; exact space_of hs), by simp⟩
    split at hr
    · rename_i e; subst e; cases hr
      exact ⟨p, fs, [], h1, hl, h2, space_nil, by simp⟩
    split at hr
    · rename_i e; subst e; cases hr
      have := inv_finish h1 (depth_succ hl ▸ Gram.obj h2)
      simpa using this
    · cases hr
  · obtain ⟨a, m, b, ha, hm, hb, rfl⟩ := h
    split at hr
    · rename_i hs
      cases hr
      exact ⟨a, m, b ++ [c], ha, hm, space_snoc hb hs, by simp⟩
    · cases hr
  · cases hr

theorem inv_readValue {up : List Frame} {st : State} {c : Char} {cs : List Char} (h : UpTo (.value up) cs) (hr : readValue up c = some st) :
    Inv st (cs ++ [c]) := by
  unfold readValue at hr
  split at hr
  · rename_i hs; cases hr
    cases h with
    | space h ha => have := UpTo.space h (space_snoc ha hs); simpa [Inv] using this
  split at hr
  · rename_i e; subst e
    unfold opened at hr
    split at hr
    · cases hr; exact ⟨cs, [], h, by assumption, space_nil, rfl⟩
    · cases hr
  split at hr
  · rename_i e; subst e
    unfold opened at hr
    split at hr
    · cases hr; exact ⟨cs, [], h, by assumption, space_nil, rfl⟩
    · cases hr
  split at hr
  · rename_i e; subst e; cases hr
    exact ⟨cs, [], h, .nil, rfl⟩
  split at hr
  · rename_i e; subst e; cases hr
    exact ⟨cs, ['n'], h, fun n => .null, rfl⟩
  split at hr
  · rename_i e; subst e; cases hr
    exact ⟨cs, ['t'], h, fun n => .true, rfl⟩
  split at hr
  · rename_i e; subst e; cases hr
    exact ⟨cs, ['f'], h, fun n => .false, rfl⟩
  cases hn : next .start c with
  | none => rw [hn] at hr; cases hr
  | some ph => rw [hn] at hr; cases hr; exact ⟨cs, h, prefix_next (a := .start) rfl hn, rfl⟩

theorem chars_snoc {s body w : List Char} {c : Char} (h : Chars s body) (hw : Written c w) : Chars (s ++ [c]) (body ++ w) := by
  induction h with
  | nil => simpa using Chars.cons hw .nil
  | cons h1 _ ih => have := Chars.cons h1 ih; simpa [List.append_assoc] using this

theorem hex_of {c : Char} {d : Nat} (h : hexDigit c = some d) : Hex d c := by
  have key1 : ∀ m : Fin 10, "0123456789abcdef".toList[m.1]? = some (Char.ofNat (48 + m.1)) := by decide
  have key2 : ∀ m : Fin 6, "0123456789abcdef".toList[10 + m.1]? = some (Char.ofNat (97 + m.1)) := by decide
  have key3 : ∀ m : Fin 6, "0123456789ABCDEF".toList[10 + m.1]? = some (Char.ofNat (65 + m.1)) := by decide
  have e := Char.ofNat_toNat c
  unfold hexDigit at h
  split at h
  · rename_i hr
    have h1 : 48 ≤ c.toNat := hr.1
    have h2 : c.toNat ≤ 57 := hr.2
    cases h
    left
    have := key1 ⟨c.toNat - 48, by omega⟩
    rw [this, show 48 + (c.toNat - 48) = c.toNat by omega, e]
  split at h
  · rename_i hr
    have h1 : 97 ≤ c.toNat := hr.1
    have h2 : c.toNat ≤ 102 := hr.2
    cases h
    left
    have := key2 ⟨c.toNat - 97, by omega⟩
    simp only at this
    rw [show c.toNat - 87 = 10 + (c.toNat - 97) by omega, this, show 97 + (c.toNat - 97) = c.toNat by omega, e]
  split at h
  · rename_i hr
    have h1 : 65 ≤ c.toNat := hr.1
    have h2 : c.toNat ≤ 70 := hr.2
    cases h
    right
    have := key3 ⟨c.toNat - 65, by omega⟩
    simp only at this
    rw [show c.toNat - 55 = 10 + (c.toNat - 65) by omega, this, show 65 + (c.toNat - 65) = c.toNat by omega, e]
  · cases h

theorem hex4_of {n : Nat} {ds : List Char} (h : Hexes n ds) (hl : ds.length = 4) : Hex4 n ds := by
  cases h with
  | nil => simp at hl
  | @snoc n3 ds3 d c h3 hd =>
    cases h3 with
    | nil => simp at hl
    | @snoc n2 ds2 d2 c2 h2 hd2 =>
      cases h2 with
      | nil => simp at hl
      | @snoc n1 ds1 d1 c1 h1 hd1 =>
        cases h1 with
        | nil => simp at hl
        | @snoc n0 ds0 d0 c0 h0 hd0 =>
          have : ds0 = [] := by simpa using hl
          generalize hds : ds0 = x at h0
          cases h0 with
          | nil => exact ⟨d0, d1, d2, d, c0, c1, c2, c, by simp, hd0, hd1, hd2, hd, by omega⟩
          | snoc h _ => rw [this] at hds; simp at hds

theorem hex4_lt {n : Nat} {ds : List Char} (h : Hex4 n ds) : n < 65536 := by
  obtain ⟨a, b, c, d, w, x, y, z, rfl, ha, hb, hc, hd, rfl⟩ := h
  have := (hexDigit_of ha).2; have := (hexDigit_of hb).2; have := (hexDigit_of hc).2; have := (hexDigit_of hd).2
  omega

theorem toNat_ofNat {n : Nat} (h : n < 0xd800 ∨ (0xdfff < n ∧ n < 0x110000)) : (Char.ofNat n).toNat = n := by
  have hv : n.isValidChar := h
  unfold Char.ofNat
  rw [dif_pos hv]
  show (UInt32.toNat _) = n
  exact rfl

theorem inv_codeUnit {up : List Frame} {r : Role} {cur : List Char} {high : Option Nat} {n : Nat} {st : State} {p body ds cs : List Char}
    (h1 : TextAt up r p) (h2 : Chars cur body) (h3 : Hex4 n ds)
    (h4 : match high with
      | none => cs = p ++ '"' :: (body ++ '\\' :: 'u' :: ds)
      | some h => ∃ hi, Hex4 h hi ∧ 0xd800 ≤ h ∧ h < 0xdc00 ∧ cs = p ++ '"' :: (body ++ '\\' :: 'u' :: (hi ++ '\\' :: 'u' :: ds)))
    (hr : codeUnit up r cur high n = some st) : Inv st cs := by
  have lt := hex4_lt h3
  unfold codeUnit at hr
  cases high with
  | none =>
    simp only at hr h4
    subst h4
    split at hr
    · cases hr; exact ⟨p, body, ds, h1, h2, h3, by omega, by omega, by simp⟩
    split at hr
    · cases hr
    · cases hr
      have e := toNat_ofNat (n := n) (by omega)
      refine ⟨p, _, h1, chars_snoc h2 (.unicode (ds := ds) (by omega) (by rw [e]; exact h3)), rfl⟩
  | some h =>
    simp only at hr h4
    obtain ⟨hi, a1, a2, a3, rfl⟩ := h4
    split at hr
    · cases hr
      have e := toNat_ofNat (n := 0x10000 + (h - 0xd800) * 1024 + (n - 0xdc00)) (by omega)
      refine ⟨p, _, h1, chars_snoc h2 (.pair (hi := hi) (lo := ds) (by omega) ?_ ?_), by simp⟩
      · have : 0xd800 + ((Char.ofNat (0x10000 + (h - 0xd800) * 1024 + (n - 0xdc00))).toNat - 0x10000) / 1024 = h := by rw [e]; omega
        rw [this]; exact a1
      · have : 0xdc00 + ((Char.ofNat (0x10000 + (h - 0xd800) * 1024 + (n - 0xdc00))).toNat - 0x10000) % 1024 = n := by rw [e]; omega
        rw [this]; exact h3
    · cases hr

/-- Every step keeps to the grammar. -/
theorem inv_read {st st' : State} {c : Char} {cs : List Char} (h : Inv st cs) (hr : read st c = some st') : Inv st' (cs ++ [c]) := by
  cases st with
  | value up => exact inv_readValue h hr
  | bracket up =>
    obtain ⟨p, a, h1, hl, ha, rfl⟩ := h
    simp only [read] at hr
    split at hr
    · rename_i hs; cases hr; exact ⟨p, a ++ [c], h1, hl, space_snoc ha hs, by simp⟩
    split at hr
    · rename_i e; subst e; cases hr
      have e : 127 - up.length = (126 - up.length) + 1 := by omega
      have := inv_finish h1 (by rw [e]; exact Gram.noItems ha)
      simpa using this
    · have := inv_readValue (UpTo.space (UpTo.first h1 hl) ha) hr
      simpa using this
  | brace up =>
    obtain ⟨p, a, h1, hl, ha, rfl⟩ := h
    simp only [read] at hr
    split at hr
    · rename_i hs; cases hr; exact ⟨p, a ++ [c], h1, hl, space_snoc ha hs, by simp⟩
    split at hr
    · rename_i e; subst e; cases hr
      have e : 127 - up.length = (126 - up.length) + 1 := by omega
      have := inv_finish h1 (by rw [e]; exact Gram.noFields ha)
      simpa using this
    split at hr
    · rename_i e; subst e; cases hr
      exact ⟨_, [], UpTo.key h1 hl ha, .nil, by simp⟩
    · cases hr
  | text up r cur =>
    obtain ⟨p, body, h1, h2, rfl⟩ := h
    simp only [read] at hr
    split at hr
    · rename_i e; subst e; cases hr
      have hs : Str (.ofList cur) ('"' :: body ++ ['"']) := ⟨body, by simpa using h2, rfl⟩
      cases r with
      | item => have := inv_finish h1 (v := .str (.ofList cur)) (.str hs); simpa [finishText] using this
      | key got => exact ⟨p, _, [], h1, hs, space_nil, by simp⟩
    split at hr
    · rename_i e; subst e; cases hr; exact ⟨p, body, h1, h2, by simp⟩
    split at hr
    · cases hr
    · cases hr
      exact ⟨p, _, h1, chars_snoc h2 (.plain (by assumption) (by assumption) (by omega)), by simp⟩
  | escape up r cur =>
    obtain ⟨p, body, h1, h2, rfl⟩ := h
    have ok : ∀ {d}, Written d ['\\', c] → Inv (.text up r (cur ++ [d])) (p ++ '"' :: (body ++ ['\\']) ++ [c]) :=
      fun hw => ⟨p, _, h1, chars_snoc h2 hw, by simp⟩
    simp only [read] at hr
    split at hr
    · rename_i e; cases hr
      rcases e with rfl | rfl | rfl
      exacts [ok .quote, ok .backslash, ok .slash]
    split at hr
    · rename_i e; subst e; cases hr; exact ok .backspace
    split at hr
    · rename_i e; subst e; cases hr; exact ok .formFeed
    split at hr
    · rename_i e; subst e; cases hr; exact ok .lineFeed
    split at hr
    · rename_i e; subst e; cases hr; exact ok .carriageReturn
    split at hr
    · rename_i e; subst e; cases hr; exact ok .tab
    split at hr
    · rename_i e; subst e; cases hr
      exact ⟨p, body, [], h1, h2, .nil, rfl, by omega, by simp⟩
    · cases hr
  | digits up r cur high left v =>
    obtain ⟨p, body, ds, h1, h2, h3, h4, h5, h6⟩ := h
    simp only [read] at hr
    split at hr
    · cases hr
    · rename_i d hd
      have hx := Hexes.snoc h3 (hex_of hd)
      split at hr
      · rename_i e; subst e
        refine inv_codeUnit (cs := cs ++ [c]) h1 h2 (hex4_of hx (by simp; omega)) ?_ hr
        cases high with
        | none => simp only at h6 ⊢; subst h6; simp
        | some g => obtain ⟨hi, a1, a2, a3, rfl⟩ := h6; exact ⟨hi, a1, a2, a3, by simp⟩
      · cases hr
        refine ⟨p, body, _, h1, h2, hx, by simp; omega, by omega, ?_⟩
        cases high with
        | none => simp only at h6 ⊢; subst h6; simp
        | some g => obtain ⟨hi, a1, a2, a3, rfl⟩ := h6; exact ⟨hi, a1, a2, a3, by simp⟩
  | surrogate up r cur g slash =>
    obtain ⟨p, body, hi, h1, h2, h3, h4, h5, rfl⟩ := h
    cases slash with
    | false =>
      simp only [read] at hr
      split at hr
      · rename_i e; subst e; cases hr; exact ⟨p, body, hi, h1, h2, h3, h4, h5, by simp⟩
      · cases hr
    | true =>
      simp only [read] at hr
      split at hr
      · rename_i e; subst e; cases hr
        exact ⟨p, body, [], h1, h2, .nil, rfl, by omega, hi, h3, h4, h5, by simp⟩
      · cases hr
  | number up t ph =>
    obtain ⟨p, h1, h2, rfl⟩ := h
    simp only [read] at hr
    split at hr
    · rename_i ph' hn; cases hr
      exact ⟨p, h1, prefix_next h2 hn, by simp⟩
    · split at hr
      · rename_i hc
        exact inv_behind (inv_finish h1 (gram_number (number_of_prefix h2 hc) _)) hr
      · cases hr
  | word up left v =>
    obtain ⟨p, w, h1, h2, rfl⟩ := h
    cases left with
    | nil => simp [read] at hr
    | cons d left =>
      simp only [read] at hr
      split at hr
      · rename_i e; subst e
        split at hr
        · rename_i e; subst e; cases hr
          have := inv_finish h1 (h2 _)
          simpa using this
        · cases hr
          exact ⟨p, w ++ [c], h1, fun n => by simpa using h2 n, by simp⟩
      · cases hr
  | name up got k =>
    obtain ⟨p, ks, b, h1, h2, h3, rfl⟩ := h
    simp only [read] at hr
    split at hr
    · rename_i hs; cases hr; exact ⟨p, ks, b ++ [c], h1, h2, space_snoc h3 hs, by simp⟩
    split at hr
    · rename_i e; subst e; cases hr
      have := UpTo.space (UpTo.field h1 h2 h3) space_nil
      simpa [Inv] using this
    · cases hr
  | comma up got =>
    obtain ⟨p, fs, a, h1, hl, h2, h3, rfl⟩ := h
    simp only [read] at hr
    split at hr
    · rename_i hs; cases hr; exact ⟨p, fs, a ++ [c], h1, hl, h2, space_snoc h3 hs, by simp⟩
    split at hr
    · rename_i e; subst e; cases hr
      exact ⟨_, [], UpTo.keys h1 hl h2 h3, .nil, by simp⟩
    · cases hr
  | behindItem up got => exact inv_behind h hr
  | behindField up got => exact inv_behind h hr
  | finished v => exact inv_behind h hr

/-- Only texts of the grammar are read, as what they stand for. -/
theorem text_of_machine {cs : List Char} {v : Value} (h : (cs.foldlM read (.value [])).bind result = some v) : Text 127 v cs := by
  have key : ∀ (ds pre : List Char) (st st' : State), Inv st pre → ds.foldlM read st = some st' → Inv st' (pre ++ ds) := by
    intro ds
    induction ds with
    | nil => intro pre st st' hi he; cases he; simpa using hi
    | cons c ds ih =>
      intro pre st st' hi he
      rw [List.foldlM_cons, Option.bind_eq_bind, Option.bind_eq_some_iff] at he
      obtain ⟨m, h1, h2⟩ := he
      have := ih (pre ++ [c]) m st' (inv_read hi h1) h2
      simpa using this
  rw [Option.bind_eq_some_iff] at h
  obtain ⟨st, h1, h2⟩ := h
  have hi := key cs [] (.value []) st (by simpa [Inv] using UpTo.space UpTo.top space_nil) h1
  rw [List.nil_append] at hi
  unfold result at h2
  split at h2
  · cases h2; exact hi
  · split at h2
    · rename_i hc
      cases h2
      obtain ⟨p, a1, a2, rfl⟩ := hi
      exact inv_finish a1 (gram_number (number_of_prefix a2 hc) _)
    · cases h2
  · cases h2

/-- The reader reads exactly the texts of the grammar without numbers out of range. -/
theorem parse_iff (finite : List Char → Bool) (cs : List Char) (v : Value) :
    parse finite cs = some v ↔ Text 127 v cs ∧ ∀ t, Other v t → finite t = true := by
  unfold parse
  rw [Option.filter_eq_some_iff, List.all_eq_true]
  constructor
  · rintro ⟨h1, h2⟩; exact ⟨text_of_machine h1, fun t ht => h2 t ((others_iff v t).2 ht)⟩
  · rintro ⟨h1, h2⟩; exact ⟨machine_text h1, fun t ht => h2 t ((others_iff v t).1 ht)⟩

end Dtn.Serde
