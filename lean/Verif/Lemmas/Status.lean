import Verif.Model.Status
import Verif.Spec.Status
import Verif.Lemmas.Json
import Verif.Lemmas.Tools
/-! Lemmas on the status pages. -/

namespace Dtn.Status
open Spec Tools

/-! ### Queries -/

theorem hexValue_hexDigit {n : Nat} (h : n < 16) : hexValue (hexDigit n) = some n := by
  have : ∀ m : Fin 16, hexValue (hexDigit m.1) = some m.1 := by decide
  exact this ⟨n, h⟩

theorem formDecode_percent (b : UInt8) (cs : List Char) : formDecode (percentByte b ++ cs) = b :: formDecode cs := by
  simp only [percentByte, List.cons_append, List.nil_append]
  rw [formDecode]
  rw [hexValue_hexDigit (by have := b.toNat_lt; omega), hexValue_hexDigit (by omega)]
  simp only
  congr 1
  have : 16 * (b.toNat / 16) + b.toNat % 16 = b.toNat := by omega
  rw [this]; simp

theorem formDecode_bytes (bs : Bytes) (cs : List Char) : formDecode (bs.flatMap percentByte ++ cs) = bs ++ formDecode cs := by
  induction bs with
  | nil => rfl
  | cons b bs ih => rw [List.flatMap_cons, List.append_assoc, formDecode_percent, ih]; rfl

theorem formDecode_char {c : Char} (h1 : c ≠ '+') (h2 : c ≠ '%') (cs : List Char) :
    formDecode (c :: cs) = String.utf8EncodeChar c ++ formDecode cs := by
  rw [formDecode]
  · exact h1
  · intro c' d cs' h; exact absurd h h2

theorem formDecode_query (s : List Char) (h : ∀ c ∈ s, c ≠ '+' ∧ c ≠ '%') :
    formDecode (s.flatMap queryChar) = s.flatMap String.utf8EncodeChar := by
  induction s with
  | nil => rw [List.flatMap_nil, formDecode]; rfl
  | cons c s ih =>
    rw [List.flatMap_cons, List.flatMap_cons, ← ih fun c hc => h c (by simp [hc])]
    unfold queryChar
    split
    · exact formDecode_char (h c (by simp)).1 (h c (by simp)).2 _
    · exact formDecode_bytes _ _

theorem formPieces_none (s : List Char) (h : '&' ∉ s) : ∀ cur, formPieces cur s = [cur.reverse ++ s] := by
  induction s with
  | nil => intro cur; simp [formPieces]
  | cons c s ih =>
    intro cur
    simp only [List.mem_cons, not_or] at h
    rw [formPieces, if_neg (fun e => h.1 e.symm), ih h.2]
    simp

theorem hexDigit_ne {n : Nat} (h : n < 16) : hexDigit n ≠ '&' := by
  have : ∀ m : Fin 16, hexDigit m.1 ≠ '&' := by decide
  exact this ⟨n, h⟩

theorem amp_not_mem {s : List Char} (h : '&' ∉ s) : '&' ∉ s.flatMap queryChar := by
  intro hm
  obtain ⟨c, hc, hm⟩ := List.mem_flatMap.mp hm
  unfold queryChar at hm
  split at hm
  · simp only [List.mem_singleton] at hm; subst hm; exact h hc
  · obtain ⟨b, -, hm⟩ := List.mem_flatMap.mp hm
    simp only [percentByte, List.mem_cons, List.not_mem_nil, or_false] at hm
    rcases hm with hm | hm | hm
    · cases hm
    · exact hexDigit_ne (by have := b.toNat_lt; omega) hm.symm
    · exact hexDigit_ne (by omega) hm.symm

/-- The filter text arrives at the daemon as it was given. -/
theorem addr_arrives {ad : String} (h : QueryText ad) :
    formValue "addr" (urlQuery ("addr=" ++ ad)) = some (ad.toList.flatMap String.utf8EncodeChar) := by
  obtain ⟨h1, h2⟩ := h
  simp only [List.mem_cons, List.not_mem_nil, or_false, not_or] at h1
  rw [urlQuery_simple]
  · have e : ("addr=" ++ ad).toList.flatMap queryChar = 'a' :: 'd' :: 'd' :: 'r' :: '=' :: ad.toList.flatMap queryChar := by
      rw [String.toList_append, List.flatMap_append]
      have : "addr=".toList.flatMap queryChar = ['a', 'd', 'd', 'r', '='] := by decide
      rw [this]; rfl
    have ha : '&' ∉ 'a' :: 'd' :: 'd' :: 'r' :: '=' :: ad.toList.flatMap queryChar := by
      have := amp_not_mem (s := ad.toList) fun h => (h1 _ h).2.1 rfl
      simpa using this
    have e2 : (String.ofList ('a' :: 'd' :: 'd' :: 'r' :: '=' :: ad.toList.flatMap queryChar)).toList =
        'a' :: 'd' :: 'd' :: 'r' :: '=' :: ad.toList.flatMap queryChar := String.toList_ofList
    unfold formValue
    rw [e, e2, formPieces_none _ ha]
    have hk : formDecode ['a', 'd', 'd', 'r'] = "addr".toList.flatMap String.utf8EncodeChar := by
      rw [show ['a', 'd', 'd', 'r'] = "addr".toList.flatMap queryChar by decide]
      exact formDecode_query _ (by decide)
    simp only [List.reverse_nil, List.nil_append]
    rw [List.filter_cons_of_pos (by simp)]
    simp only [List.filter_nil, List.map_cons, List.map_nil, List.reverse_cons, List.reverse_nil, List.nil_append]
    have hp : formPair ('a' :: 'd' :: 'd' :: 'r' :: '=' :: ad.toList.flatMap queryChar) =
        (formDecode ['a', 'd', 'd', 'r'], formDecode (ad.toList.flatMap queryChar)) := by
      simp [formPair]
    rw [hp, hk, formDecode_query _ fun c hc => ⟨(h1 c hc).2.2.1, (h1 c hc).2.2.2.1⟩]
    simp
  · intro c hc
    rw [String.toList_append, List.mem_append] at hc
    rcases hc with hc | hc
    · revert c; decide
    · obtain ⟨a1, -, -, -, a5, a6, a7⟩ := h1 c hc
      exact ⟨a5, a6, a7, a1⟩
  · intro c hc
    rw [String.toList_append, List.getLast?_append] at hc
    cases hl : ad.toList.getLast? with
    | none =>
      rw [hl] at hc
      have : c = '=' := by
        have e : "addr=".toList.getLast? = some '=' := by decide
        rw [e] at hc; simpa using hc.symm
      subst this; decide
    | some d =>
      rw [hl] at hc
      have : c = d := by simpa using hc.symm
      subst this
      have := h2 c hl
      omega

/-! ### The filter -/

theorem containsText_iff (p s : List Char) : Digest.containsText p s = true ↔ p <:+: s := by
  induction s with
  | nil =>
    simp only [Digest.containsText, List.isPrefixOf_iff_prefix]
    constructor
    · exact fun h => h.isInfix
    · intro h; rw [List.infix_nil] at h; subst h; exact List.prefix_refl _
  | cons c s ih =>
    simp only [Digest.containsText, Bool.or_eq_true, List.isPrefixOf_iff_prefix, ih, List.infix_cons_iff]

theorem listing_filter {keep : Pack → Prop} {p : Pack → Bool} (h : ∀ x, p x = true ↔ keep x) (packs : List Pack) :
    Listing keep packs ((packs.filter p).map Pack.id) := by
  induction packs with
  | nil => exact .nil
  | cons x packs ih =>
    by_cases hx : p x = true
    · rw [List.filter_cons_of_pos hx, List.map_cons]; exact .take ((h x).mp hx) ih
    · rw [List.filter_cons_of_neg hx]; exact .skip (fun hk => hx ((h x).mpr hk)) ih

theorem Listing.unique {keep : Pack → Prop} {packs : List Pack} {a b : List String} (h : Listing keep packs a) :
    Listing keep packs b → a = b := by
  induction h generalizing b with
  | nil => intro h; cases h; rfl
  | take hk _ ih => intro h; cases h with
    | take _ h => rw [ih h]
    | skip hn _ => exact absurd hk hn
  | skip hn _ ih => intro h; cases h with
    | take hk _ => exact absurd hk hn
    | skip _ h => rw [ih h]

theorem listing_addr (ad : String) (packs : List Pack) :
    Listing (fun p => p.has .deleted = false ∧ Mentions ad p) packs (Digest.filterAddr ad packs) := by
  unfold Digest.filterAddr
  rw [List.filter_filter]
  apply listing_filter
  intro p
  simp only [Bool.and_eq_true, Bool.or_eq_true, containsText_iff, Bool.not_eq_true', Mentions]
  exact And.comm

/-! ### The lines on bundles -/

theorem split_last {c : Char} {a b x y : List Char} (hx : c ∉ x) (hy : c ∉ y) (h : a ++ c :: x = b ++ c :: y) : a = b ∧ x = y := by
  rcases List.append_eq_append_iff.mp h with ⟨t, h1, h2⟩ | ⟨t, h1, h2⟩
  · cases t with
    | nil => simp_all
    | cons d t =>
      simp only [List.cons_append, List.cons.injEq] at h2
      obtain ⟨-, h2⟩ := h2
      exact absurd (by simp [h2]) hx
  · cases t with
    | nil => simp_all
    | cons d t =>
      simp only [List.cons_append, List.cons.injEq] at h2
      obtain ⟨-, h2⟩ := h2
      exact absurd (by simp [h2]) hy

theorem split_first {c : Char} {a b x y : List Char} (ha : c ∉ a) (hb : c ∉ b) (h : a ++ c :: x = b ++ c :: y) : a = b ∧ x = y := by
  induction a generalizing b with
  | nil =>
    cases b with
    | nil => simpa using h
    | cons d b => simp only [List.nil_append, List.cons_append, List.cons.injEq] at h; exact absurd (by simp [h.1]) hb
  | cons d a ih =>
    cases b with
    | nil => simp only [List.nil_append, List.cons_append, List.cons.injEq] at h; exact absurd (by simp [h.1]) ha
    | cons e b =>
      simp only [List.cons_append, List.cons.injEq] at h
      simp only [List.mem_cons, not_or] at ha hb
      obtain ⟨h1, h2⟩ := ih ha.2 hb.2 h.2
      exact ⟨by rw [h.1, h1], h2⟩

/-- The characters of a list of words with commas between them. -/
def joined : List Constraint → List Char
  | [] => []
  | [c] => (stateWord c).toList
  | c :: d :: l => (stateWord c).toList ++ ',' :: ' ' :: joined (d :: l)

theorem toList_intercalate (l : List Constraint) : (String.intercalate ", " (l.map stateWord)).toList = joined l := by
  induction l with
  | nil => rfl
  | cons c l ih =>
    cases l with
    | nil => simp [joined]
    | cons d l =>
      rw [joined, ← ih]
      simp [String.intercalate_cons_cons]

theorem stateWord_plain (c : Constraint) : ',' ∉ (stateWord c).toList ∧ '{' ∉ (stateWord c).toList ∧ (stateWord c).toList ≠ [] := by
  cases c <;> decide

theorem stateWord_inj {c d : Constraint} (h : stateWord c = stateWord d) : c = d := by
  cases c <;> cases d <;> first | rfl | (revert h; decide)

theorem joined_plain (l : List Constraint) : '{' ∉ joined l := by
  fun_induction joined l with
  | case1 => simp
  | case2 c => exact (stateWord_plain c).2.1
  | case3 c d l ih => simp [(stateWord_plain c).2.1, ih]

theorem joined_inj : ∀ (l m : List Constraint), joined l = joined m → l = m
  | [], [], _ => rfl
  | [], [d], h => absurd h.symm (stateWord_plain d).2.2
  | [], d :: e :: m, h => by simp [joined] at h
  | [c], [], h => absurd h (stateWord_plain c).2.2
  | [c], [d], h => by rw [stateWord_inj (String.toList_inj.mp h)]
  | [c], d :: e :: m, h => by
    have := (stateWord_plain c).1
    simp only [joined] at h
    rw [h] at this; simp at this
  | c :: d :: l, [], h => by simp [joined] at h
  | c :: d :: l, [e], h => by
    have := (stateWord_plain e).1
    simp only [joined] at h
    rw [← h] at this; simp at this
  | c :: d :: l, e :: f :: m, h => by
    simp only [joined] at h
    obtain ⟨h1, h2⟩ := split_first (stateWord_plain c).1 (stateWord_plain e).1 h
    rw [stateWord_inj (String.toList_inj.mp h1), joined_inj (d :: l) (f :: m) (by simpa using h2)]

theorem storeLine_unique {line id id' : String} {a b : Constraint → Prop} (h : StoreLine line id a) (h' : StoreLine line id' b) :
    id = id' ∧ ∀ c, a c ↔ b c := by
  obtain ⟨s, -, hs, rfl⟩ := h
  obtain ⟨t, -, ht, e⟩ := h'
  have e := congrArg String.toList e
  simp only [String.toList_append, toList_intercalate] at e
  rw [show " {".toList = [' ', '{'] from rfl, show "}".toList = ['}'] from rfl] at e
  simp only [List.append_assoc, List.cons_append, List.nil_append] at e
  rw [show ∀ (a x : List Char), a ++ ' ' :: '{' :: x = (a ++ [' ']) ++ '{' :: x by simp,
    show ∀ (a x : List Char), a ++ ' ' :: '{' :: x = (a ++ [' ']) ++ '{' :: x by simp] at e
  obtain ⟨h1, h2⟩ := split_last (by simp [joined_plain]) (by simp [joined_plain]) e
  have h1 := List.append_cancel_right h1
  have h2 := joined_inj _ _ (List.append_cancel_right h2)
  subst h2
  exact ⟨String.toList_inj.mp h1, fun c => by rw [← hs c, ← ht c]⟩

theorem showPack_line {x : Ext} {p : Pack} (h : WalksOnce x p) : StoreLine (showPack x p) p.id (fun c => p.has c = true) := by
  refine ⟨x.walk p, h.1, h.2, ?_⟩
  unfold showPack
  have : constraintName = stateWord := by funext c; cases c <;> rfl
  rw [this]

theorem peerValue_record (x : Ext) (p : ShownPeer) : PeerRecord x (peerValue x p) p where
  eid := rfl
  ip := by
    intro a h
    show some (addrValue p.peer.addr) = _
    rcases h with h | h <;> rw [h] <;> rfl
  broadcast := by intro d a h; show some (addrValue p.peer.addr) = _; rw [h]; rfl
  generic := by intro a h; show some (addrValue p.peer.addr) = _; rw [h]; rfl
  kind := by show some (typeValue p.peer.conType) = _; cases p.peer.conType <;> rfl
  noPeriod := by intro h; show some (periodValue p.peer.period) = _; rw [h]; rfl
  period := by
    intro ms h
    refine ⟨periodValue p.peer.period, ms / 1000, ms % 1000 * 1000000, rfl, ?_, ?_, by omega, by omega⟩ <;> rw [h] <;> rfl
  layers := by
    refine ⟨_, rfl, by simp, ?_⟩
    intro i name port h
    rw [List.getElem?_map, h]
    cases port <;> rfl
  services := by
    refine ⟨_, rfl, by simp, ?_⟩
    intro i n text h
    rw [List.getElem?_map, h]
    rfl
  lastContact := rfl
  fails := rfl

/-! ### The tool -/

theorem query_verbose (x : Ext) (v : View) (digest : Bool) (ad : Option String) :
    query x v (.bundles true digest ad) = ⟨[.line "Listing of bundles in store:", .line (jsonList (fullMeta v.packs))], none, 0⟩ := by
  simp [query, QueryCmd.asks, QueryCmd.url, page, dtnquery]

theorem query_bundles (x : Ext) (v : View) : query x v (.bundles false false none) =
    ⟨[.line "Listing of bundles in store:", .line (jsonList ((v.packs.filter fun p => !p.has .deleted).map Pack.id))], none, 0⟩ := by
  simp [query, QueryCmd.asks, QueryCmd.url, page, dtnquery]

theorem query_digest (x : Ext) (v : View) : query x v (.bundles false true none) =
    ⟨[.line "Listing of bundles in store:", .line (Digest.complete x.sha1 v.packs)], none, 0⟩ := by
  simp [query, QueryCmd.asks, QueryCmd.url, page, dtnquery]

theorem query_filtered (x : Ext) (v : View) (ad c : String) (h : addrParam x (some (urlQuery ("addr=" ++ ad))) = some c) :
    query x v (.bundles false false (some ad)) =
      ⟨[.line "Listing of bundles in store:", .line (jsonList (Digest.filterAddr c v.packs))], none, 0⟩ := by
  simp [query, QueryCmd.asks, QueryCmd.url, page, dtnquery, h]

end Dtn.Status
