import Verif.Model.WebPages
import Verif.Spec.Html
/-! Reading the pages of the daemon. -/

namespace Dtn.WebPages
open Spec.Html

theorem read_append (p : Place) (a b : List Char) :
    Spec.Html.read p (a ++ b) = ((Spec.Html.read (Spec.Html.read p a).1 b).1, (Spec.Html.read p a).2 ++ (Spec.Html.read (Spec.Html.read p a).1 b).2) := by
  induction a generalizing p with
  | nil => rfl
  | cons c a ih =>
    simp only [List.cons_append, Spec.Html.read]
    rw [ih]
    simp [List.append_assoc]

/-- One part of the way through a page. -/
def Goes (p : Place) (cs : List Char) (q : Place) (o : List Seen) : Prop := Spec.Html.read p cs = (q, o)

theorem Goes.append {p q r : Place} {a b : List Char} {o o' : List Seen} (h : Goes p a q o) (h' : Goes q b r o') :
    Goes p (a ++ b) r (o ++ o') := by
  unfold Goes at *
  rw [read_append, h]
  dsimp only
  rw [h']

theorem Goes.nil (p : Place) : Goes p [] p [] := rfl

theorem goes_text (b v : List Char) (h : '<' ∉ v) : Goes ⟨none, some b⟩ v ⟨none, some (b ++ v)⟩ [] := by
  induction v generalizing b with
  | nil => simp [Goes, Spec.Html.read]
  | cons c v ih =>
    have hc : c ≠ '<' := fun hc => h (hc ▸ List.mem_cons_self)
    have := ih (b ++ [c]) (fun h' => h (List.mem_cons_of_mem _ h'))
    unfold Goes at *
    simp only [Spec.Html.read, look, if_neg hc, Option.map_some, List.nil_append]
    rw [this]
    simp

theorem goes_tag (b : Option (List Char)) (t v : List Char) (h : '>' ∉ v) : Goes ⟨some t, b⟩ v ⟨some (t ++ v), b⟩ [] := by
  induction v generalizing t with
  | nil => simp [Goes, Spec.Html.read]
  | cons c v ih =>
    have hc : c ≠ '>' := fun hc => h (hc ▸ List.mem_cons_self)
    have := ih (t ++ [c]) (fun h' => h (List.mem_cons_of_mem _ h'))
    unfold Goes at *
    simp only [Spec.Html.read, look, if_neg hc, List.nil_append]
    rw [this]
    simp

/-- Text put in front of the first block. -/
def pre (v : List Char) : List Seen → List Seen
  | [] => []
  | .block t :: r => .block (v ++ t) :: r
  | .tag t :: r => .tag t :: pre v r
  | .link t :: r => .link t :: pre v r

/-- A block is among them. -/
def hasBlock : List Seen → Bool
  | [] => false
  | .block _ :: _ => true
  | .tag _ :: r => hasBlock r
  | .link _ :: r => hasBlock r

/-- Reading with some text of the present block already read. -/
def frame (v : List Char) (r : Place × List Seen) : Place × List Seen :=
  if hasBlock r.2 then (r.1, pre v r.2) else (⟨r.1.tag, r.1.block.map (v ++ ·)⟩, r.2)

theorem frame_skip (v : List Char) (r : Place × List Seen) (o : List Seen) (h : hasBlock o = false) :
    frame v (r.1, o ++ r.2) = ((frame v r).1, o ++ (frame v r).2) := by
  have h1 : ∀ o : List Seen, hasBlock o = false → hasBlock (o ++ r.2) = hasBlock r.2 ∧ pre v (o ++ r.2) = o ++ pre v r.2 := by
    intro o
    induction o with
    | nil => exact fun _ => ⟨rfl, rfl⟩
    | cons x o ih =>
      intro h
      cases x with
      | block t => cases h
      | tag t => exact ⟨(ih h).1, by rw [List.cons_append, pre, (ih h).2, List.cons_append]⟩
      | link t => exact ⟨(ih h).1, by rw [List.cons_append, pre, (ih h).2, List.cons_append]⟩
  obtain ⟨h2, h3⟩ := h1 o h
  unfold frame
  dsimp only
  rw [h2, h3]
  split <;> rfl

theorem read_frame (cs : List Char) : ∀ (tg : Option (List Char)) (v u : List Char),
    Spec.Html.read ⟨tg, some (v ++ u)⟩ cs = frame v (Spec.Html.read ⟨tg, some u⟩ cs) := by
  induction cs with
  | nil => intro tg v u; rfl
  | cons c cs ih =>
    intro tg v u
    simp only [Spec.Html.read]
    cases tg with
    | none =>
      simp only [look]
      by_cases hc : c = '<'
      · simp only [if_pos hc, List.nil_append]
        rw [ih]
      · simp only [if_neg hc, List.nil_append, Option.map_some, List.append_assoc]
        rw [ih]
    | some t =>
      simp only [look]
      by_cases hc : c = '>'
      · simp only [if_pos hc]
        by_cases hb : blocks.any (fun b => '/' :: b == name t) = true
        · simp only [within, ended, if_pos hb, Option.getD_some]
          unfold frame
          by_cases hl : linkStart.isPrefixOf t = true
          · simp only [if_pos hl]; simp [hasBlock, pre]
          · simp only [if_neg hl]; simp [hasBlock, pre]
        · have h0 : ∀ w : List Char, hasBlock (ended (some w) t) = false := by
            intro w
            simp only [ended, if_neg hb]
            split <;> rfl
          have h1 : ended (some (v ++ u)) t = ended (some u) t := by simp only [ended, if_neg hb]
          have h2 : ∀ w : List Char, within (some w) t = some w := by
            intro w
            simp only [within, if_neg hb, Option.getD_some, ite_self]
          rw [h1, h2, h2, ih, frame_skip _ _ _ (h0 u)]
      · simp only [if_neg hc, List.nil_append]
        rw [ih]

/-- A part of the template that ends the block one is in. -/
theorem Goes.close {cs : List Char} {q : Place} {o : List Seen} (v : List Char) (h : Goes ⟨none, some []⟩ cs q o) (hb : hasBlock o = true) :
    Goes ⟨none, some v⟩ cs q (pre v o) := by
  unfold Goes at *
  have := read_frame cs none v []
  rw [List.append_nil] at this
  rw [this, h]
  simp [frame, hb]

theorem mem_escape {s : String} {c : Char} (h : c ∈ escape s) : c ≠ '<' ∧ c ≠ '>' ∧ c ≠ '"' := by
  unfold escape at h
  obtain ⟨d, _, h⟩ := List.mem_flatMap.mp h
  unfold escapeChar at h
  by_cases h1 : d = '<'
  · rw [if_pos h1] at h; exact (by decide +kernel : ∀ c ∈ "&lt;".toList, c ≠ '<' ∧ c ≠ '>' ∧ c ≠ '"') _ h
  rw [if_neg h1] at h
  by_cases h2 : d = '>'
  · rw [if_pos h2] at h; exact (by decide +kernel : ∀ c ∈ "&gt;".toList, c ≠ '<' ∧ c ≠ '>' ∧ c ≠ '"') _ h
  rw [if_neg h2] at h
  by_cases h3 : d = '&'
  · rw [if_pos h3] at h; exact (by decide +kernel : ∀ c ∈ "&amp;".toList, c ≠ '<' ∧ c ≠ '>' ∧ c ≠ '"') _ h
  rw [if_neg h3] at h
  by_cases h4 : d = '\''
  · rw [if_pos h4] at h; exact (by decide +kernel : ∀ c ∈ "&#39;".toList, c ≠ '<' ∧ c ≠ '>' ∧ c ≠ '"') _ h
  rw [if_neg h4] at h
  by_cases h5 : d = '"'
  · rw [if_pos h5] at h; exact (by decide +kernel : ∀ c ∈ "&quot;".toList, c ≠ '<' ∧ c ≠ '>' ∧ c ≠ '"') _ h
  rw [if_neg h5, List.mem_singleton] at h
  subst h
  exact ⟨h1, h2, h5⟩

theorem goes_value (b : List Char) (s : String) : Goes ⟨none, some b⟩ (escape s) ⟨none, some (b ++ escape s)⟩ [] :=
  goes_text b _ fun h => (mem_escape h).1 rfl

theorem text_cons {c : Char} (h : c ≠ '&') (r : List Char) : text (c :: r) = c :: text r := by
  rw [text] <;> (intros; simp_all)

theorem text_escape (s : String) (r : List Char) : text (escape s ++ r) = s.toList ++ text r := by
  unfold escape
  induction s.toList with
  | nil => rfl
  | cons c l ih =>
    rw [List.flatMap_cons, List.append_assoc, List.cons_append, ← ih]
    unfold escapeChar
    by_cases h1 : c = '<'
    · rw [if_pos h1, h1]; rfl
    rw [if_neg h1]
    by_cases h2 : c = '>'
    · rw [if_pos h2, h2]; rfl
    rw [if_neg h2]
    by_cases h3 : c = '&'
    · rw [if_pos h3, h3]; rfl
    rw [if_neg h3]
    by_cases h4 : c = '\''
    · rw [if_pos h4, h4]; rfl
    rw [if_neg h4]
    by_cases h5 : c = '"'
    · rw [if_pos h5, h5]; rfl
    rw [if_neg h5]
    exact text_cons h3 _

theorem text_plain {l : List Char} (h : '&' ∉ l) (r : List Char) : text (l ++ r) = l ++ text r := by
  induction l with
  | nil => rfl
  | cons c l ih =>
    rw [List.cons_append, text_cons (fun hc => h (hc ▸ List.mem_cons_self)), ih fun h' => h (List.mem_cons_of_mem _ h')]
    rfl

theorem text_of_plain {l : List Char} (h : '&' ∉ l) : text l = l := by
  have := text_plain h []
  rw [List.append_nil] at this
  rw [this]; simp [text]

theorem text_value (s : String) : text (escape s) = s.toList := by
  have := text_escape s []
  rw [List.append_nil] at this
  rw [this]; simp [text]

instance (p : Place) (cs : List Char) (q : Place) (o : List Seen) : Decidable (Goes p cs q o) := inferInstanceAs (Decidable (_ = _))

theorem part1 : Goes ⟨none, none⟩ "<html>\n\n<head>\n    <style>\n        body { font-family: monospace;\n        }\n\n        .block { margin: 4px;\n        }\n    </style>\n    <title>dtn7: ".toList ⟨none, (some "dtn7: ".toList)⟩
    [.tag "html".toList, .tag "head".toList, .tag "style".toList, .tag "/style".toList, .tag "title".toList] := by
  decide +kernel

theorem part2 : Goes ⟨none, some []⟩ "</title>\n</head>\n\n<body>\n    <h1>dtn7 local node: <a href=\"/\">".toList ⟨none, (some "dtn7 local node: ".toList)⟩
    [.tag "/title".toList, .block "".toList, .tag "/head".toList, .tag "body".toList, .tag "h1".toList, .tag "a".toList,
      .link "/".toList] := by
  decide +kernel

theorem part3 : Goes ⟨none, some []⟩ "</a></h1>\n\n    <div class=\"block\">\n        <h2>Bundles (".toList ⟨none, (some "Bundles (".toList)⟩
    [.tag "/a".toList, .tag "/h1".toList, .block "".toList, .tag "div".toList, .tag "h2".toList] := by
  decide +kernel

theorem part4 : Goes ⟨none, some []⟩ ")</h2>\n        <div class=\"block\">\n            <table margin=\"4px\">\n                <tr>\n                    <th width=\"40%\" align=\"left\">Bundle ID</th>\n                    <th width=\"40%\" align=\"left\">Size</th>\n                </tr>\n                ".toList ⟨none, none⟩
    [.tag "/h2".toList, .block ")".toList, .tag "div".toList, .tag "table".toList, .tag "tr".toList, .tag "th".toList,
      .tag "/th".toList, .block "Bundle ID".toList, .tag "th".toList, .tag "/th".toList, .block "Size".toList, .tag "/tr".toList] := by
  decide +kernel

theorem part5 : Goes ⟨none, none⟩ "\n                <tr>\n                    <td><a href=\"/download?".toList ⟨(some "a href=\"/download?".toList), (some "".toList)⟩
    [.tag "tr".toList, .tag "td".toList] := by
  decide +kernel

theorem part6 : Goes ⟨none, some []⟩ "</a></td>\n                    <td>".toList ⟨none, (some "".toList)⟩
    [.tag "/a".toList, .tag "/td".toList, .block "".toList, .tag "td".toList] := by
  decide +kernel

theorem part7 : Goes ⟨none, some []⟩ "</td>\n                </tr>\n                ".toList ⟨none, none⟩
    [.tag "/td".toList, .block "".toList, .tag "/tr".toList] := by
  decide +kernel

theorem part8 : Goes ⟨none, none⟩ "\n            </table>\n        </div>\n    </div>\n</body>\n\n</html>".toList ⟨none, none⟩
    [.tag "/table".toList, .tag "/div".toList, .tag "/div".toList, .tag "/body".toList, .tag "/html".toList] := by
  decide +kernel

theorem part9 : Goes ⟨none, some []⟩ "</a></h1>\n\n    <div class=\"block\">\n        <h2>Peers</h2>\n        <div class=\"block\">\n            <table margin=\"4px\">\n                <tr>\n                    <th width=\"40%\" align=\"left\">Name</th>\n                    <th width=\"10%\" align=\"left\">Type</th>\n                    <th width=\"10%\" align=\"left\">Addr</th>\n                    <th width=\"20%\" align=\"left\">Last Seen</th>\n                </tr>\n                ".toList ⟨none, none⟩
    [.tag "/a".toList, .tag "/h1".toList, .block "".toList, .tag "div".toList, .tag "h2".toList, .tag "/h2".toList,
      .block "Peers".toList, .tag "div".toList, .tag "table".toList, .tag "tr".toList, .tag "th".toList, .tag "/th".toList,
      .block "Name".toList, .tag "th".toList, .tag "/th".toList, .block "Type".toList, .tag "th".toList, .tag "/th".toList,
      .block "Addr".toList, .tag "th".toList, .tag "/th".toList, .block "Last Seen".toList, .tag "/tr".toList] := by
  decide +kernel

theorem part10 : Goes ⟨none, none⟩ "\n                <tr>\n                    <td>".toList ⟨none, (some "".toList)⟩
    [.tag "tr".toList, .tag "td".toList] := by
  decide +kernel

theorem part11 : Goes ⟨none, some []⟩ "</td>\n                    <td>".toList ⟨none, (some "".toList)⟩
    [.tag "/td".toList, .block "".toList, .tag "td".toList] := by
  decide +kernel

theorem part12 : Goes ⟨none, some []⟩ "</a></h1>\n\n    <div class=\"block\">\n        <h2>Configuration</h2>\n        <div class=\"block\">\n            <p>Routing: ".toList ⟨none, (some "Routing: ".toList)⟩
    [.tag "/a".toList, .tag "/h1".toList, .block "".toList, .tag "div".toList, .tag "h2".toList, .tag "/h2".toList,
      .block "Configuration".toList, .tag "div".toList, .tag "p".toList] := by
  decide +kernel

theorem part13 : Goes ⟨none, some []⟩ "</p>\n            <p>CLAs: ".toList ⟨none, (some "CLAs: ".toList)⟩
    [.tag "/p".toList, .block "".toList, .tag "p".toList] := by
  decide +kernel

theorem part14 : Goes ⟨none, some []⟩ " ".toList ⟨none, (some " ".toList)⟩
    [] := by
  decide +kernel

theorem part15 : Goes ⟨none, some []⟩ "</p>\n            <p>Janitor Interval: ".toList ⟨none, (some "Janitor Interval: ".toList)⟩
    [.tag "/p".toList, .block "".toList, .tag "p".toList] := by
  decide +kernel

theorem part16 : Goes ⟨none, some []⟩ "</p>\n            <p>Announcement Interval: ".toList ⟨none, (some "Announcement Interval: ".toList)⟩
    [.tag "/p".toList, .block "".toList, .tag "p".toList] := by
  decide +kernel

theorem part17 : Goes ⟨none, some []⟩ "</p>\n            <p>Peer-Timeout: ".toList ⟨none, (some "Peer-Timeout: ".toList)⟩
    [.tag "/p".toList, .block "".toList, .tag "p".toList] := by
  decide +kernel

theorem part18 : Goes ⟨none, some []⟩ "</p>\n        </div>\n    </div>\n\n    <div class=\"block\">\n        <h2><a href=\"/peers\">Peers</a></h2>\n        <div class=\"block\">\n            <p>Recent neighbours: ".toList ⟨none, (some "Recent neighbours: ".toList)⟩
    [.tag "/p".toList, .block "".toList, .tag "/div".toList, .tag "/div".toList, .tag "div".toList, .tag "h2".toList, .tag "a".toList,
      .link "/peers".toList, .tag "/a".toList, .tag "/h2".toList, .block "Peers".toList, .tag "div".toList, .tag "p".toList] := by
  decide +kernel

theorem part19 : Goes ⟨none, some []⟩ "</p>\n        </div>\n    </div>\n\n    <div class=\"block\">\n        <h2><a href=\"/bundles\">Bundles</a></h2>\n        <div class=\"block\">\n            <p>Stored: ".toList ⟨none, (some "Stored: ".toList)⟩
    [.tag "/p".toList, .block "".toList, .tag "/div".toList, .tag "/div".toList, .tag "div".toList, .tag "h2".toList, .tag "a".toList,
      .link "/bundles".toList, .tag "/a".toList, .tag "/h2".toList, .block "Bundles".toList, .tag "div".toList, .tag "p".toList] := by
  decide +kernel

theorem part20 : Goes ⟨none, some []⟩ "</p>\n            <p>Hash: ".toList ⟨none, (some "Hash: ".toList)⟩
    [.tag "/p".toList, .block "".toList, .tag "p".toList] := by
  decide +kernel

theorem part21 : Goes ⟨none, some []⟩ "</p>\n        </div>\n    </div>\n</body>\n\n</html>".toList ⟨none, none⟩
    [.tag "/p".toList, .block "".toList, .tag "/div".toList, .tag "/div".toList, .tag "/body".toList, .tag "/html".toList] := by
  decide +kernel

end Dtn.WebPages
