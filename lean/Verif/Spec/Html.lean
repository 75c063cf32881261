/-! How a browser sees a page, as far as it is needed to say what the pages of the daemon show: tags, the places links lead to, and the texts
of titles, headings, paragraphs and cells of tables. -/

namespace Dtn.Spec.Html

/-- Something seen on a page: a tag by its name, where a link leads to, the text of a block. -/
inductive Seen where
  | tag (name : List Char)
  | link (target : List Char)
  | block (text : List Char)
deriving DecidableEq, Repr

/-- Where a reader is: what has been read of a tag if it is inside one, and of a block if it is inside one. -/
structure Place where
  tag : Option (List Char) := none
  block : Option (List Char) := none
deriving DecidableEq, Repr

/-- The names of blocks. -/
def blocks : List (List Char) := [['t', 'i', 't', 'l', 'e'], ['h', '1'], ['h', '2'], ['p'], ['t', 'h'], ['t', 'd']]

/-- How a link starts: `a href="`. -/
def linkStart : List Char := ['a', ' ', 'h', 'r', 'e', 'f', '=', '"']

/-- The name of a tag: what comes before the first space. -/
def name (t : List Char) : List Char := t.takeWhile (· != ' ')

/-- What is seen when a tag is complete. -/
def ended (block : Option (List Char)) (t : List Char) : List Seen :=
  .tag (name t) :: ((if linkStart.isPrefixOf t then [.link (t.drop linkStart.length).dropLast] else []) ++
    (if blocks.any (fun b => '/' :: b == name t) then [.block (block.getD [])] else []))

/-- The block one is in when a tag is complete. -/
def within (block : Option (List Char)) (t : List Char) : Option (List Char) :=
  if blocks.any (fun b => '/' :: b == name t) then none
  else if blocks.any (fun b => b == name t) then some (block.getD [])
  else block

/-- Reading one character. -/
def look (p : Place) (c : Char) : Place × List Seen :=
  match p.tag with
  | some t => if c = '>' then (⟨none, within p.block t⟩, ended p.block t) else (⟨some (t ++ [c]), p.block⟩, [])
  | none => if c = '<' then (⟨some [], p.block⟩, []) else (⟨none, p.block.map (· ++ [c])⟩, [])

/-- Reading text. -/
def read : Place → List Char → Place × List Seen
  | p, [] => (p, [])
  | p, c :: cs =>
    let r := read (look p c).1 cs
    (r.1, (look p c).2 ++ r.2)

/-- The text that is shown for characters of a page. -/
def text : List Char → List Char
  | '&' :: 'l' :: 't' :: ';' :: r => '<' :: text r
  | '&' :: 'g' :: 't' :: ';' :: r => '>' :: text r
  | '&' :: 'a' :: 'm' :: 'p' :: ';' :: r => '&' :: text r
  | '&' :: '#' :: '3' :: '9' :: ';' :: r => '\'' :: text r
  | '&' :: 'q' :: 'u' :: 'o' :: 't' :: ';' :: r => '"' :: text r
  | c :: r => c :: text r
  | [] => []

/-- The page is complete, and consists of these tags in this order. -/
def HasTags (page : List Char) (tags : List String) : Prop :=
  (read {} page).1 = {} ∧
    (read {} page).2.filterMap (fun s => match s with | .tag n => some (String.ofList n) | _ => none) = tags

/-- The page shows these texts in this order. -/
def Shows (page : List Char) (texts : List String) : Prop :=
  (read {} page).2.filterMap (fun s => match s with | .block t => some (String.ofList (text t)) | _ => none) = texts

/-- The links of the page lead there. -/
def Links (page : List Char) (targets : List String) : Prop :=
  (read {} page).2.filterMap (fun s => match s with | .link t => some (String.ofList (text t)) | _ => none) = targets

/-- What a browser asks for if a link is followed: a path and, behind a question mark, a query. What comes behind a `#` is kept to itself. -/
def asksFor (target : String) : String × Option String :=
  let t := target.toList.takeWhile (· != '#')
  match t.dropWhile (· != '?') with
  | [] => (String.ofList t, none)
  | _ :: q => (String.ofList (t.takeWhile (· != '?')), some (String.ofList q))

/-- Text that browsers send in a query as it is: letters, digits and signs of ASCII except `"`, `#`, `'`, `<` and `>`. -/
def Plain (s : String) : Prop := ∀ c ∈ s.toList, 0x21 ≤ c.toNat ∧ c.toNat ≤ 0x7e ∧ c ∉ ['"', '#', '\'', '<', '>']

end Dtn.Spec.Html
