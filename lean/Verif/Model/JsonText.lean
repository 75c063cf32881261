/-! JSON values and how `serde_json` writes them. -/

namespace Dtn.JsonText

/-- A JSON value, as far as the status pages need them: no fractions, no negative numbers, no truth values. -/
inductive Value where
  | null
  | num (n : Nat)
  | str (s : String)
  | list (l : List Value)
  | obj (l : List (String × Value))

/-- A digit of the escapes of `serde_json`. -/
def lowHex (n : Nat) : Char := if n < 10 then Char.ofNat (48 + n) else Char.ofNat (87 + n)

/-- A character inside a JSON string as written by `serde_json` (external). -/
def jsonChar (c : Char) : List Char :=
  if c = '"' then ['\\', '"']
  else if c = '\\' then ['\\', '\\']
  else if c.toNat = 8 then ['\\', 'b']
  else if c = '\t' then ['\\', 't']
  else if c = '\n' then ['\\', 'n']
  else if c.toNat = 12 then ['\\', 'f']
  else if c = '\r' then ['\\', 'r']
  else if c.toNat < 32 then ['\\', 'u', '0', '0', lowHex (c.toNat / 16), lowHex (c.toNat % 16)]
  else [c]

/-- A JSON string. -/
def jsonString (s : String) : List Char := '"' :: (s.toList.flatMap jsonChar ++ ['"'])

/-- The start of a line at a depth of `n`. -/
def newLine (n : Nat) : List Char := '\n' :: List.replicate (2 * n) ' '

mutual
/-- The text of a value at a depth of `n`. -/
def chars (n : Nat) : Value → List Char
  | .null => "null".toList
  | .num k => (toString k).toList
  | .str s => jsonString s
  | .list [] => ['[', ']']
  | .list (v :: l) => '[' :: (newLine (n + 1) ++ chars (n + 1) v ++ moreItems n l)
  | .obj [] => ['{', '}']
  | .obj (f :: l) => '{' :: (newLine (n + 1) ++ fieldChars (n + 1) f ++ moreFields n l)

/-- The other elements of a list at a depth of `n`, and its end. -/
def moreItems (n : Nat) : List Value → List Char
  | [] => newLine n ++ [']']
  | v :: l => ',' :: (newLine (n + 1) ++ chars (n + 1) v ++ moreItems n l)

/-- The other fields of an object at a depth of `n`, and its end. -/
def moreFields (n : Nat) : List (String × Value) → List Char
  | [] => newLine n ++ ['}']
  | f :: l => ',' :: (newLine (n + 1) ++ fieldChars (n + 1) f ++ moreFields n l)

/-- A field of an object at a depth of `n`. -/
def fieldChars (n : Nat) : String × Value → List Char
  | (k, v) => jsonString k ++ [':', ' '] ++ chars n v
end

/-- `serde_json::to_string_pretty` (external; used in `dtnd/httpd.rs:256,266,274,293,300,305,310`). -/
def pretty (v : Value) : String := .ofList (chars 0 v)

end Dtn.JsonText
