import Verif.Model.JsonText
/-! A reader of JSON (RFC 8259). -/

namespace Dtn.Spec.Json
open JsonText (Value)

/-- What encloses the value being read. -/
inductive Frame where
  /-- a list, of which these elements were read -/
  | list (got : List Value)
  /-- an object, of which these fields were read, and the name of the current field -/
  | obj (got : List (String × Value)) (key : String)

/-- What a string is: a value, or the name of a field behind the given ones. -/
inductive Role where
  | item
  | key (got : List (String × Value))

/-- Where the reader is. `up` is what encloses this place, from the inside. -/
inductive State where
  /-- before a value -/
  | value (up : List Frame)
  /-- behind an opening bracket -/
  | bracket (up : List Frame)
  /-- behind an opening brace -/
  | brace (up : List Frame)
  /-- inside a string of which `cur` was read -/
  | text (up : List Frame) (r : Role) (cur : List Char)
  /-- behind a backslash -/
  | escape (up : List Frame) (r : Role) (cur : List Char)
  /-- inside the four digits of a character; there are `left` more, and those read make up `value` -/
  | digits (up : List Frame) (r : Role) (cur : List Char) (left value : Nat)
  /-- inside a number -/
  | number (up : List Frame) (n : Nat)
  /-- inside `null`, with these letters to come -/
  | word (up : List Frame) (left : List Char)
  /-- behind the name of a field -/
  | name (up : List Frame) (got : List (String × Value)) (key : String)
  /-- behind an element of a list -/
  | behindItem (up : List Frame) (got : List Value)
  /-- behind a field of an object -/
  | behindField (up : List Frame) (got : List (String × Value))
  /-- behind a comma in an object -/
  | comma (up : List Frame) (got : List (String × Value))
  /-- behind the whole text -/
  | finished (v : Value)

/-- White space. -/
def isSpace (c : Char) : Bool := c = ' ' || c = '\t' || c = '\n' || c = '\r'

/-- The value of a hexadecimal digit. -/
def digit (c : Char) : Option Nat :=
  if '0' ≤ c ∧ c ≤ '9' then some (c.toNat - 48)
  else if 'a' ≤ c ∧ c ≤ 'f' then some (c.toNat - 87)
  else if 'A' ≤ c ∧ c ≤ 'F' then some (c.toNat - 55)
  else none

/-- The reader has read a value. -/
def finish : List Frame → Value → State
  | [], v => .finished v
  | .list got :: up, v => .behindItem up (got ++ [v])
  | .obj got key :: up, v => .behindField up (got ++ [(key, v)])

/-- The reader has read a string. -/
def finishText (up : List Frame) (r : Role) (s : String) : State :=
  match r with
  | .item => finish up (.str s)
  | .key got => .name up got s

/-- One character is read at the start of a value. -/
def readValue (up : List Frame) (c : Char) : Option State :=
  if isSpace c then some (.value up)
  else if c = '[' then some (.bracket up)
  else if c = '{' then some (.brace up)
  else if c = '"' then some (.text up .item [])
  else if c = 'n' then some (.word up ['u', 'l', 'l'])
  else if '0' ≤ c ∧ c ≤ '9' then some (.number up (c.toNat - 48))
  else none

/-- One character is read behind a value. -/
def readBehind : State → Char → Option State
  | .behindItem up got, c =>
    if isSpace c then some (.behindItem up got)
    else if c = ',' then some (.value (.list got :: up))
    else if c = ']' then some (finish up (.list got))
    else none
  | .behindField up got, c =>
    if isSpace c then some (.behindField up got)
    else if c = ',' then some (.comma up got)
    else if c = '}' then some (finish up (.obj got))
    else none
  | .finished v, c => if isSpace c then some (.finished v) else none
  | _, _ => none

/-- One character is read; `none`: it is not allowed here. Not understood are fractions, exponents, signs, `true`, `false` and
pairs of escaped surrogates; numbers may have leading zeros. -/
def read : State → Char → Option State
  | .value up, c => readValue up c
  | .bracket up, c =>
    if isSpace c then some (.bracket up)
    else if c = ']' then some (finish up (.list []))
    else readValue (.list [] :: up) c
  | .brace up, c =>
    if isSpace c then some (.brace up)
    else if c = '}' then some (finish up (.obj []))
    else if c = '"' then some (.text up (.key []) [])
    else none
  | .text up r cur, c =>
    if c = '"' then some (finishText up r (.ofList cur))
    else if c = '\\' then some (.escape up r cur)
    else if c.toNat < 32 then none
    else some (.text up r (cur ++ [c]))
  | .escape up r cur, c =>
    if c = '"' ∨ c = '\\' ∨ c = '/' then some (.text up r (cur ++ [c]))
    else if c = 'b' then some (.text up r (cur ++ [Char.ofNat 8]))
    else if c = 'f' then some (.text up r (cur ++ [Char.ofNat 12]))
    else if c = 'n' then some (.text up r (cur ++ [Char.ofNat 10]))
    else if c = 'r' then some (.text up r (cur ++ [Char.ofNat 13]))
    else if c = 't' then some (.text up r (cur ++ [Char.ofNat 9]))
    else if c = 'u' then some (.digits up r cur 4 0)
    else none
  | .digits up r cur left value, c =>
    match digit c with
    | none => none
    | some d =>
      if left = 1 then some (.text up r (cur ++ [Char.ofNat (16 * value + d)]))
      else some (.digits up r cur (left - 1) (16 * value + d))
  | .number up n, c =>
    if '0' ≤ c ∧ c ≤ '9' then some (.number up (10 * n + (c.toNat - 48)))
    else readBehind (finish up (.num n)) c
  | .word up left, c =>
    match left with
    | [] => none
    | d :: left => if c = d then (if left = [] then some (finish up .null) else some (.word up left)) else none
  | .name up got key, c => if isSpace c then some (.name up got key) else if c = ':' then some (.value (.obj got key :: up)) else none
  | .comma up got, c => if isSpace c then some (.comma up got) else if c = '"' then some (.text up (.key got) []) else none
  | .behindItem up got, c => readBehind (.behindItem up got) c
  | .behindField up got, c => readBehind (.behindField up got) c
  | .finished v, c => readBehind (.finished v) c

/-- What was read when the text ends here. -/
def result : State → Option Value
  | .finished v => some v
  | .number [] n => some (.num n)
  | _ => none

/-- The value that a text stands for. -/
def value (t : String) : Option Value :=
  match t.toList.foldlM read (.value []) with
  | some st => result st
  | none => none

/-- The string that a value is. -/
def asString : Value → Option String
  | .str s => some s
  | _ => none

/-- The strings in a text that is a JSON list of strings. -/
def strings (t : String) : Option (List String) :=
  match value t with
  | some (.list l) => l.mapM asString
  | _ => none

/-- The value of a field of an object. -/
def field (v : Value) (name : String) : Option Value :=
  match v with
  | .obj l => (l.find? fun f => f.1 == name).map (·.2)
  | _ => none

end Dtn.Spec.Json
