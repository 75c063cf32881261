import Verif.Model.JsonText
/-! JSON as `serde_json` (external) writes it without line breaks, and as it reads it. -/

namespace Dtn.Serde
open JsonText (jsonString)

/-- A JSON value (`serde::__private::de::Content` for the values of a JSON text). Simplification: negative numbers, numbers with a fraction
or an exponent and numbers of 2^64 and more, which are `i64` and `f64` there, are kept as they are written. -/
inductive Value where
  | null
  | bool (b : Bool)
  | num (n : Nat)
  | other (literal : List Char)
  | str (s : String)
  | list (l : List Value)
  | obj (l : List (String × Value))

mutual
/-- `serde_json::to_string` and `to_vec` (external; used in `cla/ecla/ws.rs:123`, `cla/ecla/ws_client.rs:111`, `cla/ecla/tcp.rs:118`). -/
def chars : Value → List Char
  | .null => "null".toList
  | .bool true => "true".toList
  | .bool false => "false".toList
  | .num k => (toString k).toList
  | .other t => t
  | .str s => jsonString s
  | .list [] => ['[', ']']
  | .list (v :: l) => '[' :: (chars v ++ moreItems l)
  | .obj [] => ['{', '}']
  | .obj (f :: l) => '{' :: (fieldChars f ++ moreFields l)

/-- The other elements of a list, and its end. -/
def moreItems : List Value → List Char
  | [] => [']']
  | v :: l => ',' :: (chars v ++ moreItems l)

/-- The other fields of an object, and its end. -/
def moreFields : List (String × Value) → List Char
  | [] => ['}']
  | f :: l => ',' :: (fieldChars f ++ moreFields l)

/-- A field of an object. -/
def fieldChars : String × Value → List Char
  | (k, v) => jsonString k ++ [':'] ++ chars v
end

/-! ### Reading

`serde_json::from_str` and `from_slice` (external; used in `cla/ecla/ws.rs:66`, `cla/ecla/ws_client.rs:134` and, through `tokio_serde`, in
`cla/ecla/tcp.rs:47-51`), as a machine that takes one character after the other. -/

/-- What encloses the value being read. -/
inductive Frame where
  | list (got : List Value)
  | obj (got : List (String × Value)) (key : String)

/-- What a string is: a value, or the name of a field behind the given ones. -/
inductive Role where
  | item
  | key (got : List (String × Value))

/-- Parts of a number: its start, and behind a minus, a leading zero, a digit of the integer, the point, a digit of the fraction, the `e`, its sign
and a digit of the exponent. -/
inductive Phase where
  | start | minus | zero | int | point | frac | e | sign | exp

/-- Where the reader is. `up` is what encloses this place, from the inside. -/
inductive State where
  /-- before a value -/
  | value (up : List Frame)
  /-- behind an opening bracket -/
  | bracket (up : List Frame)
  /-- behind an opening brace -/
  | brace (up : List Frame)
  /-- inside a string of which `cur` was read -/
  | text (up : List Frame) (r : Role) (cur : List Char)
  /-- behind a backslash -/
  | escape (up : List Frame) (r : Role) (cur : List Char)
  /-- inside four hexadecimal digits; `high` is a leading surrogate in front of them -/
  | digits (up : List Frame) (r : Role) (cur : List Char) (high : Option Nat) (left value : Nat)
  /-- behind a leading surrogate; a backslash and a `u` must follow -/
  | surrogate (up : List Frame) (r : Role) (cur : List Char) (high : Nat) (slash : Bool)
  /-- inside a number -/
  | number (up : List Frame) (literal : List Char) (phase : Phase)
  /-- inside `null`, `true` or `false`, with these letters to come -/
  | word (up : List Frame) (left : List Char) (v : Value)
  /-- behind the name of a field -/
  | name (up : List Frame) (got : List (String × Value)) (key : String)
  /-- behind an element of a list -/
  | behindItem (up : List Frame) (got : List Value)
  /-- behind a field of an object -/
  | behindField (up : List Frame) (got : List (String × Value))
  /-- behind a comma in an object -/
  | comma (up : List Frame) (got : List (String × Value))
  /-- behind the whole text -/
  | finished (v : Value)

/-- White space. -/
def isSpace (c : Char) : Bool := c = ' ' || c = '\t' || c = '\n' || c = '\r'

/-- The value of a hexadecimal digit. -/
def hexDigit (c : Char) : Option Nat :=
  if '0' ≤ c ∧ c ≤ '9' then some (c.toNat - 48)
  else if 'a' ≤ c ∧ c ≤ 'f' then some (c.toNat - 87)
  else if 'A' ≤ c ∧ c ≤ 'F' then some (c.toNat - 55)
  else none

/-- A decimal digit. -/
def isDigit (c : Char) : Bool := '0' ≤ c ∧ c ≤ '9'

/-- How a number goes on with a character; `none`: it does not. -/
def next : Phase → Char → Option Phase
  | .start, c => if c = '-' then some .minus else if c = '0' then some .zero else if isDigit c then some .int else none
  | .minus, c => if c = '0' then some .zero else if isDigit c then some .int else none
  | .zero, c => if c = '.' then some .point else if c = 'e' ∨ c = 'E' then some .e else none
  | .int, c => if isDigit c then some .int else if c = '.' then some .point else if c = 'e' ∨ c = 'E' then some .e else none
  | .point, c => if isDigit c then some .frac else none
  | .frac, c => if isDigit c then some .frac else if c = 'e' ∨ c = 'E' then some .e else none
  | .e, c => if c = '+' ∨ c = '-' then some .sign else if isDigit c then some .exp else none
  | .sign, c => if isDigit c then some .exp else none
  | .exp, c => if isDigit c then some .exp else none

/-- A number may end here. -/
def complete : Phase → Bool
  | .zero | .int | .frac | .exp => true
  | _ => false

/-- The value of a number. -/
def numValue (literal : List Char) : Value :=
  let n := literal.foldl (fun n c => 10 * n + (c.toNat - 48)) 0
  if literal.all isDigit ∧ n < 2 ^ 64 then .num n else .other literal

/-- The reader has read a value. -/
def finish : List Frame → Value → State
  | [], v => .finished v
  | .list got :: up, v => .behindItem up (got ++ [v])
  | .obj got key :: up, v => .behindField up (got ++ [(key, v)])

/-- The reader has read a string. -/
def finishText (up : List Frame) (r : Role) (s : String) : State :=
  match r with
  | .item => finish up (.str s)
  | .key got => .name up got s

/-- A list or an object is opened: `serde_json` refuses the 128th level. -/
def opened (up : List Frame) (st : State) : Option State := if up.length < 127 then some st else none

/-- One character is read at the start of a value. -/
def readValue (up : List Frame) (c : Char) : Option State :=
  if isSpace c then some (.value up)
  else if c = '[' then opened up (.bracket up)
  else if c = '{' then opened up (.brace up)
  else if c = '"' then some (.text up .item [])
  else if c = 'n' then some (.word up ['u', 'l', 'l'] .null)
  else if c = 't' then some (.word up ['r', 'u', 'e'] (.bool true))
  else if c = 'f' then some (.word up ['a', 'l', 's', 'e'] (.bool false))
  else (next .start c).map (.number up [c])

/-- One character is read behind a value. -/
def readBehind : State → Char → Option State
  | .behindItem up got, c =>
    if isSpace c then some (.behindItem up got)
    else if c = ',' then some (.value (.list got :: up))
    else if c = ']' then some (finish up (.list got))
    else none
  | .behindField up got, c =>
    if isSpace c then some (.behindField up got)
    else if c = ',' then some (.comma up got)
    else if c = '}' then some (finish up (.obj got))
    else none
  | .finished v, c => if isSpace c then some (.finished v) else none
  | _, _ => none

/-- The last of four hexadecimal digits was read. A lone surrogate is an error. -/
def codeUnit (up : List Frame) (r : Role) (cur : List Char) (high : Option Nat) (n : Nat) : Option State :=
  match high with
  | none =>
    if 0xd800 ≤ n ∧ n < 0xdc00 then some (.surrogate up r cur n false)
    else if 0xdc00 ≤ n ∧ n < 0xe000 then none
    else some (.text up r (cur ++ [Char.ofNat n]))
  | some h =>
    if 0xdc00 ≤ n ∧ n < 0xe000 then some (.text up r (cur ++ [Char.ofNat (0x10000 + (h - 0xd800) * 1024 + (n - 0xdc00))]))
    else none

/-- One character is read; `none`: it is not allowed here. -/
def read : State → Char → Option State
  | .value up, c => readValue up c
  | .bracket up, c =>
    if isSpace c then some (.bracket up)
    else if c = ']' then some (finish up (.list []))
    else readValue (.list [] :: up) c
  | .brace up, c =>
    if isSpace c then some (.brace up)
    else if c = '}' then some (finish up (.obj []))
    else if c = '"' then some (.text up (.key []) [])
    else none
  | .text up r cur, c =>
    if c = '"' then some (finishText up r (.ofList cur))
    else if c = '\\' then some (.escape up r cur)
    else if c.toNat < 32 then none
    else some (.text up r (cur ++ [c]))
  | .escape up r cur, c =>
    if c = '"' ∨ c = '\\' ∨ c = '/' then some (.text up r (cur ++ [c]))
    else if c = 'b' then some (.text up r (cur ++ [Char.ofNat 8]))
    else if c = 'f' then some (.text up r (cur ++ [Char.ofNat 12]))
    else if c = 'n' then some (.text up r (cur ++ [Char.ofNat 10]))
    else if c = 'r' then some (.text up r (cur ++ [Char.ofNat 13]))
    else if c = 't' then some (.text up r (cur ++ [Char.ofNat 9]))
    else if c = 'u' then some (.digits up r cur none 4 0)
    else none
  | .digits up r cur high left value, c =>
    match hexDigit c with
    | none => none
    | some d =>
      if left = 1 then codeUnit up r cur high (16 * value + d)
      else some (.digits up r cur high (left - 1) (16 * value + d))
  | .surrogate up r cur high false, c => if c = '\\' then some (.surrogate up r cur high true) else none
  | .surrogate up r cur high true, c => if c = 'u' then some (.digits up r cur (some high) 4 0) else none
  | .number up t ph, c =>
    match next ph c with
    | some ph => some (.number up (t ++ [c]) ph)
    | none => if complete ph then readBehind (finish up (numValue t)) c else none
  | .word up left v, c =>
    match left with
    | [] => none
    | d :: left => if c = d then (if left = [] then some (finish up v) else some (.word up left v)) else none
  | .name up got key, c => if isSpace c then some (.name up got key) else if c = ':' then some (.value (.obj got key :: up)) else none
  | .comma up got, c => if isSpace c then some (.comma up got) else if c = '"' then some (.text up (.key got) []) else none
  | .behindItem up got, c => readBehind (.behindItem up got) c
  | .behindField up got, c => readBehind (.behindField up got) c
  | .finished v, c => readBehind (.finished v) c

/-- What was read when the text ends here. -/
def result : State → Option Value
  | .finished v => some v
  | .number [] t ph => if complete ph then some (numValue t) else none
  | _ => none

mutual
/-- The numbers in a value that are kept as they are written. -/
def others : Value → List (List Char)
  | .other t => [t]
  | .list l => othersOfItems l
  | .obj l => othersOfFields l
  | _ => []

/-- In a list. -/
def othersOfItems : List Value → List (List Char)
  | [] => []
  | v :: l => others v ++ othersOfItems l

/-- In an object. -/
def othersOfFields : List (String × Value) → List (List Char)
  | [] => []
  | (_, v) :: l => others v ++ othersOfFields l
end

/-- The value of a text. `finite` says which numbers are in the range of `f64` (external): all other numbers are errors. -/
def parse (finite : List Char → Bool) (cs : List Char) : Option Value :=
  ((cs.foldlM read (.value [])).bind result).filter fun v => (others v).all finite

end Dtn.Serde
