import Verif.Model.Serde
/-! The grammar of JSON, RFC 8259. -/

namespace Dtn.Spec.Rfc8259
open Serde (Value)

/-- Section 2: white space. -/
def Space (cs : List Char) : Prop := ∀ c ∈ cs, c = ' ' ∨ c = '\t' ∨ c = '\n' ∨ c = '\r'

/-- A hexadecimal digit, in upper or lower case. -/
def Hex (n : Nat) (c : Char) : Prop := "0123456789abcdef".toList[n]? = some c ∨ "0123456789ABCDEF".toList[n]? = some c

/-- Four hexadecimal digits. -/
def Hex4 (n : Nat) (cs : List Char) : Prop :=
  ∃ a b c d w x y z, cs = [w, x, y, z] ∧ Hex a w ∧ Hex b x ∧ Hex c y ∧ Hex d z ∧ n = ((a * 16 + b) * 16 + c) * 16 + d

/-- Section 7: the ways of writing a character in a string. -/
inductive Written : Char → List Char → Prop where
  | plain {c : Char} : c ≠ '"' → c ≠ '\\' → 32 ≤ c.toNat → Written c [c]
  | quote : Written '"' ['\\', '"']
  | backslash : Written '\\' ['\\', '\\']
  | slash : Written '/' ['\\', '/']
  | backspace : Written (Char.ofNat 8) ['\\', 'b']
  | formFeed : Written (Char.ofNat 12) ['\\', 'f']
  | lineFeed : Written (Char.ofNat 10) ['\\', 'n']
  | carriageReturn : Written (Char.ofNat 13) ['\\', 'r']
  | tab : Written (Char.ofNat 9) ['\\', 't']
  | unicode {c : Char} {ds : List Char} : c.toNat < 0x10000 → Hex4 c.toNat ds → Written c ('\\' :: 'u' :: ds)
  | pair {c : Char} {hi lo : List Char} : 0x10000 ≤ c.toNat → Hex4 (0xd800 + (c.toNat - 0x10000) / 1024) hi →
      Hex4 (0xdc00 + (c.toNat - 0x10000) % 1024) lo → Written c ('\\' :: 'u' :: hi ++ '\\' :: 'u' :: lo)

/-- The characters of a string. -/
inductive Chars : List Char → List Char → Prop where
  | nil : Chars [] []
  | cons {c : Char} {s w cs : List Char} : Written c w → Chars s cs → Chars (c :: s) (w ++ cs)

/-- Section 7: a string. -/
def Str (s : String) (cs : List Char) : Prop := ∃ body, Chars s.toList body ∧ cs = '"' :: body ++ ['"']

/-- The number that digits stand for. -/
def decimal (cs : List Char) : Nat := cs.foldl (fun n c => 10 * n + (c.toNat - '0'.toNat)) 0

/-- Section 6: a number without sign, fraction and exponent, of at most 64 bits. -/
def Num (n : Nat) (cs : List Char) : Prop :=
  cs ≠ [] ∧ (∀ c ∈ cs, '0' ≤ c ∧ c ≤ '9') ∧ (cs.head? = some '0' → cs = ['0']) ∧ n = decimal cs ∧ n < 2 ^ 64

/-- Digits. -/
def Digits (cs : List Char) : Prop := cs ≠ [] ∧ ∀ c ∈ cs, '0' ≤ c ∧ c ≤ '9'

/-- Section 6: the integer of a number, without leading zeros. -/
def Int (cs : List Char) : Prop := Digits cs ∧ (cs.head? = some '0' → cs = ['0'])

/-- Section 6: the fraction, if there is one. -/
def Frac (cs : List Char) : Prop := cs = [] ∨ ∃ ds, Digits ds ∧ cs = '.' :: ds

/-- Section 6: the exponent, if there is one. -/
def Exp (cs : List Char) : Prop :=
  cs = [] ∨ ∃ e s ds, (e = 'e' ∨ e = 'E') ∧ (s = [] ∨ s = ['+'] ∨ s = ['-']) ∧ Digits ds ∧ cs = e :: (s ++ ds)

/-- Section 6: any number. -/
def Number (cs : List Char) : Prop := ∃ m i f x, (m = [] ∨ m = ['-']) ∧ Int i ∧ Frac f ∧ Exp x ∧ cs = m ++ (i ++ (f ++ x))

/-- A part of a JSON text: a value, the elements of a list, or the fields of an object. -/
inductive Part where
  | value (v : Value)
  | items (l : List Value)
  | fields (l : List (String × Value))

/-- Sections 3 to 5: the text is such a part, with lists and objects in at most `n` levels. -/
inductive Gram : Nat → Part → List Char → Prop where
  | null {n} : Gram n (.value .null) "null".toList
  | true {n} : Gram n (.value (.bool true)) "true".toList
  | false {n} : Gram n (.value (.bool false)) "false".toList
  | num {n k cs} : Num k cs → Gram n (.value (.num k)) cs
  | other {n cs} : Number cs → (∀ k, ¬ Num k cs) → Gram n (.value (.other cs)) cs
  | str {n s cs} : Str s cs → Gram n (.value (.str s)) cs
  | noItems {n a} : Space a → Gram (n + 1) (.value (.list [])) ('[' :: a ++ [']'])
  | list {n l cs} : Gram n (.items l) cs → Gram (n + 1) (.value (.list l)) ('[' :: cs ++ [']'])
  | noFields {n a} : Space a → Gram (n + 1) (.value (.obj [])) ('{' :: a ++ ['}'])
  | obj {n l cs} : Gram n (.fields l) cs → Gram (n + 1) (.value (.obj l)) ('{' :: cs ++ ['}'])
  | item {n v a cs b} : Space a → Gram n (.value v) cs → Space b → Gram n (.items [v]) (a ++ cs ++ b)
  | items {n v l a cs b ds} : Space a → Gram n (.value v) cs → Space b → Gram n (.items l) ds →
      Gram n (.items (v :: l)) (a ++ cs ++ b ++ ',' :: ds)
  | field {n k v a ks b c cs d} : Space a → Str k ks → Space b → Space c → Gram n (.value v) cs → Space d →
      Gram n (.fields [(k, v)]) (a ++ ks ++ b ++ ':' :: c ++ cs ++ d)
  | fields {n k v l a ks b c cs d ds} : Space a → Str k ks → Space b → Space c → Gram n (.value v) cs → Space d →
      Gram n (.fields l) ds → Gram n (.fields ((k, v) :: l)) (a ++ ks ++ b ++ ':' :: c ++ cs ++ d ++ ',' :: ds)

/-- Section 2: the text of a value, with lists and objects in at most `n` levels. -/
def Text (n : Nat) (v : Value) (cs : List Char) : Prop :=
  ∃ a m b, Space a ∧ Gram n (.value v) m ∧ Space b ∧ cs = a ++ m ++ b

/-- A number in a value that is not a natural number of at most 64 bits, as it is written. -/
inductive Other : Value → List Char → Prop where
  | here {t} : Other (.other t) t
  | item {v l t} : v ∈ l → Other v t → Other (.list l) t
  | field {k v l t} : (k, v) ∈ l → Other v t → Other (.obj l) t

end Dtn.Spec.Rfc8259
