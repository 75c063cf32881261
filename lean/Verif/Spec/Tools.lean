import Verif.Model.Tools
import Verif.Spec.Agents
import Verif.Spec.Httpd
/-! Specification vocabulary for the command line tools. -/

namespace Dtn.Spec
open Dtn.Tools

/-- Text that means the same inside a URL: visible ASCII characters except `"`, `#`, `<`, `>` and `'`. -/
def PlainText (s : String) : Prop :=
  ∀ c ∈ s.toList, 0x21 ≤ c.toNat ∧ c.toNat ≤ 0x7e ∧ c ∉ ['"', '#', '<', '>', '\'']

/-- The payload of a bundle: the data in its first payload block. -/
def HasPayload (b : Bundle) (d : Bytes) : Prop :=
  ∃ pre c post, b.canonicals = pre ++ c :: post ∧ (∀ x ∈ pre, x.btype ≠ PAYLOAD_BLOCK) ∧ c.btype = PAYLOAD_BLOCK ∧
    c.data = .data d

/-- The bundle is nowhere any more: no endpoint has it waiting and the store does not have it. -/
def Gone (b : Bundle) (w : Httpd.World) : Prop :=
  (∀ e, b ∉ waiting e w.apps) ∧ w.apps.store.getBundle b.id = none

/-- The white space of Unicode (the property White_Space). -/
def WhiteSpace (c : Char) : Prop :=
  c.toNat ∈ [0x9, 0xa, 0xb, 0xc, 0xd, 0x20, 0x85, 0xa0, 0x1680, 0x2000, 0x2001, 0x2002, 0x2003, 0x2004, 0x2005, 0x2006, 0x2007, 0x2008,
    0x2009, 0x200a, 0x2028, 0x2029, 0x202f, 0x205f, 0x3000]

/-- The words of a command: nonempty, without white space, and the text is these words with white space between and around
them. -/
inductive Words : List Char → List (List Char) → Prop where
  | nil : Words [] []
  | space {c cs ws} : WhiteSpace c → Words cs ws → Words (c :: cs) ws
  | last {w} : w ≠ [] → (∀ c ∈ w, ¬WhiteSpace c) → Words w [w]
  | word {w c cs ws} : w ≠ [] → (∀ c ∈ w, ¬WhiteSpace c) → WhiteSpace c → Words cs ws → Words (w ++ c :: cs) (w :: ws)

/-- A message with a bundle for applications that carries data. -/
def BringsData (x : Httpd.Ext) (i : Incoming) (b : Bundle) (d : Bytes) : Prop :=
  ∃ bytes, i.msg = .binary bytes ∧ x.parseBundle bytes = some b ∧ b.primary.flags.admin = false ∧ HasPayload b d

/-- The command that belongs to a message. -/
def BelongsTo (x : Httpd.Ext) (command : List String) (i : Incoming) (r : Ran) : Prop :=
  ∃ b d f, BringsData x i b d ∧ i.temp = some f ∧ r = ⟨command ++ [b.primary.source.print, f], d⟩

/-- Commands and messages match up one to one, in order; messages without data for applications have no command. -/
inductive OnePerBundle (x : Httpd.Ext) (command : List String) : List Incoming → List Ran → Prop where
  | nil : OnePerBundle x command [] []
  | run {i is r rs} : BelongsTo x command i r → OnePerBundle x command is rs → OnePerBundle x command (i :: is) (r :: rs)
  | skip {i is rs} : (∀ b d, ¬ BringsData x i b d) → OnePerBundle x command is rs → OnePerBundle x command (i :: is) rs

/-- A message that does not end the tool: no text, no end of the connection, and if it is a bundle it can be read, has a payload
unless it is an administrative record, and its command can be started. -/
def Ordinary (x : Httpd.Ext) (i : Incoming) : Prop :=
  i.msg = .ping ∨ i.msg = .pong ∨ i.msg = .frame ∨
  ∃ bytes b, i.msg = .binary bytes ∧ x.parseBundle bytes = some b ∧
    (b.primary.flags.admin = true ∨ ((∃ d, HasPayload b d) ∧ (∃ f, i.temp = some f) ∧ i.spawn = true))

end Dtn.Spec
