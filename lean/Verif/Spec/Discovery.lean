import Verif.Model.Discovery
import Verif.Spec.White
/-! Specification of beacons, services and the reaction to beacons. -/

namespace Dtn.Spec.Discovery
open Dtn.Discovery Cbor

/-- A size that fits into memory. -/
def Sized (n : Nat) : Prop := n < 2 ^ 64

/-- An endpoint that has a text form: node names contain no slash. -/
def GoodEid : EID → Prop
  | .none => True
  | .dtn n s => '/' ∉ n.toList ∧ Sized (utf8 (String.ofList ('/' :: '/' :: n.toList ++ '/' :: s.toList))).length
  | .ipn n s => n < 2 ^ 64 ∧ s < 2 ^ 64

/-- The values fit the types of the fields: `u8`, `u16`, `u32`, `u64`, and a map has one value per key. -/
structure Typed (b : Beacon) : Prop where
  version : b.version < 2 ^ 8
  flags : b.flags < 2 ^ 8
  eid : GoodEid b.eid
  bsn : b.bsn < 2 ^ 32
  clas : Sized b.block.clas.length ∧ ∀ c ∈ b.block.clas, Sized (utf8 c.1).length ∧ ∀ p, c.2 = some p → p < 2 ^ 16
  services : Sized b.block.services.length ∧ (b.block.services.map (·.1)).Nodup ∧
    ∀ s ∈ b.block.services, s.1 < 2 ^ 8 ∧ Sized s.2.length
  period : ∀ ms, b.period = some ms → ms / 1000 < 2 ^ 64

/-- Beacons built through the interface: `new`, `with_config` and the functions that add to them. -/
inductive Built (parseF32 : List Char → Option F32) : Beacon → Prop
  | new (eid : EID) : Built parseF32 (.new eid)
  | withConfig (eid : EID) (block : ServiceBlock) (period : Option Nat) : Built parseF32 (.withConfig eid block period)
  | setBsn {b} (n : Nat) : Built parseF32 b → Built parseF32 (b.setBsn n)
  | addCla {b} (name : String) (port : Option Nat) : Built parseF32 b → Built parseF32 (b.addCla name port)
  | addService {b c} (tag : Nat) (s : String) : Built parseF32 b → b.addService parseF32 tag s = some c → Built parseF32 c

/-- The flags state which parts are present: bit 0 the sender, bit 1 the service block, bit 2 the period. -/
def FlagsTell (b : Beacon) : Prop :=
  b.flags < 8 ∧ b.flags % 2 = 1 ∧
  (b.flags / 2 % 2 = 1 ↔ b.block.clas ≠ [] ∨ b.block.services ≠ []) ∧
  (b.flags / 4 % 2 = 1 ↔ b.period ≠ none)

/-- The same beacon; services are a map, so their order does not matter. -/
structure Same (b c : Beacon) : Prop where
  version : c.version = b.version
  flags : c.flags = b.flags
  eid : c.eid = b.eid
  bsn : c.bsn = b.bsn
  clas : c.block.clas = b.block.clas
  services : ∀ tag, AList.get? c.block.services tag = AList.get? b.block.services tag
  period : c.period = b.period

/-- White space of Unicode. -/
def Space (c : Char) : Prop := White c

/-- The words of a text: its parts without white space, as long as possible, in their order. -/
inductive Splits : List Char → List (List Char) → Prop
  | nil {sp : List Char} : (∀ c ∈ sp, Space c) → Splits sp []
  | word {sp w rest : List Char} {ws : List (List Char)} : (∀ c ∈ sp, Space c) → w ≠ [] → (∀ c ∈ w, ¬Space c) →
      (rest = [] ∨ ∃ c cs, rest = c :: cs ∧ Space c) → Splits rest ws → Splits (sp ++ w ++ rest) (w :: ws)

/-- The number written by decimal digits. -/
def decimal (ds : List Char) : Nat := ds.foldl (fun n c => 10 * n + (c.toNat - '0'.toNat)) 0

/-- The text is the number `i` in decimal notation, with a sign or without. -/
def IsNumber (s : List Char) (i : Int) : Prop :=
  ∃ sign ds, s = sign ++ ds ∧ ds ≠ [] ∧ (∀ c ∈ ds, '0' ≤ c ∧ c ≤ '9') ∧
    (((sign = [] ∨ sign = ['+']) ∧ i = decimal ds) ∨ (sign = ['-'] ∧ i = -(decimal ds : Int)))

/-- The payload limits documented for each tag (`bin/dtnd.rs`, help of `--service`, and the messages of
`build_custom_service`): any text of at most 64 bytes, two floats, an integer from 0 to 100, five words. The value
meant is the service. -/
inductive Allowed (parseF32 : List Char → Option F32) : Nat → String → Service → Prop
  | str {s : String} : (utf8 s).length ≤ 64 → Allowed parseF32 63 s (.str s)
  | geo {s : String} {a b rest x y} : Splits s.toList (a :: b :: rest) → parseF32 a = some x → parseF32 b = some y →
      Allowed parseF32 127 s (.geo x y)
  | battery {s : String} {i : Int} : IsNumber s.toList i → 0 ≤ i → i ≤ 100 → Allowed parseF32 191 s (.battery i)
  | address {s : String} {a b c d e : List Char} : Splits s.toList [a, b, c, d, e] →
      Allowed parseF32 255 s (.address s)

/-- What the payload of a tag stands for: a text in UTF-8, the bits of two floats, most significant byte first, a signed byte,
an address in UTF-8. What follows floats and bytes does not matter. -/
inductive Carries : Nat → Bytes → Service → Prop
  | str {s : String} : Carries 63 (utf8 s) (.str s)
  | geo {a b c d e f g h : UInt8} {rest : Bytes} {x y : F32} :
      x.toNat = a.toNat * 2 ^ 24 + b.toNat * 2 ^ 16 + c.toNat * 2 ^ 8 + d.toNat →
      y.toNat = e.toNat * 2 ^ 24 + f.toNat * 2 ^ 16 + g.toNat * 2 ^ 8 + h.toNat →
      Carries 127 (a :: b :: c :: d :: e :: f :: g :: h :: rest) (.geo x y)
  | battery {b : UInt8} {rest : Bytes} {i : Int} : -128 ≤ i → i ≤ 127 → i % 256 = b.toNat →
      Carries 191 (b :: rest) (.battery i)
  | address {s : String} : Carries 255 (utf8 s) (.address s)

/-- A payload that is meaningful for its tag; unknown tags are ignored. -/
def Readable (tag : Nat) (payload : Bytes) : Prop :=
  (tag = 63 ∨ tag = 255 → ∃ s, payload = utf8 s) ∧ (tag = 127 → 8 ≤ payload.length) ∧ (tag = 191 → payload ≠ [])

/-- The peer a beacon announces. -/
def announced (now : Nat) (src : PeerAddress) (b : Beacon) : Peer :=
  { eid := b.eid, addr := src, conType := .dynamic, period := b.period, claList := b.block.clas, lastContact := now,
    fails := 0 }

end Dtn.Spec.Discovery
