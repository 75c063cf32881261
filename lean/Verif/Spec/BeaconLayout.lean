import Verif.Model.Discovery
/-!
Beacons on the wire: CBOR (RFC 8949), written down without use of the functions of the model that write and read it.
-/

namespace Dtn.Spec.Beacons
open Dtn.Discovery

/-- The number written by bytes, most significant byte first. -/
def number : Bytes → Nat
  | [] => 0
  | b :: bs => b.toNat * 256 ^ bs.length + number bs

/-- RFC 8949, 3: the head of a data item, with its major type in the upper three bits and an argument that is in the
lower five bits or, for the values 24 to 27, in the 1, 2, 4 or 8 bytes that follow. -/
def Head (major n : Nat) (bs : Bytes) : Prop :=
  ∃ (b : UInt8) (ext : Bytes), bs = b :: ext ∧ b.toNat / 32 = major ∧
    ((b.toNat % 32 < 24 ∧ ext = [] ∧ n = b.toNat % 32) ∨
     (∃ i, i < 4 ∧ b.toNat % 32 = 24 + i ∧ ext.length = 2 ^ i ∧ n = number ext))

/-- An unsigned number: major type 0. -/
def Num (n : Nat) (bs : Bytes) : Prop := Head 0 n bs

/-- A text: major type 3, the number of bytes, the bytes in UTF-8. -/
def Text (s : String) (bs : Bytes) : Prop :=
  ∃ h, Head 3 s.toUTF8.data.toList.length h ∧ bs = h ++ s.toUTF8.data.toList

/-- The value `null`. -/
def Null (bs : Bytes) : Prop := bs = [0xf6]

/-- The items are such as described, one by one. -/
inductive Each : List (Bytes → Prop) → List Bytes → Prop where
  | nil : Each [] []
  | cons {P : Bytes → Prop} {Ps : List (Bytes → Prop)} {b : Bytes} {bs : List Bytes} :
      P b → Each Ps bs → Each (P :: Ps) (b :: bs)

/-- An array: major type 4, the number of items, the items. -/
def Arr (Ps : List (Bytes → Prop)) (bs : Bytes) : Prop :=
  ∃ h items, Head 4 Ps.length h ∧ Each Ps items ∧ bs = h ++ items.flatten

/-- A list: an array or, if they are allowed, an array of indefinite length (RFC 8949, 3.2.2), with a break at its end. -/
def Seq (indefinite : Bool) (Ps : List (Bytes → Prop)) (bs : Bytes) : Prop :=
  Arr Ps bs ∨ indefinite = true ∧ ∃ items, Each Ps items ∧ bs = 0x9f :: items.flatten ++ [0xff]

/-- Two items one after the other. -/
def Two (kv : (Bytes → Prop) × (Bytes → Prop)) (bs : Bytes) : Prop := ∃ k v, kv.1 k ∧ kv.2 v ∧ bs = k ++ v

/-- A map: major type 5, the number of pairs, the pairs; or, if they are allowed, a map of indefinite length. -/
def MapOf (indefinite : Bool) (Ps : List ((Bytes → Prop) × (Bytes → Prop))) (bs : Bytes) : Prop :=
  (∃ h items, Head 5 Ps.length h ∧ Each (Ps.map Two) items ∧ bs = h ++ items.flatten) ∨
  indefinite = true ∧ ∃ items, Each (Ps.map Two) items ∧ bs = 0xbf :: items.flatten ++ [0xff]

/-- RFC 9171, 4.2.5.1: endpoints. -/
def Eid : EID → Bytes → Prop
  | .none => Arr [Num 1, Num 0]
  | .dtn n s => Arr [Num 1, Text ("//" ++ n ++ "/" ++ s)]
  | .ipn n s => Arr [Num 2, Arr [Num n, Num s]]

/-- A convergence layer: its name and its port. -/
def Cla (c : String × Option Nat) : Bytes → Prop :=
  Arr [Text c.1, match c.2 with
    | some p => Num p
    | none => Null]

/-- The service block: the convergence layers, and the services by their tags. -/
def Block (indefinite : Bool) (b : ServiceBlock) : Bytes → Prop :=
  Arr [Seq indefinite (b.clas.map Cla), MapOf indefinite (b.services.map fun kv => (Num kv.1, Seq indefinite (kv.2.map fun x => Num x.toNat)))]

/-- A beacon: version, flags, sender, sequence number, the service block unless it is empty, the period in seconds if
there is one. Lists and maps in the service block may be of indefinite length if this is allowed. -/
def Wire (indefinite : Bool) (b : Beacon) : Bytes → Prop :=
  Arr ([Num b.version, Num b.flags, Eid b.eid, Num b.bsn] ++
    (if b.block.clas = [] ∧ b.block.services = [] then [] else [Block indefinite b.block]) ++
    (match b.period with
      | some ms => [Num (ms / 1000)]
      | none => []))

end Dtn.Spec.Beacons
