import Verif.Model.EclaFrames
/-! Specification of external convergence layer framing and of base64 (RFC 4648). -/

namespace Dtn.Spec.EclaFrames
open Dtn.EclaFrames

/-- A packet the other side accepts: at most 8 MiB. -/
def Fits (p : Bytes) : Prop := p.length ≤ 8388608

/-- The stream of bytes that carries the packets. -/
def stream (ps : List Bytes) : Bytes := (ps.map frame).flatten

/-- The 64 characters of RFC 4648, table 1, in order. -/
def alphabet : List Char :=
  ['A', 'B', 'C', 'D', 'E', 'F', 'G', 'H', 'I', 'J', 'K', 'L', 'M', 'N', 'O', 'P', 'Q', 'R', 'S', 'T', 'U', 'V', 'W',
   'X', 'Y', 'Z', 'a', 'b', 'c', 'd', 'e', 'f', 'g', 'h', 'i', 'j', 'k', 'l', 'm', 'n', 'o', 'p', 'q', 'r', 's', 't',
   'u', 'v', 'w', 'x', 'y', 'z', '0', '1', '2', '3', '4', '5', '6', '7', '8', '9', '+', '/']

/-- The character stands for the value. -/
def Stands (c : Char) (n : Nat) : Prop := alphabet[n]? = some c

/-- RFC 4648, section 4: text encodes bytes. Three bytes are a number of 24 bits, written as four digits of six bits;
a rest of one or two bytes is filled with zero bits and the missing digits are written as `=`. -/
inductive Encodes : Bytes → List Char → Prop
  | nil : Encodes [] []
  | three {x y z : UInt8} {r t a b c d u v w k} : Stands a u → Stands b v → Stands c w → Stands d k →
      x.toNat * 65536 + y.toNat * 256 + z.toNat = u * 262144 + v * 4096 + w * 64 + k → Encodes r t →
      Encodes (x :: y :: z :: r) (a :: b :: c :: d :: t)
  | one {x : UInt8} {a b u v} : Stands a u → Stands b v → x.toNat * 16 = u * 64 + v → Encodes [x] [a, b, '=', '=']
  | two {x y : UInt8} {a b c u v w} : Stands a u → Stands b v → Stands c w →
      (x.toNat * 256 + y.toNat) * 4 = u * 4096 + v * 64 + w → Encodes [x, y] [a, b, c, '=']

end Dtn.Spec.EclaFrames
