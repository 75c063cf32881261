import Verif.Model.Bundle
/-! Specification vocabulary for MTCP framing. -/

namespace Dtn.Spec

/-- What every serialised bundle looks like as far as the framing is concerned: an indefinite-length
CBOR array, so it ends in the break code `0xff`; it has at least nine bytes (the primary block alone is
longer) and its length fits into the 64-bit header together with the header. -/
def BundleBytes (d : Bytes) : Prop :=
  9 ≤ d.length ∧ d.getLast? = some 0xff ∧ d.length < 2 ^ 64 - 9

/-- RFC 8949: big-endian value of a byte list. -/
def beValue (bs : Bytes) : Nat := bs.foldl (fun a b => 256 * a + b.toNat) 0

/-- RFC 8949, 3.1: `hdr` is the head of a definite-length byte string of `n` bytes: major type 2 in the top
three bits, and the length either in the low five bits (below 24) or, for 24..27, in the following
1, 2, 4 or 8 bytes. -/
def IsByteStringHead (hdr : Bytes) (n : Nat) : Prop :=
  ∃ (b : UInt8) (ext : Bytes), hdr = b :: ext ∧ b.toNat / 32 = 2 ∧
    ((b.toNat % 32 < 24 ∧ ext = [] ∧ n = b.toNat % 32) ∨
     (b.toNat % 32 = 24 ∧ ext.length = 1 ∧ n = beValue ext) ∨
     (b.toNat % 32 = 25 ∧ ext.length = 2 ∧ n = beValue ext) ∨
     (b.toNat % 32 = 26 ∧ ext.length = 4 ∧ n = beValue ext) ∨
     (b.toNat % 32 = 27 ∧ ext.length = 8 ∧ n = beValue ext))

end Dtn.Spec
