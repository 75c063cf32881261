import Verif.Model.PeerUrl
/-! Specification of peer URLs: how a URL is written down. -/

namespace Dtn.Spec.PeerUrlSpec

/-- Letters, digits, minus, dot, underscore and tilde. -/
def Plain (s : List Char) : Prop :=
  ∀ c ∈ s, ('a' ≤ c ∧ c ≤ 'z') ∨ ('A' ≤ c ∧ c ≤ 'Z') ∨ ('0' ≤ c ∧ c ≤ '9') ∨ c = '-' ∨ c = '.' ∨ c = '_' ∨ c = '~'

/-- Lower case letters and what else is plain. -/
def Lower (s : List Char) : Prop := ∀ c ∈ s, ¬ ('A' ≤ c ∧ c ≤ 'Z')

/-- The text `:port`, or nothing. -/
def portPart : Option Nat → List Char
  | none => []
  | some p => ':' :: (toString p).toList

/-- The URL of a peer: `scheme://host:port` and a path. -/
def url (scheme host : List Char) (port : Option Nat) (path : List Char) : List Char :=
  scheme ++ "://".toList ++ host ++ portPart port ++ path

/-- The convergence layers of this version. -/
def layers : List (List Char) :=
  ["dummy".toList, "external".toList, "http".toList, "httppull".toList, "mtcp".toList, "tcp".toList, "udp".toList]

/-- The printed form of an IPv4 address. -/
def ip4 (a b c d : UInt8) : List Char :=
  (toString a.toNat).toList ++ '.' :: (toString b.toNat).toList ++ '.' :: (toString c.toNat).toList ++ '.' :: (toString d.toNat).toList

/-- The address meant by a host. A host that is no IPv4 address has a character that is neither digit nor dot. (For `http` the
standard rewrites some hosts; lower case letters and dots stay.) -/
inductive Meant (scheme : List Char) : List Char → PeerAddress → Prop where
  | ip (a b c d : UInt8) : Meant scheme (ip4 a b c d) (.ipv4 (String.ofList (ip4 a b c d)))
  | name (host : List Char) : Plain host → (∃ c ∈ host, c ≠ '.' ∧ ¬ ('0' ≤ c ∧ c ≤ '9')) →
      (scheme = "http".toList → ∀ c ∈ host, ('a' ≤ c ∧ c ≤ 'z') ∨ c = '.') → Meant scheme host (.generic (String.ofList host))

/-- The node meant by the last part of a peer URL. (The segment `..` has a meaning of its own in URLs.) -/
inductive MeantNode : List Char → EID → Prop where
  | name (n : List Char) : Plain n → (∃ c ∈ n, c ≠ '.' ∧ ¬ ('0' ≤ c ∧ c ≤ '9')) → MeantNode n (.dtn (String.ofList n) "")
  | number (n : Nat) : n < 2 ^ 64 → MeantNode (toString n).toList (.ipn n 0)

/-- A parser of endpoint ids that reads node names made of plain characters, and node numbers below 2^64, as such. -/
structure ReadsNodes (parseEid : String → Option EID) : Prop where
  name : ∀ n : List Char, n ≠ [] → Plain n → parseEid (String.ofList ("dtn://".toList ++ n ++ "/".toList)) = some (.dtn (String.ofList n) "")
  number : ∀ n : Nat, n < 2 ^ 64 → parseEid (String.ofList ("ipn:".toList ++ (toString n).toList ++ ".0".toList)) = some (.ipn n 0)

end Dtn.Spec.PeerUrlSpec
