import Verif.Model.Announcer
import Verif.Spec.Discovery
/-! Specification of discovery destinations and announcements. -/

namespace Dtn.Spec.Announcer
open Dtn.Announcer Dtn.Discovery

variable {A : Type} [DecidableEq A]

/-- Known about `std::net`: a printed address parses to itself; how the two default destinations parse and print. -/
structure Std (net : Net A) : Prop where
  parse_print : ∀ a, net.parse (net.print a) = some a
  v4 : ∃ a, net.parse "224.0.0.26:3003" = some a ∧ net.isV4 a = true ∧ net.print a = "224.0.0.26:3003"
  v6 : ∃ a, net.parse "[FF02::1]:3003" = some a ∧ net.isV4 a = false ∧ net.print a = "[ff02::1]:3003"

/-- The address family is enabled. -/
def Enabled (net : Net A) (cfg : Config) (a : A) : Prop :=
  (net.isV4 a = true ∧ cfg.v4 = true) ∨ (net.isV4 a = false ∧ cfg.v6 = true)

/-- The address a destination string means: itself, or with the default port. -/
def Means (net : Net A) (s : String) (a : A) : Prop :=
  net.parse s = some a ∨ (net.parse s = none ∧ net.parse (s ++ ":3003") = some a)

/-- Every destination is stored in the form in which addresses are printed. -/
def Canonical (net : Net A) (dests : AList String Nat) : Prop :=
  ∀ k n, AList.get? dests k = some n → ∃ a, net.print a = k

/-- The sequence numbers of the beacons sent to a destination, in order. -/
def numbers (sent : List (Sent A)) (a : A) : List Nat :=
  (sent.filter fun d => d.dest = a).map fun d => d.pkt.bsn

/-- The datagrams the system accepts: the family of the socket is the one of the destination. -/
def accepted (net : Net A) (sent : List (Sent A)) : List (Sent A) :=
  sent.filter fun d => net.isV4 d.dest = (d.fam = .v4)

/-- The first `k` numbers from `c` on, after the largest 32-bit number comes zero. -/
def consecutive (c k : Nat) : List Nat := (List.range k).map fun i => (c + i) % 4294967296

/-- A beacon that describes the node: its id, its convergence layers with their ports, its registered services and, if
enabled, the interval. -/
structure Describes (parseF32 : List Char → Option F32) (s : St A) (b : Beacon) : Prop where
  eid : b.eid = s.cfg.host
  clas : b.block.clas = s.clas.map fun c => (c.1, some c.2)
  services : ∀ tag p, AList.get? b.block.services tag = some p ↔
    ∃ text, AList.get? s.services tag = some text ∧ buildService parseF32 tag text = .ok (tag, p)
  period : b.period = if s.cfg.enablePeriod then some s.cfg.interval else none

end Dtn.Spec.Announcer
