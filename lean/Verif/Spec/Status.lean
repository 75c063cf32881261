import Verif.Model.Status
import Verif.Spec.Json
/-! Specification vocabulary for the status pages. -/

namespace Dtn.Spec

/-- The source or the destination of a bundle, as printed, contains the text. -/
def Mentions (addr : String) (p : Pack) : Prop :=
  addr.toList <:+: p.source.print.toList ∨ addr.toList <:+: p.destination.print.toList

/-- Text that survives in the query of a URL: without `#`, `&`, `+`, `%`, tabs and line breaks, and not ending in a space or a
control character. -/
def QueryText (s : String) : Prop :=
  (∀ c ∈ s.toList, c ∉ ['#', '&', '+', '%', '\t', '\n', '\r']) ∧ ∀ c, s.toList.getLast? = some c → 0x20 < c.toNat

/-- The ids of the bundles in a listing that are not marked as deleted, in order. -/
inductive Listing (keep : Pack → Prop) : List Pack → List String → Prop where
  | nil : Listing keep [] []
  | take {p ps ids} : keep p → Listing keep ps ids → Listing keep (p :: ps) (p.id :: ids)
  | skip {p ps ids} : ¬ keep p → Listing keep ps ids → Listing keep (p :: ps) ids

/-- The reading of UTF-8 by the daemon gives back every text that is written in UTF-8. -/
def ReadsUtf8 (x : Status.Ext) : Prop := ∀ s : String, x.lossy (s.toList.flatMap String.utf8EncodeChar) = s

/-- The words for the states of processing a bundle can be in. -/
def stateWord : Constraint → String
  | .dispatchPending => "DispatchPending"
  | .forwardPending => "ForwardPending"
  | .reassemblyPending => "ReassemblyPending"
  | .contraindicated => "Contraindicated"
  | .localEndpoint => "LocalEndpoint"
  | .deleted => "Deleted"

/-- The line tells the id of a bundle and the states it is in, in some order and each once. -/
def StoreLine (line id : String) (isIn : Constraint → Prop) : Prop :=
  ∃ states : List Constraint, states.Nodup ∧ (∀ c, c ∈ states ↔ isIn c) ∧
    line = id ++ " {" ++ String.intercalate ", " (states.map stateWord) ++ "}"

/-- The set of states of a bundle is walked once, in whatever order. -/
def WalksOnce (x : Status.Ext) (p : Pack) : Prop := (x.walk p).Nodup ∧ ∀ c, c ∈ x.walk p ↔ p.has c = true

/-- The record tells everything that the node knows of a neighbour. -/
structure PeerRecord (x : Status.Ext) (r : JsonText.Value) (p : Status.ShownPeer) : Prop where
  eid : Json.field r "eid" = some (x.eid p.peer.eid)
  ip : ∀ a, p.peer.addr = .ipv4 a ∨ p.peer.addr = .ipv6 a → Json.field r "addr" = some (.obj [("Ip", .str a)])
  broadcast : ∀ d a, p.peer.addr = .broadcastGeneric d a →
    Json.field r "addr" = some (.obj [("BroadcastGeneric", .list [.str d, .str a])])
  generic : ∀ a, p.peer.addr = .generic a → Json.field r "addr" = some (.obj [("Generic", .str a)])
  kind : Json.field r "con_type" = some (.str (if p.peer.conType = .static then "Static" else "Dynamic"))
  noPeriod : p.peer.period = none → Json.field r "period" = some .null
  period : ∀ ms, p.peer.period = some ms → ∃ o secs nanos, Json.field r "period" = some o ∧ Json.field o "secs" = some (.num secs) ∧
    Json.field o "nanos" = some (.num nanos) ∧ nanos < 1000000000 ∧ secs * 1000000000 + nanos = ms * 1000000
  layers : ∃ l, Json.field r "cla_list" = some (.list l) ∧ l.length = p.peer.claList.length ∧
    ∀ (i : Nat) (name : String) (port : Option Nat), p.peer.claList[i]? = some (name, port) →
      l[i]? = some (.list [.str name, match port with | some n => .num n | none => .null])
  services : ∃ l, Json.field r "services" = some (.obj l) ∧ l.length = p.services.length ∧
    ∀ (i n : Nat) (text : String), p.services[i]? = some (n, text) → l[i]? = some (toString n, .str text)
  lastContact : Json.field r "last_contact" = some (.num p.peer.lastContact)
  fails : Json.field r "fails" = some (.num p.peer.fails)

end Dtn.Spec
