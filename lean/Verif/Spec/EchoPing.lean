import Verif.Model.EchoPing
import Verif.Model.Tools
import Verif.Spec.Ws
import Verif.Spec.Bundle
/-! Specification of the echo service and the ping program. -/

namespace Dtn.Spec.EchoSpec
open Dtn.Ws Dtn.EchoPing Dtn.Spec.WsSpec

/-- The payload of a bundle. -/
def body (b : Bundle) : Bytes := (payload b).getD []

/-- The answer to a bundle: back to its source, with the same payload, for a day, without reports. -/
def answer (x : Ext) (b : Bundle) : Bundle := x.build b.primary.destination b.primary.source (24 * 60 * 60 * 1000) false (body b)

/-- The bundles the node was given to send by client `i`. -/
def given (x : Ext) (host : EID) (i : Nat) : Hub → List Ev → List Bundle
  | _, [] => []
  | h, ev :: evs =>
    (match ev with
      | .binary j _ => if j = i then (step x host h ev).submitted.drop h.submitted.length else []
      | _ => []) ++ given x host i (step x host h ev) evs

/-- The data of the answer to a bundle: source and destination flipped, the same payload, a lifetime of a day. -/
def flipped (b : Bundle) : SendData :=
  { src := b.primary.destination.print, dst := b.primary.source.print, lifetime := 24 * 60 * 60 * 1000, notify := false, data := body b }

/-- What the program reads is what the node wrote, and the other way round: the data of a bundle, with its source and destination as text,
from which the node can read them again; and the data of the answer. -/
structure Readable (x : Ext) (io : Io) (b : Bundle) : Prop where
  data : ∃ bid, io.recv (x.encode .cbor b) =
    some { bid, src := b.primary.source.print, dst := b.primary.destination.print, data := body b }
  reply : x.decode .cbor (io.send (flipped b)) = some (flipped b)
  source : x.parseEid b.primary.source.print = some b.primary.source
  destination : x.parseEid b.primary.destination.print = some b.primary.destination

/-- The name of the echo service: the word in the scheme `dtn`, the number of RFC 862 in the scheme `ipn`. -/
def wellKnown (dtn : Bool) : String := if dtn then "echo" else "7"

/-- Nothing is left to do for the program, and bundles for the endpoint go to it. -/
structure EchoWaits (x : Ext) (host : EID) (store : MemStore) (ep : EID) (sys : System) : Prop where
  serving : sys.phase = .serving
  connected : connected sys.conn sys.evs.reverse = true
  handled : sys.up = []
  read : sys.got = (outbox (hub x host store sys.evs) sys.conn).length
  taken : pending (hub x host store sys.evs) sys.conn = []
  delivered : deliveredTo (hub x host store sys.evs) ep = some sys.conn

end Dtn.Spec.EchoSpec
