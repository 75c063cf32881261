import Verif.Model.Bridge
import Verif.Spec.Mtcp
import Verif.Spec.EclaFrames
/-! Specification for the programs that carry bundles of an external convergence layer over TCP. -/

namespace Dtn.Spec.BridgeSpec
open Bridge
open ModuleClient (EclaPacket)

/-- The program is in this state after these events. -/
def After (g : Prog) (evs : List Ev) (s : State) : Prop := ({} : State).run g evs = some s

/-- The packets that the client has passed to the program. -/
def passed (evs : List Ev) : List EclaPacket :=
  evs.filterMap fun e => match e with | .packet p => some p | _ => none

/-- The packet is to be sent to the address. -/
def For (g : Prog) (dst : String) (p : EclaPacket) : Prop := ∃ data, g.frame p = some (dst, data)

/-- The packets that were written on outgoing connection `c`, in the order they were written. -/
def sentOn (s : State) (c : Nat) : List EclaPacket := (s.handled.filter fun h => h.2 = .written c).map fun h => h.1

/-- The connection on which a packet for the address was written. -/
def usedAt (g : Prog) (dst : String) (h : EclaPacket × Fate) : Option Nat :=
  match h.2 with
  | .written c => (g.frame h.1).bind fun f => if f.1 = dst then some c else none
  | _ => none

/-- The connections on which the packets for an address were written, in order. -/
def usedFor (g : Prog) (dst : String) (s : State) : List Nat := s.handled.filterMap (usedAt g dst)

/-- The packets that were written on connections to an address, in the order they were written. -/
def sentTo (g : Prog) (dst : String) (s : State) : List EclaPacket :=
  (s.handled.filter fun h => (usedAt g dst h).isSome).map fun h => h.1

/-- The packets for an address among these. -/
def forAddr (g : Prog) (dst : String) (l : List EclaPacket) : List EclaPacket :=
  l.filter fun p => decide ((g.frame p).map (fun f => f.1) = some dst)

/-- The packets from incoming connection `i` that the program wanted to give to the node. -/
def offeredFrom (s : State) (i : Nat) : List EclaPacket := (s.offered.filter fun o => o.1 = i).map fun o => o.2.1

/-- The packets from incoming connection `i` that are on their way to the node. -/
def acceptedFrom (s : State) (i : Nat) : List EclaPacket := (s.offered.filter fun o => o.1 = i ∧ o.2.2 = true).map fun o => o.2.1

/-- No opening of a connection and no writing fails. -/
def NoFailure (evs : List Ev) : Prop := .pick false ∉ evs ∧ ∀ k, .write (some k) ∉ evs

/-- Whenever a packet from outside is offered, the channel to the client has room. -/
def Roomy (g : Prog) (evs : List Ev) : Prop :=
  ∀ pre i post u, evs = pre ++ .next i :: post → After g pre u → u.ctx.length < 100

/-- Nobody connects from an address that packets are sent to. -/
def Apart (g : Prog) (evs : List Ev) : Prop := ∀ addr, .accept addr ∈ evs → ∀ p ∈ passed evs, ¬For g addr p

/-- The bundle in a packet. -/
def bundle (x : Codec) : EclaPacket → Option Bundle
  | .data _ _ _ bytes => x.parse bytes
  | _ => none

/-- The address a packet with a bundle is to be sent to. -/
def destination : EclaPacket → Option String
  | .data _ dst _ _ => some dst
  | _ => none

/-- The program has read everything it will from incoming connection `i`, and no packet waits for room. -/
def Settled (g : Prog) (s : State) (i : Nat) : Prop :=
  (∃ c, s.ins[i]? = some c ∧ c.done = true) ∨ (s.ended = false ∧ s.ctx.length < 100 ∧ s.step g (.next i) = none)

end Dtn.Spec.BridgeSpec
