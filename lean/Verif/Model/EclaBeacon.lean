import Verif.Model.EclaJson
import Verif.Model.Discovery
/-!
Beacons between nodes and the modules of external convergence layers: `generate_beacon` and the case `Packet::Beacon` of
`handle_packet`, `cla/ecla/processing.rs:54-83,203-227`.
-/

namespace Dtn.EclaBeacon
open Discovery Cbor
open ModuleClient (EclaPacket)

/-- What the two functions use of a node: its id, its convergence layers with their ports, its services
(`DTNCORE.service_list`), its peers with their services, and the encounters reported to the router. -/
structure St where
  host : EID
  clas : List (String × Nat) := []
  services : AList Nat String := []
  peers : Peers := []
  peerServices : AList String (AList Nat Service) := []
  notified : List EID := []
deriving DecidableEq, Repr

/-- The service block of a node, `cla/ecla/processing.rs:56-78`; `none` is the panic of `expect`. -/
def block (parseF32 : List Char → Option F32) (s : St) : Option ServiceBlock :=
  s.services.foldlM (fun b kv => match buildService parseF32 kv.1 kv.2 with
    | .ok r => some (b.addService kv.1 r.2)
    | _ => none) (s.clas.foldl (fun b c => b.addCla c.1 (some c.2)) ({} : ServiceBlock))

/-- `generate_beacon`, `cla/ecla/processing.rs:54-83`. -/
def generate (parseF32 : List Char → Option F32) (s : St) : Option EclaPacket :=
  (block parseF32 s).map fun b => .beacon s.host "" (writeBlock b)

/-- `serde_cbor::from_slice` for a service block: nothing may follow it. -/
def blockOf (bs : Bytes) : Option ServiceBlock :=
  match readBlock bs with
  | .ok b [] => some b
  | _ => none

/-- The case `Packet::Beacon`, `cla/ecla/processing.rs:206-227`, at time `now`; `none` is a panic: of `unwrap` on a service
block that cannot be read, of `convert_services`, or of `peers_add` on a peer without a name. The notification of the router
is taken to be queued. -/
def receive (s : St) (now : Nat) : EclaPacket → Option St
  | .beacon eid addr bs =>
    match blockOf bs with
    | none => none
    | some b =>
      match convert b.services with
      | .ok svc =>
        match s.peers.add (Peer.new now eid (.generic addr) .dynamic none b.clas) with
        | none => none
        | some (ps, _) =>
          some { s with
            peers := ps
            peerServices := AList.insert s.peerServices (eid.node.getD "") svc
            notified := s.notified ++ [eid] }
      | _ => none
  | _ => some s

end Dtn.EclaBeacon
