import Verif.Model.EclaBeacon
import Verif.Spec.Discovery
import Verif.Spec.BeaconLayout
/-! What beacons of external convergence layers tell. -/

namespace Dtn.Spec.EclaBeacons
open Dtn.EclaBeacon Dtn.Discovery

/-- The values fit their types (`u16` ports, `u8` tags) and memory, and a map has one value per key. -/
structure Typed (s : St) : Prop where
  clas : Discovery.Sized s.clas.length ∧ ∀ c ∈ s.clas, Discovery.Sized (Cbor.utf8 c.1).length ∧ c.2 < 2 ^ 16
  services : Discovery.Sized s.services.length ∧ (s.services.map (·.1)).Nodup ∧
    ∀ kv ∈ s.services, kv.1 < 2 ^ 8 ∧ Discovery.Sized (Cbor.utf8 kv.2).length

/-- Every service of the node is within the documented limits. -/
def Valid (parseF32 : List Char → Option F32) (s : St) : Prop :=
  ∀ kv ∈ s.services, ∃ v, Discovery.Allowed parseF32 kv.1 kv.2 v

/-- What a service block lists, as CBOR: an empty array if it is empty. Lists and maps in it may be of indefinite
length if this is allowed. -/
def Listed (indefinite : Bool) (b : ServiceBlock) (bs : Bytes) : Prop :=
  if b.clas = [] ∧ b.services = [] then Beacons.Arr [] bs else Beacons.Block indefinite b bs

/-- The node `n` is listed with this id, address, convergence layers and services, as met at this time; nothing else differs
from before, and the encounter is reported. -/
structure Learned (s t : St) (n : String) (now : Nat) (eid : EID) (addr : String) (clas : List (String × Option Nat))
    (has : Nat → Service → Prop) : Prop where
  peer : AList.get? t.peers n = some { eid := eid, addr := .generic addr, conType := .dynamic, period := none, claList := clas, lastContact := now, fails := 0 }
  services : ∃ l, AList.get? t.peerServices n = some l ∧ ∀ tag v, (tag, v) ∈ l ↔ has tag v
  others : ∀ m, m ≠ n → AList.get? t.peers m = AList.get? s.peers m ∧ AList.get? t.peerServices m = AList.get? s.peerServices m
  notified : t.notified = s.notified ++ [eid]
  node : t.host = s.host ∧ t.clas = s.clas ∧ t.services = s.services

end Dtn.Spec.EclaBeacons
