import Verif.Spec.JsonGrammar
import Verif.Spec.EclaFrames
import Verif.Model.ModuleClient
/-! The packets of external convergence layers as they are described in `/repo/doc/ecla.md`. -/

namespace Dtn.Spec.EclaJson
open Serde (Value) 
open ModuleClient

/-- The object has exactly one field of this name, with this value. -/
def Has (l : List (String × Value)) (k : String) (v : Value) : Prop := (l.filter fun f => f.1 = k) = [(k, v)]

/-- The object has exactly one field of this name, with the bytes in Base64. -/
def HasBytes (l : List (String × Value)) (k : String) (d : Bytes) : Prop :=
  ∃ t, EclaFrames.Encodes d t ∧ Has l k (.str (.ofList t))

/-- An endpoint id: the number of the scheme and the address. -/
def Eid : EID → Value → Prop
  | .none, v => v = .list [.num 1, .num 0]
  | .dtn n s, v => v = .list [.num 1, .str ("//" ++ n ++ "/" ++ s)]
  | .ipn n s, v => v = .list [.num 2, .list [.num n, .num s]]

/-- The object with these fields is this packet. `E` says which values are endpoint ids. There may be other fields. -/
def Means (E : EID → Value → Prop) (l : List (String × Value)) : EclaPacket → Prop
  | .register name beacon port => Has l "type" (.str "Register") ∧ Has l "name" (.str name) ∧ Has l "enable_beacon" (.bool beacon) ∧
      match port with
      | some p => p < 65536 ∧ Has l "port" (.num p)
      | none => Has l "port" .null ∨ ∀ f ∈ l, f.1 ≠ "port"
  | .beacon eid addr block => Has l "type" (.str "Beacon") ∧ (∃ v, E eid v ∧ Has l "eid" v) ∧ Has l "addr" (.str addr) ∧
      HasBytes l "service_block" block
  | .data src dst bid bytes => Has l "type" (.str "ForwardData") ∧ Has l "src" (.str src) ∧ Has l "dst" (.str dst) ∧
      Has l "bundle_id" (.str bid) ∧ HasBytes l "data" bytes
  | .registered eid nodeid => Has l "type" (.str "Registered") ∧ (∃ v, E eid v ∧ Has l "eid" v) ∧ Has l "nodeid" (.str nodeid)
  | .error reason => Has l "type" (.str "Error") ∧ Has l "reason" (.str reason)

/-- The list is this packet: its type and its fields in the order of the documentation. -/
def InOrder (E : EID → Value → Prop) (l : List Value) : EclaPacket → Prop
  | .register name beacon port => ∃ v, l = [.str "Register", .str name, .bool beacon, v] ∧
      match port with
      | some p => p < 65536 ∧ v = .num p
      | none => v = .null
  | .beacon eid addr block => ∃ v t, l = [.str "Beacon", v, .str addr, .str (.ofList t)] ∧ E eid v ∧ EclaFrames.Encodes block t
  | .data src dst bid bytes => ∃ t, l = [.str "ForwardData", .str src, .str dst, .str bid, .str (.ofList t)] ∧ EclaFrames.Encodes bytes t
  | .registered eid nodeid => ∃ v, l = [.str "Registered", v, .str nodeid] ∧ E eid v
  | .error reason => l = [.str "Error", .str reason]

/-- The numbers of the packet have the sizes of their types. -/
def Sized : EclaPacket → Prop
  | .register _ _ port => ∀ p, port = some p → p < 65536
  | .beacon (.ipn n s) _ _ | .registered (.ipn n s) _ => n < 2 ^ 64 ∧ s < 2 ^ 64
  | _ => True

/-- The endpoint id in the packet. -/
def Names : EclaPacket → EID → Prop
  | .beacon eid _ _, e | .registered eid _, e => e = eid
  | _, _ => False

end Dtn.Spec.EclaJson
