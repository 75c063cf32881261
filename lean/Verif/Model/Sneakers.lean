import Verif.Model.Pack
/-! Model of the constraint conversion in `core/store/sneakers.rs`. The database itself
(`d7sneakers`, an external crate) is a parameter of `Model/SneakersStore.lean`. -/

namespace Dtn.Sneakers

/-- `d7sneakers::Constraints` bit flags (external crate; the six single-bit flags named in
`core/store/sneakers.rs:172-189`). -/
abbrev Bits := BitVec 8

def DISPATCH_PENDING : Bits := 1#8
def FORWARD_PENDING : Bits := 2#8
def REASSEMBLY_PENDING : Bits := 4#8
def CONTRAINDICATED : Bits := 8#8
def LOCAL_ENDPOINT : Bits := 16#8
def DELETED : Bits := 32#8

/-- `bitflags` `contains`. -/
def contains (b f : Bits) : Bool := b &&& f == f

/-- `convert_constraints_to_hashset`, `core/store/sneakers.rs:170-191`. -/
def toSet (b : Bits) : CSet :=
  let c := CSet.empty
  let c := if contains b DISPATCH_PENDING then c.set true .dispatchPending else c
  let c := if contains b FORWARD_PENDING then c.set true .forwardPending else c
  let c := if contains b REASSEMBLY_PENDING then c.set true .reassemblyPending else c
  let c := if contains b CONTRAINDICATED then c.set true .contraindicated else c
  let c := if contains b LOCAL_ENDPOINT then c.set true .localEndpoint else c
  if contains b DELETED then c.set true .deleted else c

/-- `convert_hashset_to_constraints`, `core/store/sneakers.rs:193-214`. -/
def toBits (s : CSet) : Bits :=
  let c := 0#8
  let c := if s.has .dispatchPending then c ||| DISPATCH_PENDING else c
  let c := if s.has .forwardPending then c ||| FORWARD_PENDING else c
  let c := if s.has .reassemblyPending then c ||| REASSEMBLY_PENDING else c
  let c := if s.has .contraindicated then c ||| CONTRAINDICATED else c
  let c := if s.has .localEndpoint then c ||| LOCAL_ENDPOINT else c
  if s.has .deleted then c ||| DELETED else c

end Dtn.Sneakers
