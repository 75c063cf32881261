import Verif.Model.Bundle
/-! Model of `core/bundlepack.rs`. -/

namespace Dtn

/-- `core/bundlepack.rs:13-34`. -/
inductive Constraint where
  | dispatchPending
  | forwardPending
  | reassemblyPending
  | contraindicated
  | localEndpoint
  | deleted
deriving DecidableEq, Repr

/-- A `HashSet<Constraint>` (`core/bundlepack.rs:56`): one membership bit per constraint. -/
structure CSet where
  dispatchPending : Bool := false
  forwardPending : Bool := false
  reassemblyPending : Bool := false
  contraindicated : Bool := false
  localEndpoint : Bool := false
  deleted : Bool := false
deriving DecidableEq, Repr

/-- `HashSet::contains`. -/
def CSet.has (s : CSet) : Constraint → Bool
  | .dispatchPending => s.dispatchPending
  | .forwardPending => s.forwardPending
  | .reassemblyPending => s.reassemblyPending
  | .contraindicated => s.contraindicated
  | .localEndpoint => s.localEndpoint
  | .deleted => s.deleted

/-- Set one membership bit. -/
def CSet.set (s : CSet) (v : Bool) : Constraint → CSet
  | .dispatchPending => { s with dispatchPending := v }
  | .forwardPending => { s with forwardPending := v }
  | .reassemblyPending => { s with reassemblyPending := v }
  | .contraindicated => { s with contraindicated := v }
  | .localEndpoint => { s with localEndpoint := v }
  | .deleted => { s with deleted := v }

/-- The empty `HashSet`. -/
def CSet.empty : CSet := {}

/-- `HashSet::is_empty`. -/
def CSet.isEmpty (s : CSet) : Bool := decide (s = CSet.empty)

/-- `BundlePack`, `core/bundlepack.rs:45-57`. -/
structure Pack where
  source : EID
  destination : EID
  receivedTime : Nat
  creationTime : Nat
  lifetime : Nat
  id : String
  administrative : Bool
  size : Nat
  constraints : CSet
deriving DecidableEq, Repr

/-- `BundlePack::from(&Bundle)`, `core/bundlepack.rs:90-113`. `now` is the unix time in
milliseconds read at line 101. Simplification: `size` (length of the CBOR encoding, only
shown to users) is a parameter-free 0. -/
def Pack.ofBundle (now : Nat) (b : Bundle) : Pack :=
  { source := b.primary.source
    destination := b.primary.destination
    receivedTime := now
    creationTime := b.primary.creationTime
    lifetime := b.primary.lifetime
    id := b.id
    administrative := b.isAdmin
    size := 0
    constraints := CSet.empty }

/-- `has_constraint`, `core/bundlepack.rs:141-143`. -/
def Pack.has (p : Pack) (c : Constraint) : Bool := p.constraints.has c

/-- `has_constraints`, `core/bundlepack.rs:144-146`. -/
def Pack.hasAny (p : Pack) : Bool := !p.constraints.isEmpty

/-- `add_constraint`, `core/bundlepack.rs:147-149`. -/
def Pack.add (p : Pack) (c : Constraint) : Pack := { p with constraints := p.constraints.set true c }

/-- `remove_constraint`, `core/bundlepack.rs:150-152`. -/
def Pack.del (p : Pack) (c : Constraint) : Pack := { p with constraints := p.constraints.set false c }

/-- `clear_constraints`, `core/bundlepack.rs:153-161`. -/
def Pack.clear (p : Pack) : Pack :=
  let localSet := p.has .localEndpoint
  let p := { p with constraints := CSet.empty }
  if localSet then p.add .localEndpoint else p

/-- The modulus of `u64` arithmetic. -/
def u64 : Nat := 2 ^ 64

/-- `has_expired`, `core/bundlepack.rs:131-137`. `now` is the DTN time read at line 135.
The `u64` addition wraps in a release build (`Cargo.toml` sets no overflow checks). -/
def Pack.hasExpired (now : Nat) (p : Pack) : Bool :=
  if p.lifetime = 0 then false
  else decide ((p.creationTime + p.lifetime) % u64 < now)

end Dtn
