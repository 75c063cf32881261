/-!
Association lists standing for `HashMap`, `BTreeMap` and `sled::Tree`.

Models: the containers used by `core/store/mem.rs:11-12`, `core/store/sled.rs:13-14`,
`lib.rs:36` and the routing agents. Simplification: iteration order is list order
(Rust's `HashMap` order is unspecified, `BTreeMap` order is by key).
-/

namespace Dtn

/-- A finite map as a list of key/value pairs. -/
abbrev AList (K V : Type) := List (K × V)

namespace AList
variable {K V : Type} [DecidableEq K]

/-- `HashMap::get`. -/
def get? : AList K V → K → Option V
  | [], _ => none
  | (k', v) :: m, k => if k' = k then some v else get? m k

/-- `HashMap::remove`. -/
def erase (m : AList K V) (k : K) : AList K V := m.filter (fun p => decide (p.1 ≠ k))

/-- `HashMap::insert` (replaces the value of an existing key). -/
def insert (m : AList K V) (k : K) (v : V) : AList K V := (k, v) :: erase m k

/-- `HashMap::contains_key`. -/
def contains (m : AList K V) (k : K) : Bool := (get? m k).isSome

/-- `HashMap::keys`. -/
def keys (m : AList K V) : List K := m.map Prod.fst

/-- `HashMap::values`. -/
def values (m : AList K V) : List V := m.map Prod.snd

/-- At most one entry per key: the representation invariant of a map. -/
def WF (m : AList K V) : Prop := (keys m).Nodup

end AList
end Dtn
