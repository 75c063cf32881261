import Verif.Model.SledStore
import Verif.Model.Routing.Static
/-! Model of the digests of known bundles (`core/helpers.rs`, `core/store/mod.rs`). -/

namespace Dtn.Digest

/-- `bids.sort()` of `get_complete_digest`, `core/helpers.rs:185`: Rust compares strings byte by byte, which for UTF-8
text is the order by code points used here. -/
def sortIds (bids : List String) : List String := bids.mergeSort (fun a b => decide (a.toList ≤ b.toList))

/-- What `get_digest_of_bids` feeds to the hash, `core/helpers.rs:189-193`: the ids one after the other.
Simplification: text instead of its UTF-8 bytes. -/
def textOfBids (bids : List String) : List Char := bids.flatMap String.toList

/-- `get_digest_of_bids`, `core/helpers.rs:189-195`; `sha1` is the external hash printed in hexadecimal. -/
def ofBids (sha1 : List Char → String) (bids : List String) : String := sha1 (textOfBids bids)

/-- The hashed text of `get_complete_digest`, `core/helpers.rs:178-186`; `packs` is what the store's `bundles()` lists. -/
def completeText (packs : List Pack) : List Char := textOfBids (sortIds (packs.map Pack.id))

/-- `get_complete_digest`, `core/helpers.rs:178-187`. -/
def complete (sha1 : List Char → String) (packs : List Pack) : String :=
  ofBids sha1 (sortIds (packs.map Pack.id))

/-- `str::contains` with a string pattern. -/
def containsText (p : List Char) : List Char → Bool
  | [] => p.isPrefixOf []
  | c :: s => p.isPrefixOf (c :: s) || containsText p s

/-- `filter_addr`, `core/store/mod.rs:63-73`. -/
def filterAddr (criteria : String) (packs : List Pack) : List String :=
  ((packs.filter (fun p => !p.has .deleted)).filter (fun p =>
    containsText criteria.toList p.source.print.toList ||
    containsText criteria.toList p.destination.print.toList)).map Pack.id

/-- The hashed text of `status_bundles_filtered_digest`, `dtnd/httpd.rs:279-289`. -/
def filteredText (criteria : String) (packs : List Pack) : List Char := textOfBids (filterAddr criteria packs)

/-- `Bundle::id` of the `bp7` crate for a bundle that is not a fragment: source, creation time and sequence number
(external; the key used by all stores, `core/bundlepack.rs:108`). -/
def bundleId (source : EID) (time seq : Nat) : String :=
  source.print ++ "-" ++ toString time ++ "-" ++ toString seq

end Dtn.Digest
