import Verif.Lemmas.PackDb
/-!
C144: what the database keeps about a bundle is read back as it was written.
-/

namespace Dtn.Props
open Dtn.PackCbor Dtn.Spec.Records

/-- A record for the examples. -/
def packExample : Pack :=
  { source := .dtn "node1" "in", destination := .ipn 23 42, receivedTime := 1700000000000, creationTime := 753000000000,
    lifetime := 3600000, id := "dtn://node1/in-753000000000-0", administrative := false, size := 300,
    constraints := { forwardPending := true, localEndpoint := true } }

theorem packExample_fits : Fits packExample :=
  ⟨⟨by decide +kernel, by show (Cbor.utf8 _).length < _; decide +kernel⟩, ⟨by decide +kernel, by decide +kernel⟩,
    by decide +kernel, by decide +kernel, by decide +kernel, by decide +kernel, by decide +kernel⟩

theorem packExample_lists : Lists [.localEndpoint, .forwardPending] packExample.constraints :=
  ⟨by decide, by intro c; cases c <;> decide⟩

/-- A record is written as a CBOR map from the names of the fields, in the order in which they are declared, to their
values, whatever the order in which the set of constraints is listed. -/
theorem C144_layout (p : Pack) (hp : Fits p) (cs : List Constraint) (hc : Lists cs p.constraints) :
    Record false declared cs p (write cs p) := write_record hc.1 hp

example : Record false declared [.localEndpoint, .forwardPending] packExample (write [.localEndpoint, .forwardPending] packExample) :=
  C144_layout packExample packExample_fits _ packExample_lists

/-- Every map with the nine fields in any order, the constraints in any order and with repetitions, and numbers and
lengths in any of the forms CBOR has for them, indefinite lengths of map and constraints included, is read as the record. -/
theorem C144_read (p : Pack) (hp : Fits p) (fs : List Field) (hn : fs.Nodup) (ha : ∀ f, f ∈ fs) (cs : List Constraint)
    (hc : ∀ c, c ∈ cs ↔ p.has c = true) (indefinite : Bool) (bs : Bytes) (h : Record indefinite fs cs p bs) : read bs = some p :=
  read_record hn ha hp hc h

example : read (write [.localEndpoint, .forwardPending] packExample) = some packExample :=
  C144_read packExample packExample_fits declared (by decide) (by intro f; cases f <;> decide)
    [.localEndpoint, .forwardPending] packExample_lists.2 false _
    (C144_layout packExample packExample_fits _ packExample_lists)

/-- What is written is read back as it was. -/
theorem C144_back (p : Pack) (hp : Fits p) (cs : List Constraint) (hc : Lists cs p.constraints) :
    read (write cs p) = some p :=
  read_record (fs := declared) (by decide) (by intro f; cases f <;> decide) hp hc.2 (write_record hc.1 hp)

example : read (write [.localEndpoint, .forwardPending] packExample) = some packExample := by decide +kernel

/-- Different records are never written the same. -/
theorem C144_distinct (p q : Pack) (hp : Fits p) (hq : Fits q) (cs ds : List Constraint) (hc : Lists cs p.constraints)
    (hd : Lists ds q.constraints) (h : write cs p = write ds q) : p = q := by
  have h1 := C144_back p hp cs hc
  rw [h, C144_back q hq ds hd] at h1
  exact (Option.some.inj h1).symm

example : write [.localEndpoint, .forwardPending] packExample ≠ write [.forwardPending] (packExample.del .localEndpoint) := by
  decide +kernel

/-- A record followed by anything is not taken for a record. -/
theorem C144_nothing_after (p : Pack) (hp : Fits p) (cs : List Constraint) (hc : Lists cs p.constraints) (more : Bytes)
    (hm : more ≠ []) : read (write cs p ++ more) = none := by
  have h1 := Spec.Beacons.read_mapOf (r := readEntry) (g := entry cs p) (l := declared)
    (fun f _ k v hk hv => ⟨read_entry hp f hk hv, starts_key f hk⟩) (write_record hc.1 hp) more
  unfold PackCbor.read
  rw [h1]
  cases more with
  | nil => exact absurd rfl hm
  | cons b more => rfl

example : read (write [.localEndpoint, .forwardPending] packExample ++ [0]) = none :=
  C144_nothing_after packExample packExample_fits _ packExample_lists [0] (by simp)

/-- After every history of calls, some of them cut short by the end of the process, and whatever the orders in which sets
are listed, the database with the bytes of the records answers every query as the database that keeps the records
themselves: no query stops the daemon because of bytes it cannot read, and none is answered from a record other than the
one written last. -/
theorem C144_store (es : List (SledStore.Event × (CSet → List Constraint)))
    (he : ∀ e ∈ es, (∀ c, Lists (e.2 c) c) ∧ FitsEvent e.1) :
    (Db.new.run es).bundles = (SledStore.new.run (es.map (·.1))).bundles ∧
    (∀ bid, (Db.new.run es).getMetadata bid = (SledStore.new.run (es.map (·.1))).getMetadata bid) ∧
    (Db.new.run es).packs = .ok (SledStore.new.run (es.map (·.1))).packs ∧
    (∀ criteria, (Db.new.run es).filter criteria = .ok ((SledStore.new.run (es.map (·.1))).filter criteria)) ∧
    (Db.new.run es).pending = .ok (SledStore.new.run (es.map (·.1))).pending := by
  have h := same_run es same_new he
  refine ⟨h.bundles, same_getMetadata h, same_packs h, ?_, ?_⟩
  · intro criteria
    unfold Db.filter
    rw [same_packs h]
    rfl
  · unfold Db.pending
    rw [same_packs h]
    rfl

/-- An order of listing for the examples. -/
def packOrder (s : CSet) : List Constraint :=
  [Constraint.deleted, .localEndpoint, .contraindicated, .reassemblyPending, .forwardPending, .dispatchPending].filter s.has

theorem packOrder_lists (s : CSet) : Lists (packOrder s) s := by
  refine ⟨List.Pairwise.filter _ (by decide), ?_⟩
  intro c
  unfold packOrder
  rw [List.mem_filter]
  refine ⟨fun h => h.2, fun h => ⟨by cases c <;> decide, h⟩⟩

/-- A bundle for the examples. -/
def packBundle : Bundle :=
  ⟨⟨"b1", {}, .dtn "node1" "in", .ipn 23 42, .none, 753000000000, 0, 3600000⟩, []⟩

/-- A bundle is stored, its record changed, and the process stops while it is removed. -/
def packHistory : List (SledStore.Event × (CSet → List Constraint)) :=
  [(.call (.push 5 packBundle), packOrder),
    (.call (.update ((Pack.ofBundle 5 packBundle).add .forwardPending)), packOrder),
    (.crash (.remove "b1") 1, packOrder)]

example : (∀ e ∈ packHistory, (∀ c, Lists (e.2 c) c) ∧ FitsEvent e.1) ∧
    (Db.new.run packHistory).getMetadata "b1" =
      .ok (some { Pack.ofBundle 5 packBundle with constraints := { deleted := true } }) := by
  refine ⟨?_, by decide +kernel⟩
  have h1 : Spec.Discovery.GoodEid (.dtn "node1" "in") :=
    ⟨by decide +kernel, by show (Cbor.utf8 _).length < _; decide +kernel⟩
  have h2 : Spec.Discovery.GoodEid (.ipn 23 42) := ⟨by decide +kernel, by decide +kernel⟩
  intro e he
  refine ⟨?_, ?_⟩
  · simp only [packHistory, List.mem_cons, List.not_mem_nil, or_false] at he
    rcases he with rfl | rfl | rfl <;> exact packOrder_lists
  · simp only [packHistory, List.mem_cons, List.not_mem_nil, or_false] at he
    rcases he with rfl | rfl | rfl
    · exact ⟨h1, h2, by decide +kernel, by decide +kernel, by decide +kernel, by decide +kernel⟩
    · exact ⟨h1, h2, by decide +kernel, by decide +kernel, by decide +kernel, by decide +kernel, by decide +kernel⟩
    · trivial

end Dtn.Props
