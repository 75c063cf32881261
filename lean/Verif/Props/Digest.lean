import Verif.Lemmas.Digest
/-!
Property C56: digests of the known bundles.
-/

namespace Dtn.Props
open Spec Digest

/-! ## C56 -/

/-- C56, first half, between any two histories of the in-memory store: nodes that accepted the same set of ids, in any
order, with any removals and metadata updates in between, publish the same digest. -/
theorem C56_same_bundles_same_digest (sha1 : List Char → String) (ops ops' : List MemStore.Op)
    (h : ∀ bid, pushedMem ops bid ↔ pushedMem ops' bid) :
    complete sha1 (MemStore.new.run ops).packs = complete sha1 (MemStore.new.run ops').packs := by
  have i1 : MemStore.Inv (MemStore.new.run ops) := MemStore.Inv.new.run _
  have i2 : MemStore.Inv (MemStore.new.run ops') := MemStore.Inv.new.run _
  unfold complete
  rw [sortIds_congr (nodup_mem_perm (MemStore.nodup_packs_ids i1) (MemStore.nodup_packs_ids i2) ?_)]
  intro bid
  rw [mem_ids i1, mem_ids i2, known_iff_pushed, known_iff_pushed, h]

/-- The same between an in-memory and a sled store, after any history of calls and crashes of the latter: equal sets of ids
with metadata give equal digests. -/
theorem C56_stores_agree (sha1 : List Char → String) (ops : List MemStore.Op) (es : List SledStore.Event)
    (h : ∀ bid, pushedMem ops bid ↔ ∃ p, (SledStore.new.run es).getMetadata bid = .ok (some p)) :
    complete sha1 (MemStore.new.run ops).packs = complete sha1 (SledStore.new.run es).packs := by
  have i1 : MemStore.Inv (MemStore.new.run ops) := MemStore.Inv.new.run _
  have i2 : SledStore.Inv (SledStore.new.run es) := SledStore.Inv.new.run _
  unfold complete
  rw [sortIds_congr (nodup_mem_perm (MemStore.nodup_packs_ids i1) (nodup_ids_sled i2) ?_)]
  intro bid
  rw [mem_ids i1, mem_ids_sled i2, known_iff_pushed, h]

/-- A bundle with the id `bp7` gives it: source, creation time and sequence number. -/
def exIdBundle (src : EID) (t q : Nat) : Bundle :=
  { primary := { bid := bundleId src t q, source := src, destination := .dtn "b" "y", reportTo := src,
                 creationTime := t, lifetime := 60000 }
    canonicals := [{ btype := 1, num := 1, data := .data [1, 2, 3] }] }

-- Two histories accepting the same two bundles in different orders, one of them removed later.
example : ∀ bid, pushedMem [.push 5 (exIdBundle (.dtn "a" "") 1 1), .push 6 (exIdBundle (.dtn "a" "") 2 2)] bid ↔
    pushedMem [.push 7 (exIdBundle (.dtn "a" "") 2 2), .push 8 (exIdBundle (.dtn "a" "") 1 1),
      .remove (bundleId (.dtn "a" "") 1 1)] bid := by
  intro bid
  constructor
  · rintro ⟨now, b, h, e⟩
    simp only [List.mem_cons, MemStore.Op.push.injEq, List.not_mem_nil, or_false] at h
    rcases h with ⟨_, rfl⟩ | ⟨_, rfl⟩
    · exact ⟨8, _, by simp, e⟩
    · exact ⟨7, _, by simp, e⟩
  · rintro ⟨now, b, h, e⟩
    simp only [List.mem_cons, MemStore.Op.push.injEq, reduceCtorEq, List.not_mem_nil, or_false] at h
    rcases h with ⟨_, rfl⟩ | ⟨_, rfl⟩
    · exact ⟨6, _, by simp, e⟩
    · exact ⟨5, _, by simp, e⟩

/-- C56, second half, proved when ids hold a single colon: if the hashed texts of two nodes are equal, they know the same
ids. Missing: ids with further colons, see `C56_different_sets_violated`. -/
theorem C56_different_sets_partial (ops ops' : List MemStore.Op)
    (h : ∀ bid, pushedMem ops bid ∨ pushedMem ops' bid → OneColon bid.toList)
    (e : completeText (MemStore.new.run ops).packs = completeText (MemStore.new.run ops').packs) (bid : String) :
    pushedMem ops bid ↔ pushedMem ops' bid := by
  have i1 : MemStore.Inv (MemStore.new.run ops) := MemStore.Inv.new.run _
  have i2 : MemStore.Inv (MemStore.new.run ops') := MemStore.Inv.new.run _
  rw [← known_iff_pushed, ← known_iff_pushed, ← mem_ids i1, ← mem_ids i2]
  refine completeText_inj ?_ ?_ e bid
  · intro p hp
    exact h _ (Or.inl ((known_iff_pushed _ _).mp ((mem_ids i1 _).mp (List.mem_map_of_mem hp))))
  · intro p hp
    exact h _ (Or.inr ((known_iff_pushed _ _).mp ((mem_ids i2 _).mp (List.mem_map_of_mem hp))))

/-- Ids of bundles hold a single colon unless the source's node or service name holds one. -/
theorem C56_ids_have_one_colon (src : EID) (t q : Nat)
    (h : ∀ n s, src = .dtn n s → ':' ∉ n.toList ∧ ':' ∉ s.toList) : OneColon (bundleId src t q).toList :=
  bundleId_oneColon h t q

-- The hypotheses are met by ordinary sources.
example : OneColon (bundleId (.dtn "node1" "incoming") 735471 3).toList :=
  C56_ids_have_one_colon _ _ _ (by intro n s e; cases e; decide)

example : OneColon (bundleId (.ipn 23 42) 735471 3).toList :=
  C56_ids_have_one_colon _ _ _ (by intro n s e; cases e)

/-- C56 is violated for ids with further colons: one bundle whose source service looks like the end of an id and the start of
another is hashed like two bundles, so nodes knowing different sets publish the same digest. -/
theorem C56_different_sets_violated : ∃ ops ops' : List MemStore.Op,
    completeText (MemStore.new.run ops).packs = completeText (MemStore.new.run ops').packs ∧
    ∃ bid, pushedMem ops bid ∧ ¬ pushedMem ops' bid := by
  refine ⟨[.push 5 (exIdBundle (.dtn "a" "") 1 1), .push 6 (exIdBundle (.dtn "a" "") 2 2)],
    [.push 5 (exIdBundle (.dtn "a" "-1-1dtn://a/") 2 2)], ?_, bundleId (.dtn "a" "") 1 1, ?_, ?_⟩
  · have e1 : (MemStore.new.run [.push 5 (exIdBundle (.dtn "a" "") 1 1), .push 6 (exIdBundle (.dtn "a" "") 2 2)]).packs.map
        Pack.id = [bundleId (.dtn "a" "") 2 2, bundleId (.dtn "a" "") 1 1] := by decide +kernel
    have e2 : (MemStore.new.run [.push 5 (exIdBundle (.dtn "a" "-1-1dtn://a/") 2 2)]).packs.map Pack.id =
        [bundleId (.dtn "a" "-1-1dtn://a/") 2 2] := by decide +kernel
    unfold completeText
    rw [e1, e2, sortIds_congr (List.Perm.swap _ _ _)]
    have s1 : sortIds [bundleId (.dtn "a" "") 1 1, bundleId (.dtn "a" "") 2 2] =
        [bundleId (.dtn "a" "") 1 1, bundleId (.dtn "a" "") 2 2] :=
      List.mergeSort_of_pairwise (by decide +kernel)
    have s2 : sortIds [bundleId (.dtn "a" "-1-1dtn://a/") 2 2] = [bundleId (.dtn "a" "-1-1dtn://a/") 2 2] :=
      List.mergeSort_singleton _
    rw [s1, s2]
    decide +kernel
  · exact ⟨5, _, List.mem_cons_self, rfl⟩
  · rintro ⟨now, b, h, e⟩
    simp only [List.mem_singleton, MemStore.Op.push.injEq] at h
    obtain ⟨_, rfl⟩ := h
    revert e; decide

/-- The digest of the bundles selected by an address depends on the order in which the store lists them: two nodes holding
the same two bundles hash different texts. -/
theorem C56_filtered_digest_violated : ∃ ops ops' : List MemStore.Op,
    (∀ bid, (MemStore.new.run ops).getBundle bid = (MemStore.new.run ops').getBundle bid) ∧
    filteredText "dtn://a/" (MemStore.new.run ops).packs ≠ filteredText "dtn://a/" (MemStore.new.run ops').packs := by
  refine ⟨[.push 5 (exIdBundle (.dtn "a" "") 1 1), .push 6 (exIdBundle (.dtn "a" "") 2 2)],
    [.push 6 (exIdBundle (.dtn "a" "") 2 2), .push 5 (exIdBundle (.dtn "a" "") 1 1)], ?_, ?_⟩
  · intro bid
    have hne : bundleId (.dtn "a" "") 1 1 ≠ bundleId (.dtn "a" "") 2 2 := by decide +kernel
    show (MemStore.push 6 (MemStore.push 5 _ _) _).getBundle bid = (MemStore.push 5 (MemStore.push 6 _ _) _).getBundle bid
    simp only [MemStore.getBundle_push]
    by_cases h1 : bid = (exIdBundle (.dtn "a" "") 1 1).id
    · subst h1
      rw [if_neg (show ¬ (exIdBundle (.dtn "a" "") 1 1).id = (exIdBundle (.dtn "a" "") 2 2).id from hne), if_pos rfl, if_pos rfl]
    · rw [if_neg h1, if_neg h1]
  · decide +kernel

end Dtn.Props
