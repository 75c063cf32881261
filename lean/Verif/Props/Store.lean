import Verif.Lemmas.MemStore
import Verif.Lemmas.SledStore
import Verif.Model.Sneakers
/-!
Properties C01-C08 and C11: bundle stores.
-/

namespace Dtn.Props
open Spec

/-! Concrete objects used to show that hypotheses are met. -/

/-- A bundle with the given id, for examples. -/
def exBundle (bid : String) : Bundle :=
  { primary := { bid := bid, source := .dtn "a" "x", destination := .dtn "b" "y",
                 reportTo := .dtn "a" "x", creationTime := 1000, lifetime := 60000 }
    canonicals := [{ btype := 1, num := 1, data := .data [1, 2, 3] }] }

/-- A short but non-trivial history: two pushes, a metadata update, a removal. -/
def exOps : List MemStore.Op :=
  [.push 5 (exBundle "a-1"), .push 6 (exBundle "a-2"),
   .update ((Pack.ofBundle 5 (exBundle "a-1")).add .forwardPending), .remove "a-2"]

/-! ## C01 -/

/-- C01: after any history of calls the in-memory store answers like the map
"last bundle pushed under this id and not removed since". -/
theorem C01_mem_store_is_map (ops : List MemStore.Op) :
    let s := MemStore.new.run ops
    (∀ bid, s.getBundle bid = available bid ops.reverse) ∧
    (∀ bid, s.hasItem bid = (available bid ops.reverse).isSome) ∧
    Enumerates s.allIds (fun bid => available bid ops.reverse ≠ none) ∧
    s.count = s.allIds.length := by
  have key : ∀ bid, (MemStore.new.run ops).getBundle bid = available bid ops.reverse := by
    intro bid
    suffices H : ∀ l : List MemStore.Op,
        (MemStore.new.run l.reverse).getBundle bid = available bid l by
      simpa using H ops.reverse
    intro l
    induction l with
    | nil => rfl
    | cons op l ih =>
      have inv : MemStore.Inv (MemStore.new.run l.reverse) := MemStore.Inv.new.run _
      rw [List.reverse_cons, MemStore.run_snoc]
      cases op with
      | push now b =>
        show (MemStore.push now _ b).getBundle bid = _
        rw [MemStore.getBundle_push, ih]
        by_cases h : bid = b.id
        · simp [available, h]
        · simp [available, h, Ne.symm h]
      | update bp =>
        show (MemStore.updateMetadata _ bp).1.getBundle bid = _
        rw [MemStore.getBundle_update, ih]; rfl
      | remove j =>
        show (MemStore.remove _ j).1.getBundle bid = _
        rw [MemStore.getBundle_remove inv, ih]
        by_cases h : bid = j
        · simp [available, h]
        · simp [available, h, Ne.symm h]
  have inv : MemStore.Inv (MemStore.new.run ops) := MemStore.Inv.new.run _
  refine ⟨key, ?_, ⟨inv.wfB, ?_⟩, ?_⟩
  · intro bid
    have := MemStore.hasItem_iff (MemStore.new.run ops) bid
    rw [key] at this
    cases h : available bid ops.reverse <;> simp_all
  · intro bid; rw [MemStore.mem_allIds_iff, key]
  · simp [MemStore.count, MemStore.allIds, AList.length_keys]

example : (MemStore.new.run exOps).getBundle "a-1" = some (exBundle "a-1") ∧
    (MemStore.new.run exOps).getBundle "a-2" = none ∧ (MemStore.new.run exOps).count = 1 := by decide

/-! ## C02 -/

/-- C02: in every reachable state each available bundle has metadata, and metadata found
under an id carries that id. -/
theorem C02_stored_has_metadata (ops : List MemStore.Op) (bid : String) :
    let s := MemStore.new.run ops
    (bid ∈ s.allIds → ∃ p, s.getMetadata bid = some p ∧ p.id = bid) ∧
    (∀ p, s.getMetadata bid = some p → p.id = bid) := by
  have inv : MemStore.Inv (MemStore.new.run ops) := MemStore.Inv.new.run _
  refine ⟨fun h => ?_, fun p hp => inv.metaId _ _ hp⟩
  rw [MemStore.mem_allIds_iff] at h
  cases hb : (MemStore.new.run ops).getBundle bid with
  | none => exact absurd hb h
  | some b =>
    obtain ⟨p, hp⟩ := inv.hasMeta _ _ hb
    exact ⟨p, hp, inv.metaId _ _ hp⟩

example : "a-1" ∈ (MemStore.new.run exOps).allIds := by decide

/-- C02: metadata, once present, is present after every further history. -/
theorem C02_metadata_never_forgotten (ops more : List MemStore.Op) (bid : String)
    (h : (MemStore.new.run ops).getMetadata bid ≠ none) :
    (MemStore.new.run (ops ++ more)).getMetadata bid ≠ none := by
  have : MemStore.new.run (ops ++ more) = (MemStore.new.run ops).run more := by
    simp [MemStore.run, List.foldl_append]
  rw [this]
  have inv : MemStore.Inv (MemStore.new.run ops) := MemStore.Inv.new.run _
  clear this
  generalize MemStore.new.run ops = s at *
  induction more generalizing s with
  | nil => exact h
  | cons op more ih =>
    refine ih (s.step op) ?_ (inv.step op)
    cases op with
    | push now b =>
      show (MemStore.push now s b).getMetadata bid ≠ none
      rw [MemStore.getMetadata_push]; split <;> simp [h]
    | update bp =>
      show (MemStore.updateMetadata s bp).1.getMetadata bid ≠ none
      rw [MemStore.getMetadata_update]; split <;> simp [h]
    | remove j =>
      show (MemStore.remove s j).1.getMetadata bid ≠ none
      rw [MemStore.getMetadata_remove inv]
      split
      · rename_i hj; subst hj; simpa using h
      · exact h

example : (MemStore.new.run exOps).getMetadata "a-2" ≠ none := by decide

/-! ## C03 -/

/-- C03: what a removal does, in every reachable state. It succeeds exactly if the bundle is
available; afterwards the bundle is gone, its metadata holds exactly `Deleted` plus
`LocalEndpoint` if that was set, and nothing else of the metadata or any other id changed. -/
theorem C03_remove_leaves_tombstone (ops : List MemStore.Op) (bid : String) :
    let s := MemStore.new.run ops
    let s' := (s.remove bid).1
    ((s.remove bid).2 = true ↔ s.getBundle bid ≠ none) ∧
    s'.getBundle bid = none ∧
    (∀ p, s.getMetadata bid = some p → ∃ q, s'.getMetadata bid = some q ∧
        q.has .deleted = true ∧ q.has .localEndpoint = p.has .localEndpoint ∧
        (∀ c, c ≠ .deleted → c ≠ .localEndpoint → q.has c = false) ∧
        { q with constraints := p.constraints } = p) ∧
    (∀ j, j ≠ bid → s'.getBundle j = s.getBundle j ∧ s'.getMetadata j = s.getMetadata j) := by
  have inv : MemStore.Inv (MemStore.new.run ops) := MemStore.Inv.new.run _
  refine ⟨MemStore.remove_ok inv bid, by simp [MemStore.getBundle_remove inv], ?_, ?_⟩
  · intro p hp
    refine ⟨MemStore.tomb p, by simp [MemStore.getMetadata_remove inv, hp], ?_, ?_, ?_, ?_⟩
    · simp [MemStore.tomb, Pack.has_add]
    · simp [MemStore.tomb, Pack.has_add, Pack.has_clear]
    · intro c h1 h2; simp [MemStore.tomb, Pack.has_add, Pack.has_clear, h1, h2]
    · simp only [MemStore.tomb, Pack.add, Pack.clear]; split <;> rfl
  · intro j hj
    simp [MemStore.getBundle_remove inv, MemStore.getMetadata_remove inv, hj]

example : (MemStore.new.run exOps).getMetadata "a-1" ≠ none ∧
    (MemStore.new.run exOps).getBundle "a-1" ≠ none := by decide

/-! ## C04 -/

/-- C04 for the sled store: once a stored bundle was removed, no further history of calls
and crashes makes a bundle with its id available again, and every push of one reports an error. -/
theorem C04_sled_no_resubmission (before after_ : List SledStore.Event) (bid : String)
    (h : (SledStore.new.run before).hasItem bid = true) :
    let s := SledStore.new.run (before ++ [.call (.remove bid)] ++ after_)
    s.hasItem bid = false ∧ ∀ now b, b.id = bid → (s.addIfUnknown now b) = (s, .err) := by
  have inv : SledStore.Inv (SledStore.new.run before) := SledStore.Inv.new.run _
  obtain ⟨b0, hb0⟩ := (AList.contains_iff _ _).mp h
  obtain ⟨m, hm⟩ := inv.hasMeta _ _ hb0
  have hstep : (SledStore.new.run before).step (.remove bid) =
      { bundles := AList.erase (SledStore.new.run before).bundles bid
        metadata := AList.insert (SledStore.new.run before).metadata m.id (m.clear.add .deleted) } := by
    simp [SledStore.step, SledStore.writes, SledStore.removeW, SledStore.getMetadata, hm,
      SledStore.applyAll, SledStore.apply]
  have hmid := inv.metaId _ _ hm
  have h1 := SledStore.lost_run (inv.step (.remove bid)) (bid := bid)
    (by rw [hstep]; exact AList.get?_erase_self _ _)
    (by rw [hstep, hmid]; simp) after_
  have hrun : SledStore.new.run (before ++ [.call (.remove bid)] ++ after_) =
      ((SledStore.new.run before).step (.remove bid)).run after_ := by
    simp [SledStore.run, List.foldl_append, SledStore.event]
  intro s
  have hs : s = ((SledStore.new.run before).step (.remove bid)).run after_ := hrun
  rw [← hs] at h1
  have hno : s.hasItem bid = false := by simp [SledStore.hasItem, AList.contains, h1.1]
  refine ⟨hno, ?_⟩
  intro now b hb
  subst hb
  have hk : AList.contains s.metadata b.id = true := by
    unfold AList.contains; exact Option.isSome_iff_ne_none.mpr h1.2
  have hk2 : AList.contains s.bundles b.id = false := hno
  simp [SledStore.addIfUnknown, hno, SledStore.pushW, hk, hk2]

example : (SledStore.new.run [.call (.push 5 (exBundle "a-1"))]).hasItem "a-1" = true := by decide

/-- C04 is false for the in-memory store: in every reachable state, a removed bundle is accepted
again by `store_add_bundle_if_unknown`, is available again and its `Deleted` mark is gone. -/
theorem C04_mem_resubmission_violated (ops : List MemStore.Op) (now : Nat) (b : Bundle) :
    let s := ((MemStore.new.run ops).remove b.id).1
    let r := s.addIfUnknown now b
    r.2 = true ∧ r.1.getBundle b.id = some b ∧
      ∃ p, r.1.getMetadata b.id = some p ∧ p.has .deleted = false := by
  have inv : MemStore.Inv (MemStore.new.run ops) := MemStore.Inv.new.run _
  intro s r
  have hb : s.getBundle b.id = none := by simp [s, MemStore.getBundle_remove inv]
  have hi : s.hasItem b.id = false := by
    rw [← Bool.not_eq_true, MemStore.hasItem_iff]; simp [hb]
  have hr : r = (s.push now b, true) := by simp [r, MemStore.addIfUnknown, hi]
  rw [hr]
  refine ⟨rfl, by simp [MemStore.getBundle_push], Pack.ofBundle now b, ?_, by simp⟩
  simp [MemStore.getMetadata_push, hb]

/-! ## C05 -/

/-- The abstract view of a sled database content. -/
def sledView (s : SledStore) : TombView :=
  ⟨fun j => AList.get? s.bundles j, fun j => (AList.get? s.metadata j).isSome⟩

/-- C05 (all but lookups of absent ids, see `C05_sled_lookup_violated`): in every state
reachable by calls and crashes the sled store's operations act on the abstract view
like a map with tombstones, and the queries agree with the view. -/
theorem C05_sled_is_map_with_tombstones_partial (es : List SledStore.Event) :
    let s := SledStore.new.run es
    let v := sledView s
    (∀ now b, sledView (s.step (.push now b)) = (v.push b).1 ∧
        ((∃ ws, s.writes (.push now b) = .ok ws) ↔ (v.push b).2 = true)) ∧
    (∀ bid, v.known bid = true → sledView (s.step (.remove bid)) = v.remove bid) ∧
    (∀ bp, sledView (s.step (.update bp)) = v) ∧
    (∀ bid b, v.avail bid = some b → s.getBundle bid = .ok (some b)) ∧
    (∀ bid, s.hasItem bid = (v.avail bid).isSome) ∧
    Enumerates s.allIds (fun bid => v.avail bid ≠ none) ∧ s.count = s.allIds.length := by
  intro s v
  have inv : SledStore.Inv s := SledStore.Inv.new.run _
  refine ⟨?_, ?_, ?_, ?_, fun _ => rfl, ⟨inv.wfB, ?_⟩, ?_⟩
  · intro now b
    by_cases hb : AList.get? s.bundles b.id = none
    · by_cases hm : AList.get? s.metadata b.id = none
      · have hw : s.writes (.push now b) = .ok [.meta_ (Pack.ofBundle now b), .bundle b] := by
          simp [SledStore.writes, SledStore.pushW, AList.contains, hb, hm]
        refine ⟨?_, ?_⟩
        · simp only [SledStore.step, hw, SledStore.applyAll, List.foldl, SledStore.apply, sledView,
            TombView.push, v, hb, hm]
          simp only [AList.get?_insert, Pack.id_ofBundle, Option.isSome_none, Bool.not_false,
            Bool.or_true, if_true, TombView.mk.injEq]
          refine ⟨trivial, ?_⟩
          funext j; by_cases hj : j = b.id <;> simp [hj]
        · simp [hw, TombView.push, v, sledView, hb, hm]
      · have hw : s.writes (.push now b) = .err := by
          simp [SledStore.writes, SledStore.pushW, AList.contains, hb, Option.isSome_iff_ne_none.mpr hm]
        have hm' := Option.isSome_iff_ne_none.mpr hm
        refine ⟨?_, ?_⟩
        · simp [SledStore.step, hw, TombView.push, v, sledView, hb, hm']
        · simp [hw, TombView.push, v, sledView, hb, hm']
    · have hb' := Option.isSome_iff_ne_none.mpr hb
      have hw : s.writes (.push now b) = .ok [.bundle b] := by
        simp [SledStore.writes, SledStore.pushW, AList.contains, hb']
      have hm' : (AList.get? s.metadata b.id).isSome = true := by
        obtain ⟨b0, h0⟩ := Option.isSome_iff_exists.mp hb'
        obtain ⟨p, hp⟩ := inv.hasMeta _ _ h0
        simp [hp]
      refine ⟨?_, ?_⟩
      · simp only [SledStore.step, hw, SledStore.applyAll, List.foldl, SledStore.apply, sledView,
          TombView.push, v, hb']
        simp only [AList.get?_insert, Bool.true_or, if_true, TombView.mk.injEq, true_and]
        funext j; by_cases hj : j = b.id <;> simp [hj, hm']
      · simp [hw, TombView.push, v, sledView, hb']
  · intro bid hk
    have hk' : (AList.get? s.metadata bid).isSome = true := hk
    obtain ⟨m, hm⟩ := Option.isSome_iff_exists.mp hk'
    have hid := inv.metaId _ _ hm
    have hw : s.writes (.remove bid) = .ok [.meta_ (m.clear.add .deleted), .dropBundle bid] := by
      simp [SledStore.writes, SledStore.removeW, SledStore.getMetadata, hm]
    simp only [SledStore.step, hw, SledStore.applyAll, List.foldl, SledStore.apply, sledView,
      TombView.remove, v, AList.get?_erase, AList.get?_insert, TombView.mk.injEq, true_and]
    funext j; by_cases hj : j = bid <;> simp [hj, hid, hm]
  · intro bp
    by_cases hm : AList.get? s.metadata bp.id = none
    · simp [SledStore.step, SledStore.writes, SledStore.updateW, AList.contains, hm, v]
    · have hm' := Option.isSome_iff_ne_none.mpr hm
      simp only [SledStore.step, SledStore.writes, SledStore.updateW, AList.contains, hm', if_true,
        SledStore.applyAll, List.foldl, SledStore.apply, sledView, v, AList.get?_insert,
        TombView.mk.injEq, true_and]
      funext j; by_cases hj : j = bp.id <;> simp [hj, hm']
  · intro bid b hb
    have : AList.get? s.bundles bid = some b := hb
    simp [SledStore.getBundle, this]
  · intro bid
    show bid ∈ AList.keys s.bundles ↔ AList.get? s.bundles bid ≠ none
    rw [AList.mem_keys_iff]; cases AList.get? s.bundles bid <;> simp
  · simp [SledStore.count, SledStore.allIds, AList.length_keys]

example : (sledView (SledStore.new.run [.call (.push 5 (exBundle "a-1")),
    .call (.push 6 (exBundle "a-2")), .call (.remove "a-1")])).known "a-1" = true := by decide

/-- C05 is false for lookups: for every id that is not stored, in every state, `get_bundle`
panics instead of returning `None`; likewise `get_metadata` and `remove` for unknown ids. -/
theorem C05_sled_lookup_violated (s : SledStore) (bid : String) :
    (s.hasItem bid = false → s.getBundle bid = .panic) ∧
    ((∀ p, AList.get? s.metadata bid ≠ some p) →
      s.getMetadata bid = .panic ∧ s.writes (.remove bid) = .panic) := by
  constructor
  · intro h
    unfold SledStore.getBundle
    cases hb : AList.get? s.bundles bid with
    | none => rfl
    | some b => simp [SledStore.hasItem, AList.contains, hb] at h
  · intro h
    have hn : AList.get? s.metadata bid = none := by
      cases hm : AList.get? s.metadata bid with
      | none => rfl
      | some p => exact absurd hm (h p)
    simp [SledStore.writes, SledStore.removeW, SledStore.getMetadata, hn]

example : SledStore.new.hasItem "a-1" = false := by decide

/-! ## C06 -/

/-- C06, first half: after any history of calls and crashes at any write, no bundle is stored
without metadata. -/
theorem C06_sled_crash_consistent_partial (es : List SledStore.Event) (bid : String)
    (h : (SledStore.new.run es).hasItem bid = true) :
    ∃ p, AList.get? (SledStore.new.run es).metadata bid = some p ∧ p.id = bid := by
  have inv : SledStore.Inv (SledStore.new.run es) := SledStore.Inv.new.run _
  obtain ⟨b, hb⟩ := (AList.contains_iff _ _).mp h
  obtain ⟨p, hp⟩ := inv.hasMeta _ _ hb
  exact ⟨p, hp, inv.metaId _ _ hp⟩

example : (SledStore.new.run [.call (.push 5 (exBundle "a-1")), .crash (.push 6 (exBundle "a-2")) 1,
    .crash (.remove "a-1") 1]).hasItem "a-1" = true := by decide

/-- C06, second half, is false: a crash after the first write of the push of a new bundle loses
that bundle for good; no later history of calls and crashes makes it available. -/
theorem C06_sled_interrupted_push_violated (before after_ : List SledStore.Event) (now : Nat) (b : Bundle)
    (hnew : AList.get? (SledStore.new.run before).metadata b.id = none) :
    let s := SledStore.new.run (before ++ [.crash (.push now b) 1] ++ after_)
    s.hasItem b.id = false ∧ ∀ now', (s.addIfUnknown now' b).2 = .err := by
  have inv : SledStore.Inv (SledStore.new.run before) := SledStore.Inv.new.run _
  have hb : AList.get? (SledStore.new.run before).bundles b.id = none := by
    cases hb : AList.get? (SledStore.new.run before).bundles b.id with
    | none => rfl
    | some x => obtain ⟨p, hp⟩ := inv.hasMeta _ _ hb; simp [hnew] at hp
  have hc : (SledStore.new.run before).crashStep (.push now b) 1 =
      (SledStore.new.run before).apply (.meta_ (Pack.ofBundle now b)) := by
    simp [SledStore.crashStep, SledStore.writes, SledStore.pushW, AList.contains, hb, hnew,
      SledStore.applyAll]
  have h1 := SledStore.lost_run (inv.crash (.push now b) 1) (bid := b.id)
    (by rw [hc]; exact hb) (by rw [hc]; simp [SledStore.apply]) after_
  intro s
  have hs : s = ((SledStore.new.run before).crashStep (.push now b) 1).run after_ := by
    simp [s, SledStore.run, List.foldl_append, SledStore.event]
  rw [← hs] at h1
  have hno : s.hasItem b.id = false := by simp [SledStore.hasItem, AList.contains, h1.1]
  refine ⟨hno, fun now' => ?_⟩
  have hk : AList.contains s.metadata b.id = true := by
    unfold AList.contains; exact Option.isSome_iff_ne_none.mpr h1.2
  have hk2 : AList.contains s.bundles b.id = false := hno
  simp [SledStore.addIfUnknown, hno, SledStore.pushW, hk, hk2]

example : AList.get? (SledStore.new.run [.call (.push 5 (exBundle "a-1"))]).metadata "a-2" = none := by
  decide

/-! ## C07 -/

/-- C07: converting a constraint set to database flags and back loses nothing. -/
theorem C07_constraint_bits_round_trip (s : CSet) : Sneakers.toSet (Sneakers.toBits s) = s := by
  obtain ⟨a, b, c, d, e, f⟩ := s
  revert a b c d e f
  decide

/-- C07: different constraint sets have different flags. -/
theorem C07_constraint_bits_injective (s t : CSet) (h : Sneakers.toBits s = Sneakers.toBits t) : s = t := by
  rw [← C07_constraint_bits_round_trip s, h, C07_constraint_bits_round_trip t]

example : Sneakers.toBits { forwardPending := true, localEndpoint := true } = 18#8 := by decide

/-! ## C08 -/

/-- C08: the effect of `BundlePack::sync` in every reachable state. -/
theorem C08_sync_deletes_or_persists (ops : List MemStore.Op) (bp : Pack) :
    let s := MemStore.new.run ops
    let s' := (s.sync bp).1
    ((∀ c, bp.has c = false) → s'.getBundle bp.id = none ∧
        ((s.sync bp).2 = true ↔ s.getBundle bp.id ≠ none)) ∧
    ((∃ c, bp.has c = true) → (∀ j, s'.getBundle j = s.getBundle j) ∧
        ((s.sync bp).2 = true ↔ s.getMetadata bp.id ≠ none) ∧
        (s.getMetadata bp.id ≠ none → s'.getMetadata bp.id = some bp) ∧
        (s.getMetadata bp.id = none → s' = s)) ∧
    (∀ j, j ≠ bp.id → s'.getBundle j = s.getBundle j ∧ s'.getMetadata j = s.getMetadata j) := by
  intro s s'
  have inv : MemStore.Inv s := MemStore.Inv.new.run _
  refine ⟨?_, ?_, ?_⟩
  · intro h
    have hn : bp.hasAny = false := by
      rw [← Bool.not_eq_true, Pack.hasAny_iff]; simp [h]
    simp only [s', MemStore.sync, hn, Bool.not_false, if_true]
    exact ⟨by simp [MemStore.getBundle_remove inv], MemStore.remove_ok inv _⟩
  · intro h
    have hn : bp.hasAny = true := (Pack.hasAny_iff bp).mpr h
    simp only [s', MemStore.sync, hn, Bool.not_true, Bool.false_eq_true, if_false]
    refine ⟨fun j => MemStore.getBundle_update _ _ _, MemStore.update_ok _ _, ?_, ?_⟩
    · intro hm; simp [MemStore.getMetadata_update, hm]
    · intro hm
      have : AList.contains s.metadata bp.id = false := by
        unfold AList.contains
        have : AList.get? s.metadata bp.id = none := hm
        simp [this]
      simp [MemStore.updateMetadata, this]
  · intro j hj
    cases hn : bp.hasAny
    · simp [s', MemStore.sync, hn, MemStore.getBundle_remove inv, MemStore.getMetadata_remove inv, hj]
    · simp [s', MemStore.sync, hn, MemStore.getBundle_update, MemStore.getMetadata_update, hj]

example : (∃ c, ((Pack.ofBundle 5 (exBundle "a-1")).add .forwardPending).has c = true) ∧
    (MemStore.new.run exOps).getMetadata "a-1" ≠ none ∧
    (∀ c, (Pack.ofBundle 5 (exBundle "a-1")).has c = false) :=
  ⟨⟨.forwardPending, by decide⟩, by decide, by simp⟩

end Dtn.Props
