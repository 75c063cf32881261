import Verif.Spec.Bundle
import Verif.Lemmas.Listing
import Verif.Props.Store
import Verif.Props.TcpclSession
/-!
Properties C63, C64 and C66: store listings, adding unknown bundles, refusing known bundles.
-/

namespace Dtn.Props
open Spec

/-! ## C63 -/

/-- C63, in-memory store: after any history, `filter` lists every id whose metadata has all the given constraints, once;
`forwarding` those waiting to be forwarded; `pending` those to be forwarded or contraindicated that do not wait for
reassembly; and the list of all packs is the metadata of all ids. -/
theorem C63_mem_listings (ops : List MemStore.Op) (criteria : List Constraint) :
    let s := MemStore.new.run ops
    Enumerates (s.filter criteria) (fun bid => ∃ p, s.getMetadata bid = some p ∧ ∀ c ∈ criteria, p.has c = true) ∧
    Enumerates s.forwarding (fun bid => ∃ p, s.getMetadata bid = some p ∧ p.has .forwardPending = true) ∧
    Enumerates s.pending (fun bid => ∃ p, s.getMetadata bid = some p ∧ p.has .reassemblyPending = false ∧
      (p.has .forwardPending = true ∨ p.has .contraindicated = true)) ∧
    (s.packs.map Pack.id).Nodup ∧ ∀ p, p ∈ s.packs ↔ s.getMetadata p.id = some p := by
  intro s
  have inv : MemStore.Inv s := MemStore.Inv.new.run _
  have key := enumerates_filter inv.wfM inv.metaId
  refine ⟨?_, ?_, ?_, ?_, ?_⟩
  · have := key (fun e => criteria.all fun c => e.has c)
    simpa only [MemStore.filter, MemStore.getMetadata, List.all_eq_true] using this
  · have := key (fun e => [Constraint.forwardPending].all fun c => e.has c)
    simpa only [MemStore.forwarding, MemStore.filter, MemStore.getMetadata, List.all_cons, List.all_nil, Bool.and_true] using this
  · have := key (fun e => !e.has .reassemblyPending && (e.has .forwardPending || e.has .contraindicated))
    simpa only [MemStore.pending, MemStore.getMetadata, Bool.and_eq_true, Bool.or_eq_true, Bool.not_eq_true'] using this
  · show ((AList.values s.metadata).map Pack.id).Nodup
    rw [map_id_values inv.wfM inv.metaId]; exact inv.wfM
  · intro p
    show p ∈ AList.values s.metadata ↔ _
    rw [inv.wfM.mem_values_iff]
    constructor
    · rintro ⟨k, hk⟩; rw [inv.metaId k p hk]; exact hk
    · intro h; exact ⟨_, h⟩

/-- C63, sled store, after any history of calls and crashes. -/
theorem C63_sled_listings (es : List SledStore.Event) (criteria : List Constraint) :
    let s := SledStore.new.run es
    Enumerates (s.filter criteria)
      (fun bid => ∃ p, s.getMetadata bid = .ok (some p) ∧ ∀ c ∈ criteria, p.has c = true) ∧
    Enumerates s.forwarding (fun bid => ∃ p, s.getMetadata bid = .ok (some p) ∧ p.has .forwardPending = true) ∧
    Enumerates s.pending (fun bid => ∃ p, s.getMetadata bid = .ok (some p) ∧ p.has .reassemblyPending = false ∧
      (p.has .forwardPending = true ∨ p.has .contraindicated = true)) ∧
    (s.packs.map Pack.id).Nodup ∧ ∀ p, p ∈ s.packs ↔ s.getMetadata p.id = .ok (some p) := by
  intro s
  have inv : SledStore.Inv s := SledStore.Inv.new.run _
  have key := enumerates_filter inv.wfM inv.metaId
  simp only [SledStore.getMetadata_ok]
  refine ⟨?_, ?_, ?_, ?_, ?_⟩
  · have := key (fun e => criteria.all fun c => e.has c)
    simpa only [SledStore.filter, List.all_eq_true] using this
  · have := key (fun e => [Constraint.forwardPending].all fun c => e.has c)
    simpa only [SledStore.forwarding, SledStore.filter, List.all_cons, List.all_nil, Bool.and_true] using this
  · have := key (fun e => !e.has .reassemblyPending && (e.has .forwardPending || e.has .contraindicated))
    simpa only [SledStore.pending, Bool.and_eq_true, Bool.or_eq_true, Bool.not_eq_true'] using this
  · show ((AList.values s.metadata).map Pack.id).Nodup
    rw [map_id_values inv.wfM inv.metaId]; exact inv.wfM
  · intro p
    show p ∈ AList.values s.metadata ↔ _
    rw [inv.wfM.mem_values_iff]
    constructor
    · rintro ⟨k, hk⟩; rw [inv.metaId k p hk]; exact hk
    · intro h; exact ⟨_, h⟩

/-- Two bundles, one waiting to be forwarded, one for reassembly. -/
def exListing : List MemStore.Op :=
  [.push 5 (exBundle "a-1"), .push 6 (exBundle "a-2"), .push 7 (exBundle "a-3"),
   .update ((Pack.ofBundle 5 (exBundle "a-1")).add .forwardPending),
   .update (((Pack.ofBundle 6 (exBundle "a-2")).add .forwardPending).add .reassemblyPending)]

example : (MemStore.new.run exListing).forwarding = ["a-2", "a-1"] ∧ (MemStore.new.run exListing).pending = ["a-1"] ∧
    (MemStore.new.run exListing).filter [] = ["a-2", "a-1", "a-3"] := by decide

example : (SledStore.new.run [.call (.push 5 (exBundle "a-1")),
    .call (.update ((Pack.ofBundle 5 (exBundle "a-1")).add .contraindicated)),
    .crash (.push 6 (exBundle "a-2")) 1]).pending = ["a-1"] := by decide

/-! ## C64 -/

/-- C64, in-memory store: after any history, adding a bundle if it is unknown answers `true` exactly if no bundle with
this id is available. If it answers `true` the bundle is available afterwards and nothing else changed; if it answers
`false` nothing changed at all, in particular the stored bundle and its metadata are still the old ones. -/
theorem C64_mem_add_if_unknown (ops : List MemStore.Op) (now : Nat) (b : Bundle) :
    let s := MemStore.new.run ops
    let r := s.addIfUnknown now b
    (r.2 = true ↔ available b.id ops.reverse = none) ∧
    (r.2 = true → r.1.getBundle b.id = some b ∧ r.1.getMetadata b.id = some (newRecord now b) ∧
      ∀ j, j ≠ b.id → r.1.getBundle j = s.getBundle j ∧ r.1.getMetadata j = s.getMetadata j) ∧
    (r.2 = false → r.1 = s) := by
  intro s r
  have hitem : s.hasItem b.id = (available b.id ops.reverse).isSome := (C01_mem_store_is_map ops).2.1 b.id
  have hget : s.getBundle b.id = available b.id ops.reverse := (C01_mem_store_is_map ops).1 b.id
  have hr : r = if !s.hasItem b.id then (s.push now b, true) else (s, false) := rfl
  cases ha : available b.id ops.reverse with
  | none =>
    rw [ha] at hitem hget
    simp only [hitem, Option.isSome_none, Bool.not_false, if_true] at hr
    rw [hr]
    refine ⟨by simp, fun _ => ⟨by simp [MemStore.getBundle_push], by simp [MemStore.getMetadata_push, hget]; rfl, ?_⟩, by simp⟩
    intro j hj
    simp [MemStore.getBundle_push, MemStore.getMetadata_push, hj]
  | some b0 =>
    rw [ha] at hitem
    simp only [hitem, Option.isSome_some, Bool.not_true, Bool.false_eq_true, if_false] at hr
    rw [hr]
    simp

/-- C64, sled store: the same after any history with crashes, for ids that were never known. Missing: ids that are known
but not available, because the bundle was removed before; these are answered with an error and nothing is stored, see
`C64_sled_removed_violated`. -/
theorem C64_sled_add_if_unknown_partial (es : List SledStore.Event) (now : Nat) (b : Bundle) :
    let s := SledStore.new.run es
    let r := s.addIfUnknown now b
    (r.2 = .ok true ↔ s.getBundle b.id = .panic ∧ s.getMetadata b.id = .panic) ∧
    (r.2 = .ok true → r.1.getBundle b.id = .ok (some b) ∧ r.1.getMetadata b.id = .ok (some (newRecord now b)) ∧
      ∀ j, j ≠ b.id → r.1.getBundle j = s.getBundle j ∧ r.1.getMetadata j = s.getMetadata j) ∧
    (r.2 = .ok false ↔ ∃ b0, s.getBundle b.id = .ok (some b0)) ∧ (r.2 ≠ .ok true → r.1 = s) := by
  intro s r
  have inv : SledStore.Inv s := SledStore.Inv.new.run _
  have hr : r = s.addIfUnknown now b := rfl
  unfold SledStore.addIfUnknown SledStore.pushW SledStore.hasItem at hr
  unfold SledStore.getBundle SledStore.getMetadata
  cases hb : AList.get? s.bundles b.id with
  | some b0 =>
    simp only [AList.contains, hb, Option.isSome_some, Bool.not_true, Bool.false_eq_true, if_false] at hr
    rw [hr]; simp
  | none =>
    cases hm : AList.get? s.metadata b.id with
    | some p =>
      simp only [AList.contains, hb, hm, Option.isSome_none, Option.isSome_some, Bool.not_false, if_true,
        Bool.false_eq_true, if_false] at hr
      rw [hr]; simp
    | none =>
      simp only [AList.contains, hb, hm, Option.isSome_none, Bool.not_false, if_true,
        Bool.false_eq_true, if_false] at hr
      rw [hr]
      simp only [SledStore.applyAll, List.foldl_cons, List.foldl_nil, SledStore.apply, AList.get?_insert_self,
        Pack.id_ofBundle]
      refine ⟨by simp, fun _ => ⟨trivial, rfl, ?_⟩, by simp, by simp⟩
      intro j hj
      rw [AList.get?_insert_of_ne _ _ hj, AList.get?_insert_of_ne _ _ hj]
      exact ⟨rfl, rfl⟩

/-- C64 is false for the sled store: once a bundle was removed (or a crash left only its metadata), adding it again is
answered with an error instead of `true` although no bundle with this id is available, and it is not stored. -/
theorem C64_sled_removed_violated (es : List SledStore.Event) (now : Nat) (b : Bundle) (p : Pack)
    (hm : (SledStore.new.run es).getMetadata b.id = .ok (some p)) (hb : (SledStore.new.run es).getBundle b.id = .panic) :
    ((SledStore.new.run es).addIfUnknown now b).2 = .err ∧
    ((SledStore.new.run es).addIfUnknown now b).1.getBundle b.id = .panic := by
  have hs := C64_sled_add_if_unknown_partial es now b
  obtain ⟨h1, -, h3, h4⟩ := hs
  have hne : ((SledStore.new.run es).addIfUnknown now b).2 ≠ .ok true := by
    intro h; have := (h1.1 h).2; rw [hm] at this; cases this
  have hnf : ((SledStore.new.run es).addIfUnknown now b).2 ≠ .ok false := by
    intro h; obtain ⟨b0, h0⟩ := h3.1 h; rw [hb] at h0; cases h0
  refine ⟨?_, by rw [h4 hne]; exact hb⟩
  generalize SledStore.new.run es = s at *
  unfold SledStore.addIfUnknown at hne hnf ⊢
  split
  · rename_i hi
    simp only [hi, if_true] at hne hnf
    unfold SledStore.pushW at hne hnf ⊢
    split
    · rename_i hw; split at hw <;> try split at hw
      all_goals simp_all
    · rfl
    · rename_i hw; split at hw <;> try split at hw
      all_goals simp_all
  · rename_i hi
    simp only [hi] at hnf
    exact absurd rfl hnf

/-- The same id with different contents: the stored bundle stays. -/
example : ((MemStore.new.run exOps).addIfUnknown 9 { exBundle "a-1" with canonicals := [] }).2 = false ∧
    ((MemStore.new.run exOps).addIfUnknown 9 { exBundle "a-1" with canonicals := [] }).1.getBundle "a-1" =
      some (exBundle "a-1") ∧
    ((MemStore.new.run exOps).addIfUnknown 9 (exBundle "a-7")).2 = true := by decide

example : (SledStore.new.run [.call (.push 5 (exBundle "a-1")), .call (.remove "a-1")]).getBundle "a-1" = .panic ∧
    ∃ p, (SledStore.new.run [.call (.push 5 (exBundle "a-1")), .call (.remove "a-1")]).getMetadata "a-1" = .ok (some p) :=
  ⟨by decide, _, rfl⟩

example : ((SledStore.new.run [.call (.push 5 (exBundle "a-1")), .call (.remove "a-1")]).addIfUnknown 9 (exBundle "a-1")).2 =
    .err := by decide

/-! ## C66 -/
open Tcpcl

/-- C66: take any history of a session that is still running and between two transfers, and let a first segment arrive.
It is refused exactly if refusing known bundles is switched on and the segment names a bundle the node has at this
moment. If it is refused nothing else happens; otherwise it is acknowledged. -/
theorem C66_refuses_only_known (e : Env) (refuse : Bool) (loc remote : SessInit)
    (evs : List ((Bytes → Bool) × Sess.Ev)) (has : Bytes → Bool) (d : XferSeg) (hstart : d.flags.start = true) :
    let s := (newSess refuse loc remote).run e evs
    let s' := (newSess refuse loc remote).run e (evs ++ [(has, .recv (.xferSeg d))])
    s.isTerminated = false → s.rx = .idle →
    ((refuse = true ∧ ∃ x ∈ d.extensions, has x.data = true) →
      s'.out = s.out ++ [.xferRefuse .notAcceptable d.tid] ∧ s'.rx = .idle ∧ s'.processed = s.processed ∧
        s'.broken = s.broken) ∧
    (¬ (refuse = true ∧ ∃ x ∈ d.extensions, has x.data = true) →
      ∃ more, s'.out = s.out ++ .xferAck { tid := d.tid, len := d.len, flags := {} } :: more ∧
        (d.flags.end = false → more = [] ∧ s'.rx = .receiving d.buf d.tid)) := by
  intro s s' hlive hidle
  have href : s.refuseExisting = refuse := Sess.run_refuse e (newSess refuse loc remote) evs
  have hs' : s' = s.step { e with hasItem := has } (.recv (.xferSeg d)) := by
    show Sess.run e _ _ = _
    unfold Sess.run
    rw [List.foldl_append]
    rfl
  rw [step_recv hlive (by intro h; cases h)] at hs'
  have hguard : ((d.flags.end && !d.flags.start) || d.flags.isEmpty) = false := by
    simp [SegFlags.isEmpty, hstart]
  simp only [Sess.receive, Sess.receiveSeg, hidle, hguard, Bool.false_eq_true, if_false] at hs'
  simp only [Sess.refuses, hstart, href, Bool.true_and] at hs'
  constructor
  · rintro ⟨hr, x, hx, hh⟩
    have : (refuse && d.extensions.any fun x => has x.data) = true := by
      simp only [hr, Bool.true_and, List.any_eq_true]; exact ⟨x, hx, hh⟩
    simp only [this, if_true] at hs'
    rw [hs']
    exact ⟨rfl, hidle, rfl, rfl⟩
  · intro hno
    have : (refuse && d.extensions.any fun x => has x.data) = false := by
      rw [Bool.eq_false_iff]
      simp only [ne_eq, Bool.and_eq_true, List.any_eq_true]
      exact hno
    simp only [this, Bool.false_eq_true, if_false] at hs'
    by_cases hend : d.flags.end = true
    · simp only [hend, if_true, Sess.processBundle] at hs'
      split at hs'
      · exact ⟨[], by rw [hs']; rfl, by simp [hend]⟩
      · exact ⟨[.xferRefuse .notAcceptable d.tid], by rw [hs']; simp [Sess.send], by simp [hend]⟩
    · simp only [hend, if_false, Bool.false_eq_true] at hs'
      exact ⟨[], by rw [hs']; rfl, fun _ => ⟨rfl, by rw [hs']⟩⟩

/-- A first segment naming bundle `[5]`. -/
def exNamed : XferSeg := { flags := { start := true }, tid := 1, len := 0, buf := [], extensions := [{ critical := false, data := [5] }] }

example : ((newSess true exSessInit exSessInit).run exSessEnv [(fun b => b = [5], .recv (.xferSeg exNamed))]).out =
      [.xferRefuse .notAcceptable 1] ∧
    ((newSess false exSessInit exSessInit).run exSessEnv [(fun b => b = [5], .recv (.xferSeg exNamed))]).out =
      [.xferAck { tid := 1, len := 0, flags := {} }] ∧
    ((newSess true exSessInit exSessInit).run exSessEnv [(fun b => b = [6], .recv (.xferSeg exNamed))]).out =
      [.xferAck { tid := 1, len := 0, flags := {} }] := by decide

end Dtn.Props
