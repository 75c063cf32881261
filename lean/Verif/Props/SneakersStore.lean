import Verif.Lemmas.SneakersStore
import Verif.Lemmas.AList
/-!
Property C146: the store on directory and database (`sneakers`).
-/

namespace Dtn.Props
open Sneakers Spec Spec.SneakersSpec

/-! ## C146 -/

/-- C146: after every history of calls, whether they succeed or fail, exactly the bundle that was pushed last under an id, and not removed
since, is there; nothing is there under other ids. -/
theorem C146_kept (w : World) (parse : String → Option EID) (names : EID → Option String × Option String) (hl : Lawful w names) (s : w.σ)
    (ops : List MemStore.Op) (bid : String) :
    let r := Sneakers.run w parse s ops
    Sneakers.getBundle w r.1 bid = held (Sneakers.getBundle w s) bid r.2 ∧
      Sneakers.hasItem w r.1 bid = (held (Sneakers.getBundle w s) bid r.2).isSome := by
  intro r
  have v := Reflects.run (parse := parse) hl s ops
  exact ⟨v.bundle bid, by unfold Sneakers.hasItem; rw [hl.has, v.bundle]; rfl⟩

/-- C146, in part: a bundle that is there has metadata with its id, creation time, lifetime and the constraints last written. What is
missing are endpoints in the scheme `dtn` and the mark of administrative records, see `C146_endpoints_violated` and
`C146_administrative_violated`. -/
theorem C146_metadata_partial (w : World) (parse : String → Option EID) (names : EID → Option String × Option String) (hl : Lawful w names) (s : w.σ)
    (ops : List MemStore.Op) (bid : String) (b : Bundle) (hb : held (Sneakers.getBundle w s) bid (Sneakers.run w parse s ops).2 = some b) :
    ∃ m, Sneakers.getMetadata w parse (Sneakers.run w parse s ops).1 bid = some m ∧ m.id = bid ∧ m.id = b.id ∧
      m.creationTime = b.primary.creationTime ∧ m.lifetime = b.primary.lifetime ∧
      ∀ c, written bid (Sneakers.run w parse s ops).2 = some c → m.constraints = c := by
  have v := Reflects.run (parse := parse) hl s ops
  have hb' := (v.bundle bid).trans hb
  obtain ⟨e, c, h1, h2, h3⟩ := hl.row _ _ _ hb'
  refine ⟨_, by unfold Sneakers.getMetadata; rw [h1]; dsimp only; rw [h2], rfl, (hl.key _ _ _ hb').symm, h3.creationTime, h3.lifetime, fun c' hc => ?_⟩
  have := v.marks _ _ hc
  rw [h2] at this
  cases this
  exact toSet_toBits c'

/-- C146: nothing is told about ids that are not there. -/
theorem C146_no_metadata (w : World) (parse : String → Option EID) (names : EID → Option String × Option String) (hl : Lawful w names) (s : w.σ)
    (ops : List MemStore.Op) (bid : String) (hb : held (Sneakers.getBundle w s) bid (Sneakers.run w parse s ops).2 = none) :
    Sneakers.getMetadata w parse (Sneakers.run w parse s ops).1 bid = none := by
  have v := Reflects.run (parse := parse) hl s ops
  have hb' := (v.bundle bid).trans hb
  unfold Sneakers.getMetadata
  rw [(hl.noRow _ _ hb').1]

/-- C146: the listings are exact, in every state: all ids once, their number, the ids with certain constraints, those that wait to be forwarded
or dispatched, and the bundles with their
constraints. -/
theorem C146_listings (w : World) (parse : String → Option EID) (names : EID → Option String × Option String) (hl : Lawful w names) (s : w.σ)
    (now : Nat) (criteria : CSet) :
    Enumerates (Sneakers.allIds w s) (fun id => Sneakers.hasItem w s id = true) ∧
      Sneakers.count w s = (Sneakers.allIds w s).length ∧
      Enumerates (Sneakers.filter w s criteria)
        (fun id => ∃ m, Sneakers.getMetadata w parse s id = some m ∧ ∀ c, criteria.has c = true → m.has c = true) ∧
      Enumerates (Sneakers.forwarding w s) (fun id => ∃ m, Sneakers.getMetadata w parse s id = some m ∧ m.has .forwardPending = true) ∧
      Enumerates (Sneakers.pending w s) (fun id => ∃ m, Sneakers.getMetadata w parse s id = some m ∧ m.has .dispatchPending = true) ∧
      ∃ ps, Sneakers.packs w now s = some ps ∧ ps.map Pack.id = Sneakers.allIds w s ∧
        ∀ p ∈ ps, ∃ b m, Sneakers.getBundle w s p.id = some b ∧ Sneakers.getMetadata w parse s p.id = some m ∧
          p = { Pack.ofBundle now b with constraints := m.constraints } := by
  have some_row : ∀ id, w.has s id = true → ∃ b e c, w.bundle s id = some b ∧ w.entry s id = some e ∧ w.marks s id = some c := by
    intro id h
    rw [hl.has] at h
    obtain ⟨b, hb⟩ := Option.isSome_iff_exists.mp h
    obtain ⟨e, c, h1, h2, -⟩ := hl.row _ _ _ hb
    exact ⟨b, e, c, hb, h1, h2⟩
  have marked : ∀ id c, w.marks s id = some c → ∃ m, Sneakers.getMetadata w parse s id = some m ∧ m.constraints = toSet c := by
    intro id c hc
    have hh : w.has s id = true := by
      rw [hl.has]
      cases hb : w.bundle s id with
      | none => rw [(hl.noRow _ _ hb).2] at hc; cases hc
      | some b => rfl
    obtain ⟨b, e, c', -, h1, h2⟩ := some_row id hh
    rw [hc] at h2
    cases h2
    exact ⟨_, by unfold Sneakers.getMetadata; rw [h1]; dsimp only; rw [hc], rfl⟩
  have unmark : ∀ id m, Sneakers.getMetadata w parse s id = some m → ∃ c, w.marks s id = some c ∧ m.constraints = toSet c := by
    intro id m h
    unfold Sneakers.getMetadata at h
    split at h
    · cases h
    · split at h
      · cases h
      · rename_i c hc
        cases h
        exact ⟨c, hc, rfl⟩
  have filtered : ∀ (criteria : CSet) id, id ∈ Sneakers.filter w s criteria ↔
      ∃ m, Sneakers.getMetadata w parse s id = some m ∧ ∀ c, criteria.has c = true → m.has c = true := by
    intro criteria id
    rw [Sneakers.filter, (hl.filter s _).2 id]
    constructor
    · rintro ⟨c, h1, h2⟩
      obtain ⟨m, h3, h4⟩ := marked id c h1
      exact ⟨m, h3, fun k hk => by unfold Pack.has; rw [h4]; exact (sub_iff c criteria).mp h2 k hk⟩
    · rintro ⟨m, h3, h4⟩
      obtain ⟨c, h1, h2⟩ := unmark id m h3
      exact ⟨c, h1, (sub_iff c criteria).mpr fun k hk => by have := h4 k hk; unfold Pack.has at this; rwa [h2] at this⟩
  refine ⟨hl.ids s, hl.len s, ⟨(hl.filter s _).1, filtered criteria⟩, ⟨(hl.filter s _).1, fun id => ?_⟩, ⟨(hl.filter s _).1, fun id => ?_⟩, ?_⟩
  · rw [Sneakers.forwarding, filtered]
    refine exists_congr fun m => and_congr_right fun _ => ⟨fun h => h _ rfl, fun h k hk => ?_⟩
    cases k <;> first | exact h | (exact absurd hk (by decide))
  · rw [Sneakers.pending, (hl.filter s _).2 id]
    constructor
    · rintro ⟨c, h1, h2⟩
      obtain ⟨m, h3, h4⟩ := marked id c h1
      exact ⟨m, h3, by unfold Pack.has; rw [h4]; exact (has_iff c .dispatchPending).mpr h2⟩
    · rintro ⟨m, h3, h4⟩
      obtain ⟨c, h1, h2⟩ := unmark id m h3
      exact ⟨c, h1, (has_iff c .dispatchPending).mp (by unfold Pack.has at h4; rwa [h2] at h4)⟩
  · have key : ∀ l : List String, (∀ id ∈ l, w.has s id = true) →
        ∃ ps, (l.mapM fun id =>
          match w.file s id with
          | none => none
          | some b =>
            match w.marks s (Pack.ofBundle now b).id with
            | none => none
            | some c => some { Pack.ofBundle now b with constraints := toSet c }) = some ps ∧ ps.map Pack.id = l ∧
          ∀ p ∈ ps, ∃ b m, Sneakers.getBundle w s p.id = some b ∧ Sneakers.getMetadata w parse s p.id = some m ∧
            p = { Pack.ofBundle now b with constraints := m.constraints } := by
      intro l
      induction l with
      | nil => intro _; exact ⟨[], rfl, rfl, fun p hp => by cases hp⟩
      | cons id l ih =>
        intro h
        obtain ⟨ps, h1, h2, h3⟩ := ih fun j hj => h j (List.mem_cons_of_mem _ hj)
        obtain ⟨b, e, c, hb, he, hc⟩ := some_row id (h id List.mem_cons_self)
        have hid : (Pack.ofBundle now b).id = id := hl.key _ _ _ hb
        obtain ⟨m, hm1, hm2⟩ := marked id c hc
        refine ⟨{ Pack.ofBundle now b with constraints := toSet c } :: ps, ?_, ?_, ?_⟩
        · rw [List.mapM_cons, h1, hl.file, hb]
          dsimp only
          rw [hid, hc]
          rfl
        · rw [List.map_cons, h2]
          show (Pack.ofBundle now b).id :: l = _
          rw [hid]
        · intro p hp
          rcases List.mem_cons.mp hp with rfl | hp
          · refine ⟨b, m, ?_, ?_, by rw [hm2]⟩
            · show w.bundle s (Pack.ofBundle now b).id = _
              rw [hid]; exact hb
            · show Sneakers.getMetadata w parse s (Pack.ofBundle now b).id = _
              rw [hid]; exact hm1
          · exact h3 p hp
    exact key (w.ids s) fun id hid => ((hl.ids s).2 id).mp hid

/-- C146, in part: endpoints in the scheme `ipn` and `dtn:none` are read back from the database. The others are not, see
`C146_endpoints_violated`. -/
theorem C146_endpoints_partial (w : World) (parse : String → Option EID) (names : EID → Option String × Option String) (hl : Lawful w names) (s : w.σ)
    (hipn : ∀ n k, names (.ipn n k) = (some (toString n), some (toString k))) (hnone : names .none = (none, none))
    (hparse : ∀ n k, n < 2 ^ 64 → k < 2 ^ 64 → parse ("ipn:" ++ toString n ++ "." ++ toString k) = some (.ipn n k)) (hdot : parse "dtn:." = none)
    (bid : String) (b : Bundle) (m : Pack) (hb : Sneakers.getBundle w s bid = some b) (hm : Sneakers.getMetadata w parse s bid = some m) :
    (∀ n k, n < 2 ^ 64 → k < 2 ^ 64 → b.primary.source = .ipn n k → m.source = .ipn n k) ∧
      (∀ n k, n < 2 ^ 64 → k < 2 ^ 64 → b.primary.destination = .ipn n k → m.destination = .ipn n k) ∧
      (b.primary.source = .none → m.source = .none) ∧ (b.primary.destination = .none → m.destination = .none) := by
  obtain ⟨e, c, h1, h2, h3⟩ := hl.row _ _ _ hb
  unfold Sneakers.getMetadata at hm
  rw [h1] at hm
  dsimp only at hm
  rw [h2] at hm
  cases hm
  have ipn : ∀ {x y : Option String} {n k : Nat}, (x, y) = names (.ipn n k) → n < 2 ^ 64 → k < 2 ^ 64 → eidOf parse x y = .ipn n k := by
    intro x y n k h hn hk
    rw [hipn] at h
    cases h
    unfold eidOf eidText
    simp only [Option.getD_some, parseU64_toString n hn, parseU64_toString k hk, Option.isSome_some, Option.isNone_some, Bool.or_true, Bool.and_self, if_true]
    rw [hparse n k hn hk]
    rfl
  have non : ∀ {x y : Option String}, (x, y) = names .none → eidOf parse x y = .none := by
    intro x y h
    rw [hnone] at h
    cases h
    unfold eidOf
    rw [show eidText none none = "dtn:." by decide +kernel, hdot]
    rfl
  refine ⟨fun n k hn hk h => ?_, fun n k hn hk h => ?_, fun h => ?_, fun h => ?_⟩
  · exact ipn (h3.source.trans (by rw [h])) hn hk
  · exact ipn (h3.destination.trans (by rw [h])) hn hk
  · exact non (h3.source.trans (by rw [h]))
  · exact non (h3.destination.trans (by rw [h]))

/-- The text made of node and service in the scheme `dtn` is not read. -/
theorem sneakers_dtn {parse : String → Option EID} (hparse : ∀ r e, parse ("dtn:" ++ r) = some e → ['/', '/'] <+: r.toList ∨ r = "none")
    {n : String} (hn : ¬['/', '/'] <+: n.toList) (hd : parseU64 n.toList = none) (k : Option String) : eidOf parse (some n) k = .none := by
  unfold eidOf eidText
  simp only [Option.getD_some, hd, Option.isSome_none, Bool.false_and, Bool.false_eq_true, if_false]
  have : "dtn:" ++ n ++ "." ++ k.getD "" = "dtn:" ++ (n ++ "." ++ k.getD "") := by simp [String.append_assoc]
  rw [this]
  cases hp : parse ("dtn:" ++ (n ++ "." ++ k.getD "")) with
  | none => rfl
  | some e =>
    exfalso
    rcases hparse _ _ hp with h | h
    · apply hn
      simp only [String.toList_append] at h
      generalize n.toList = l at h ⊢
      match l with
      | [] => obtain ⟨x, hx⟩ := h; simp at hx
      | [a] => obtain ⟨x, hx⟩ := h; simp at hx
      | a :: b :: l =>
        obtain ⟨x, hx⟩ := h
        simp only [List.cons_append, List.nil_append, List.append_assoc, List.cons.injEq] at hx
        exact ⟨l, by rw [← hx.1, ← hx.2.1]; rfl⟩
    · have h' := congrArg String.toList h
      have : '.' ∈ "none".toList := by rw [← h']; simp
      exact absurd this (by decide)

/-- C146 is violated: the endpoints of bundles in the scheme `dtn` are lost. The text that is made of node and service lacks the two slashes,
so that it is no endpoint, and metadata says that the bundle comes from and goes to `dtn:none`. -/
theorem C146_endpoints_violated (w : World) (parse : String → Option EID) (names : EID → Option String × Option String) (hl : Lawful w names) (s : w.σ)
    (hnames : ∀ n k, (names (.dtn n k)).1 = some n)
    (hparse : ∀ r e, parse ("dtn:" ++ r) = some e → ['/', '/'] <+: r.toList ∨ r = "none")
    (bid : String) (b : Bundle) (m : Pack) (hb : Sneakers.getBundle w s bid = some b) (hm : Sneakers.getMetadata w parse s bid = some m)
    (n k : String) (hn : ¬['/', '/'] <+: n.toList) (hd : parseU64 n.toList = none) :
    (b.primary.source = .dtn n k → m.source = .none) ∧ (b.primary.destination = .dtn n k → m.destination = .none) := by
  obtain ⟨e, c, h1, h2, h3⟩ := hl.row _ _ _ hb
  unfold Sneakers.getMetadata at hm
  rw [h1] at hm
  dsimp only at hm
  rw [h2] at hm
  cases hm
  have key : ∀ {x y : Option String}, (x, y) = names (.dtn n k) → eidOf parse x y = .none := by
    intro x y h
    have hx : x = some n := by rw [← hnames n k, ← h]
    subst hx
    exact sneakers_dtn hparse hn hd y
  exact ⟨fun h => key (h3.source.trans (by rw [h])), fun h => key (h3.destination.trans (by rw [h]))⟩

/-- C146 is violated: an endpoint in the scheme `dtn` whose node and service are numbers is taken for one in the scheme `ipn`. -/
theorem C146_numbers_violated (w : World) (parse : String → Option EID) (names : EID → Option String × Option String) (hl : Lawful w names) (s : w.σ)
    (n k : Nat) (hn : n < 2 ^ 64) (hk : k < 2 ^ 64) (hnames : names (.dtn (toString n) (toString k)) = (some (toString n), some (toString k)))
    (hparse : parse ("ipn:" ++ toString n ++ "." ++ toString k) = some (.ipn n k))
    (bid : String) (b : Bundle) (m : Pack) (hb : Sneakers.getBundle w s bid = some b) (hm : Sneakers.getMetadata w parse s bid = some m)
    (hdst : b.primary.destination = .dtn (toString n) (toString k)) : m.destination = .ipn n k := by
  obtain ⟨e, c, h1, h2, h3⟩ := hl.row _ _ _ hb
  unfold Sneakers.getMetadata at hm
  rw [h1] at hm
  dsimp only at hm
  rw [h2] at hm
  cases hm
  have h := h3.destination.trans (by rw [hdst, hnames])
  cases hx : e.dstName <;> cases hy : e.dstService <;> rw [hx, hy] at h <;> simp only [Prod.mk.injEq, Option.some.injEq, reduceCtorEq, and_false, false_and] at h
  obtain ⟨rfl, rfl⟩ := h
  unfold eidOf eidText
  simp only [Option.getD_some, parseU64_toString n hn, parseU64_toString k hk, Option.isSome_some, Option.isNone_some, Bool.or_true, Bool.and_self, if_true]
  rw [hparse]
  rfl

/-- C146 is violated: metadata read from the database never says that a bundle is an administrative record. -/
theorem C146_administrative_violated (w : World) (parse : String → Option EID) (s : w.σ) (bid : String) (m : Pack)
    (hm : Sneakers.getMetadata w parse s bid = some m) : m.administrative = false := by
  unfold Sneakers.getMetadata at hm
  split at hm
  · cases hm
  · split at hm
    · cases hm
    · cases hm; rfl

/-- C146 is violated: a bundle that waits to be forwarded is not among the pending ones, those that the janitor tries again. With the same
metadata it is with the store in memory. -/
theorem C146_waiting_violated (w : World) (names : EID → Option String × Option String) (hl : Lawful w names) (s t : w.σ) (bp : Pack)
    (h : Sneakers.updateMetadata w s bp = (t, true)) (hw : bp.has .forwardPending = true) (hd : bp.has .dispatchPending = false)
    (hr : bp.has .reassemblyPending = false) :
    bp.id ∈ Sneakers.forwarding w t ∧ bp.id ∉ Sneakers.pending w t ∧
      ∀ (ms ms' : MemStore), ms.updateMetadata bp = (ms', true) → bp.id ∈ ms'.pending := by
  obtain ⟨-, -, h2⟩ := updateMetadata_ok hl h
  have hm := h2 bp.id
  rw [if_pos rfl] at hm
  refine ⟨?_, ?_, ?_⟩
  · rw [Sneakers.forwarding, Sneakers.filter, (hl.filter t _).2]
    refine ⟨_, hm, (sub_iff _ _).mpr fun k hk => ?_⟩
    rw [toSet_toBits]
    cases k <;> first | exact hw | (exact absurd hk (by decide))
  · rw [Sneakers.pending, (hl.filter t _).2]
    rintro ⟨c, h1, h3⟩
    rw [hm] at h1
    cases h1
    have := (has_iff _ .dispatchPending).mpr h3
    rw [toSet_toBits] at this
    unfold Pack.has at hd
    rw [hd] at this
    cases this
  · intro ms ms' h
    unfold MemStore.updateMetadata at h
    split at h
    · cases h
      unfold MemStore.pending AList.insert AList.values
      simp [hw, hr]
    · cases h

/-- C146 is violated: removing a bundle takes it out of the database with all that is known of it, and the same bundle is taken for a new one
when it comes again. -/
theorem C146_forgotten_violated (w : World) (parse : String → Option EID) (names : EID → Option String × Option String) (hl : Lawful w names)
    (s t : w.σ) (b : Bundle) (h : Sneakers.remove w parse s b.id = (t, true)) (now : Nat) (u : w.σ) (hp : w.push now t b = some u) :
    Sneakers.getMetadata w parse t b.id = none ∧ Sneakers.addIfUnknown w now t b = (u, some true) ∧ Sneakers.getBundle w u b.id = some b := by
  obtain ⟨-, h2⟩ := remove_cases hl h
  have hb := h2 b.id
  rw [if_pos ⟨rfl, rfl⟩] at hb
  refine ⟨?_, ?_, ?_⟩
  · unfold Sneakers.getMetadata
    rw [(hl.noRow _ _ hb).1]
  · unfold Sneakers.addIfUnknown Sneakers.hasItem Sneakers.push
    rw [hl.has, hb, hp]
    rfl
  · rw [Sneakers.getBundle, (hl.push _ _ _ _ hp).1, if_pos rfl]

/-! A concrete case: a table of bundles with their flags, which fulfils all that is assumed. New bundles get no flags. -/

def exSneakTable : Type :=
  { l : AList String (Bundle × Bits) // AList.WF l ∧ ∀ k v, AList.get? l k = some v → v.1.id = k }

def exSneakNames : EID → Option String × Option String
  | .none => (none, none)
  | .dtn n k => (some n, some k)
  | .ipn n k => (some (toString n), some (toString k))

def exSneakSet (t : exSneakTable) (b : Bundle) (c : Bits) : exSneakTable :=
  ⟨AList.insert t.1 b.id (b, c), t.2.1.insert _ _, fun k v h => by
    rw [AList.get?_insert] at h
    split at h
    · rename_i e; cases h; exact e.symm
    · exact t.2.2 k v h⟩

def exSneakDrop (t : exSneakTable) (id : String) : exSneakTable :=
  ⟨AList.erase t.1 id, t.2.1.erase _, fun k v h => by
    rw [AList.get?_erase] at h
    split at h
    · cases h
    · exact t.2.2 k v h⟩

def exSneak : World where
  σ := exSneakTable
  has t id := AList.contains t.1 id
  push _ t b := some (exSneakSet t b 0#8)
  remove t id := if AList.contains t.1 id then some (exSneakDrop t id) else none
  bundle t id := (AList.get? t.1 id).map (·.1)
  file t id := (AList.get? t.1 id).map (·.1)
  entry t id := (AList.get? t.1 id).map fun v =>
    { srcName := (exSneakNames v.1.primary.source).1, srcService := (exSneakNames v.1.primary.source).2
      dstName := (exSneakNames v.1.primary.destination).1, dstService := (exSneakNames v.1.primary.destination).2
      creationTime := v.1.primary.creationTime, lifetime := v.1.primary.lifetime, size := 0, timeAdded := 0 }
  marks t id := (AList.get? t.1 id).map (·.2)
  mark t id c := (AList.get? t.1 id).map fun v => exSneakSet t v.1 c
  ids t := AList.keys t.1
  len t := t.1.length
  filter t f := AList.keys (t.1.filter fun p => decide (p.2.2 &&& f = f))

theorem exSneak_lawful : Lawful exSneak exSneakNames where
  has s id := by simp [exSneak, AList.contains]
  key s id b h := by
    simp only [exSneak, Option.map_eq_some_iff] at h
    obtain ⟨v, h, rfl⟩ := h
    exact s.2.2 _ _ h
  file _ _ := rfl
  row s id b h := by
    simp only [exSneak, Option.map_eq_some_iff] at h
    obtain ⟨v, h, rfl⟩ := h
    simp only [exSneak, h, Option.map_some]
    exact ⟨_, _, rfl, rfl, rfl, rfl, rfl, rfl⟩
  noRow s id h := by
    simp only [exSneak, Option.map_eq_none_iff] at h
    simp [exSneak, h]
  push now s b t h := by
    cases h
    refine ⟨fun id => ?_, fun id hid => ?_⟩
    · simp only [exSneak, exSneakSet, AList.get?_insert]
      split <;> rfl
    · simp only [exSneak, exSneakSet, AList.get?_insert, if_neg hid]
  mark s id c t h _ := by
    obtain ⟨v, hv, rfl⟩ := Option.map_eq_some_iff.mp h
    have hk := s.2.2 _ _ hv
    refine ⟨fun j => ?_, fun j => ?_⟩
    · simp only [exSneak, exSneakSet, AList.get?_insert, hk]
      split
      · rename_i e; rw [e, hv]; rfl
      · rfl
    · simp only [exSneak, exSneakSet, AList.get?_insert, hk]
      split <;> rfl
  remove s id t h := by
    simp only [exSneak] at h
    split at h
    · cases h
      refine ⟨fun j => ?_, fun j hj => ?_⟩
      · simp only [exSneak, exSneakDrop, AList.get?_erase]
        split <;> rfl
      · simp only [exSneak, exSneakDrop, AList.get?_erase, if_neg hj]
    · cases h
  ids s := ⟨s.2.1, fun id => (AList.contains_iff_mem_keys s.1 id).symm⟩
  len s := by simp [exSneak, AList.keys]
  filter s f := by
    refine ⟨s.2.1.sublist (List.Sublist.map _ List.filter_sublist), fun id => ?_⟩
    simp only [exSneak, AList.keys, List.mem_map, List.mem_filter, decide_eq_true_eq, Option.map_eq_some_iff]
    constructor
    · rintro ⟨⟨k, v⟩, ⟨h1, h2⟩, rfl⟩
      exact ⟨v.2, ⟨v, s.2.1.get?_of_mem h1, rfl⟩, h2⟩
    · rintro ⟨c, ⟨v, h1, rfl⟩, h2⟩
      exact ⟨(id, v), ⟨AList.mem_of_get? h1, h2⟩, rfl⟩

def exSneakEmpty : exSneakTable := ⟨[], AList.wf_nil, fun _ _ h => by cases h⟩

def exSneakBundle (dst : EID) : Bundle :=
  { primary := { bid := "b", source := .ipn 5 1, destination := dst, reportTo := .none, creationTime := 1, lifetime := 60000 }, canonicals := [] }

def exSneakParse (s : String) : Option EID := if s = "ipn:5.1" then some (.ipn 5 1) else if s = "ipn:7.2" then some (.ipn 7 2) else none

def exSneakOps (dst : EID) : List MemStore.Op :=
  [.push 3 (exSneakBundle dst), .update { Pack.ofBundle 3 (exSneakBundle dst) with constraints := { forwardPending := true, contraindicated := true } }]

/-- A bundle from `ipn:5.1` to `dtn://n/x`: it is there, its constraints are those written, it is listed as one to be forwarded but not as a
pending one, and its destination is lost. A second removal fails. -/
example : let r := Sneakers.run exSneak exSneakParse exSneakEmpty (exSneakOps (.dtn "n" "x"))
    r.2.map (·.2) = [true, true] ∧ Sneakers.getBundle exSneak r.1 "b" = some (exSneakBundle (.dtn "n" "x")) ∧
    (Sneakers.getMetadata exSneak exSneakParse r.1 "b").map (fun m => (m.source, m.destination, m.constraints)) =
      some (.ipn 5 1, .none, { forwardPending := true, contraindicated := true }) ∧
    Sneakers.forwarding exSneak r.1 = ["b"] ∧ Sneakers.pending exSneak r.1 = [] ∧
    (Sneakers.run exSneak exSneakParse r.1 [.remove "b", .remove "b", .push 4 (exSneakBundle .none)]).2.map (·.2) = [true, false, true] := by
  decide +kernel

/-- Numbers in the scheme `dtn`. -/
example : let r := Sneakers.run exSneak exSneakParse exSneakEmpty (exSneakOps (.dtn "7" "2"))
    (Sneakers.getMetadata exSneak exSneakParse r.1 "b").map (·.destination) = some (.ipn 7 2) := by decide +kernel

example : (∀ n k, (exSneakNames (.dtn n k)).1 = some n) ∧ (∀ n k, exSneakNames (.ipn n k) = (some (toString n), some (toString k))) ∧
    exSneakNames .none = (none, none) ∧ exSneakParse "dtn:." = none ∧
    exSneakNames (.dtn (toString 7) (toString 2)) = (some (toString 7), some (toString 2)) ∧
    exSneakParse ("ipn:" ++ toString 7 ++ "." ++ toString 2) = some (.ipn 7 2) :=
  ⟨fun _ _ => rfl, fun _ _ => rfl, rfl, by decide +kernel, rfl, by decide +kernel⟩

/-- Endpoints of the crate `bp7` have two slashes. -/
example : ∀ r e, exSneakParse ("dtn:" ++ r) = some e → ['/', '/'] <+: r.toList ∨ r = "none" := by
  intro r e h
  exfalso
  unfold exSneakParse at h
  have : ∀ t : String, t.toList.head? = some 'i' → "dtn:" ++ r ≠ t := by
    rintro t ht rfl
    simp at ht
  rw [if_neg (this _ (by decide)), if_neg (this _ (by decide))] at h
  cases h

end Dtn.Props
