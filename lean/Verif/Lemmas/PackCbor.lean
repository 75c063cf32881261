import Verif.Spec.PackCbor
import Verif.Lemmas.CborRead
import Mathlib.Data.List.Perm.Basic
/-! Lemmas about records of bundles as CBOR. -/

namespace Dtn.PackCbor
open Cbor Spec.Records Spec.Beacons
open Rd (bind_ok fail)

theorem read_bool {b : Bool} {bs : Bytes} (h : Truth b bs) : Reads readBool bs b := by
  cases b <;> · cases h; exact fun _ => rfl

theorem read_constraint (c : Constraint) {bs : Bytes} (h : Text (Name c) bs) : Reads readConstraint bs c := by
  unfold readConstraint
  refine Reads.bind0 (read_text h) ?_
  cases c <;> exact Reads.pure _

/-- What is read for a field. -/
def entry (cs : List Constraint) (p : Pack) : Field → Entry
  | .source => .source p.source
  | .destination => .destination p.destination
  | .receivedTime => .receivedTime p.receivedTime
  | .creationTime => .creationTime p.creationTime
  | .lifetime => .lifetime p.lifetime
  | .id => .id p.id
  | .administrative => .administrative p.administrative
  | .size => .size p.size
  | .constraints => .constraints cs

theorem read_entry {free : Bool} {cs : List Constraint} {p : Pack} (hf : Fits p) (f : Field) {k v : Bytes}
    (hk : (field free cs p f).1 k) (hv : (field free cs p f).2 v) : Reads readEntry (k ++ v) (entry cs p f) := by
  unfold readEntry
  cases f
  · exact Reads.bind (read_text hk) (Reads.bind0 (read_eid hf.source hv) (Reads.pure _))
  · exact Reads.bind (read_text hk) (Reads.bind0 (read_eid hf.destination hv) (Reads.pure _))
  · exact Reads.bind (read_text hk) (Reads.bind0 (read_num hf.receivedTime hv) (Reads.pure _))
  · exact Reads.bind (read_text hk) (Reads.bind0 (read_num hf.creationTime hv) (Reads.pure _))
  · exact Reads.bind (read_text hk) (Reads.bind0 (read_num hf.lifetime hv) (Reads.pure _))
  · exact Reads.bind (read_text hk) (Reads.bind0 (read_text hv) (Reads.pure _))
  · exact Reads.bind (read_text hk) (Reads.bind0 (read_bool hv) (Reads.pure _))
  · exact Reads.bind (read_text hk) (Reads.bind0 (read_num hf.size hv) (Reads.pure _))
  · have := read_seq (r := readConstraint) (g := id) (l := cs) (fun c _ bs h => ⟨read_constraint c h, starts_text h⟩) hv
    rw [List.map_id] at this
    exact Reads.bind (read_text hk) (Reads.bind0 this (Reads.pure _))

theorem starts_key {free : Bool} {cs : List Constraint} {p : Pack} (f : Field) {k : Bytes} (hk : (field free cs p f).1 k) : Starts k := by
  cases f <;> exact starts_text hk

theorem filterMap_none {α : Type} {fs : List Field} {g : Field → Option α} (h : ∀ f ∈ fs, g f = none) :
    fs.filterMap g = [] := by
  rw [List.filterMap_eq_nil_iff]
  exact h

theorem one_field {α : Type} {sel : Entry → Option α} {cs : List Constraint} {p : Pack} (f : Field) (a : α)
    (h1 : sel (entry cs p f) = some a) (h2 : ∀ g, g ≠ f → sel (entry cs p g) = none) :
    ∀ {fs : List Field}, fs.Nodup → f ∈ fs → one sel (fs.map (entry cs p)) = some a := by
  intro fs hn hm
  have key : ∀ fs : List Field, fs.Nodup → f ∈ fs → fs.filterMap (fun x => sel (entry cs p x)) = [a] := by
    intro fs
    induction fs with
    | nil => intro _ h; cases h
    | cons x fs ih =>
      intro hn hm
      rw [List.nodup_cons] at hn
      by_cases hx : x = f
      · subst hx
        rw [List.filterMap_cons, h1]
        dsimp only
        rw [filterMap_none]
        intro y hy
        exact h2 y fun e => hn.1 (e ▸ hy)
      · rw [List.filterMap_cons, h2 x hx]
        exact ih hn.2 ((List.mem_cons.mp hm).resolve_left fun e => hx e.symm)
  unfold one
  rw [List.filterMap_map]
  show (match fs.filterMap (fun x => sel (entry cs p x)) with
    | [a] => some a
    | _ => none) = some a
  rw [key fs hn hm]

theorem set_has (s : CSet) (v : Bool) (c d : Constraint) : (s.set v c).has d = if d = c then v else s.has d := by
  cases c <;> cases d <;> rfl

theorem foldl_has (cs : List Constraint) : ∀ (s : CSet) (d : Constraint),
    (cs.foldl (fun s c => s.set true c) s).has d = (decide (d ∈ cs) || s.has d) := by
  induction cs with
  | nil => intro s d; simp
  | cons c cs ih =>
    intro s d
    rw [List.foldl_cons, ih, set_has]
    by_cases h : d = c
    · simp [h]
    · simp [h]

theorem cset_ext {s t : CSet} (h : ∀ c, s.has c = t.has c) : s = t := by
  have h1 := h .dispatchPending
  have h2 := h .forwardPending
  have h3 := h .reassemblyPending
  have h4 := h .contraindicated
  have h5 := h .localEndpoint
  have h6 := h .deleted
  cases s; cases t
  simp only [CSet.has] at h1 h2 h3 h4 h5 h6
  simp [*]

theorem setOf_lists {cs : List Constraint} {s : CSet} (h : ∀ c, c ∈ cs ↔ s.has c = true) : setOf cs = s := by
  apply cset_ext
  intro c
  unfold setOf
  rw [foldl_has]
  have h0 : CSet.empty.has c = false := by cases c <;> rfl
  rw [h0, Bool.or_false]
  have := h c
  cases hc : s.has c <;> simp [this, hc]

theorem build_entries {fs : List Field} (hn : fs.Nodup) (ha : ∀ f, f ∈ fs) {cs : List Constraint} {p : Pack}
    (hc : ∀ c, c ∈ cs ↔ p.constraints.has c = true) : build (fs.map (entry cs p)) = some p := by
  unfold build
  rw [one_field .source p.source rfl (by intro g hg; cases g <;> first | rfl | exact absurd rfl hg) hn (ha _),
    one_field .destination p.destination rfl (by intro g hg; cases g <;> first | rfl | exact absurd rfl hg) hn (ha _),
    one_field .receivedTime p.receivedTime rfl (by intro g hg; cases g <;> first | rfl | exact absurd rfl hg) hn (ha _),
    one_field .creationTime p.creationTime rfl (by intro g hg; cases g <;> first | rfl | exact absurd rfl hg) hn (ha _),
    one_field .lifetime p.lifetime rfl (by intro g hg; cases g <;> first | rfl | exact absurd rfl hg) hn (ha _),
    one_field .id p.id rfl (by intro g hg; cases g <;> first | rfl | exact absurd rfl hg) hn (ha _),
    one_field .administrative p.administrative rfl (by intro g hg; cases g <;> first | rfl | exact absurd rfl hg) hn (ha _),
    one_field .size p.size rfl (by intro g hg; cases g <;> first | rfl | exact absurd rfl hg) hn (ha _),
    one_field .constraints cs rfl (by intro g hg; cases g <;> first | rfl | exact absurd rfl hg) hn (ha _)]
  show some _ = some _
  rw [setOf_lists hc]

/-- Any layout of a record is read. -/
theorem read_record {fs : List Field} (hn : fs.Nodup) (ha : ∀ f, f ∈ fs) {cs : List Constraint} {p : Pack}
    (hf : Fits p) (hc : ∀ c, c ∈ cs ↔ p.constraints.has c = true) {free : Bool} {bs : Bytes} (h : Record free fs cs p bs) :
    read bs = some p := by
  have h1 := read_mapOf (r := readEntry) (g := entry cs p) (l := fs)
    (fun f _ k v hk hv => ⟨read_entry hf f hk hv, starts_key f hk⟩) h []
  rw [List.append_nil] at h1
  unfold read
  rw [h1]
  exact build_entries hn ha hc

theorem name_eq (c : Constraint) : name c = Name c := by cases c <;> rfl

theorem name_size (c : Constraint) : (utf8 (Name c)).length < 2 ^ 64 := by
  cases c <;> decide +kernel

theorem lists_length {cs : List Constraint} (h : cs.Nodup) : cs.length ≤ 6 := by
  have all : ∀ c : Constraint, c ∈ [Constraint.dispatchPending, .forwardPending, .reassemblyPending, .contraindicated,
      .localEndpoint, .deleted] := by
    intro c; cases c <;> simp
  exact (List.subperm_of_subset h fun c _ => all c).length_le

theorem write_record {cs : List Constraint} (hn : cs.Nodup) {p : Pack} (hf : Fits p) :
    Record false declared cs p (write cs p) := by
  have hl := lists_length hn
  refine .inl ⟨head 5 9, _, head_spec (n := 9) (by omega) (by omega), ?_, rfl⟩
  refine .cons ⟨_, _, text_spec (by decide +kernel), eid_spec hf.source, rfl⟩ ?_
  refine .cons ⟨_, _, text_spec (by decide +kernel), eid_spec hf.destination, rfl⟩ ?_
  refine .cons ⟨_, _, text_spec (by decide +kernel), num_spec hf.receivedTime, rfl⟩ ?_
  refine .cons ⟨_, _, text_spec (by decide +kernel), num_spec hf.creationTime, rfl⟩ ?_
  refine .cons ⟨_, _, text_spec (by decide +kernel), num_spec hf.lifetime, rfl⟩ ?_
  refine .cons ⟨_, _, text_spec (by decide +kernel), text_spec hf.id, rfl⟩ ?_
  refine .cons ⟨_, _, text_spec (by decide +kernel), ?_, rfl⟩ ?_
  · show Truth p.administrative (bool p.administrative)
    cases p.administrative <;> exact rfl
  refine .cons ⟨_, _, text_spec (by decide +kernel), num_spec hf.size, rfl⟩ ?_
  refine .cons ⟨_, _, text_spec (by decide +kernel), ?_, rfl⟩ .nil
  refine .inl <| seq_spec (each_map cs fun c _ => ?_) (by rw [List.length_map]; omega)
  rw [name_eq]
  exact text_spec (name_size c)

end Dtn.PackCbor
