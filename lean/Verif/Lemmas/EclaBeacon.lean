import Verif.Spec.EclaBeacon
import Verif.Lemmas.Announcer
import Verif.Lemmas.BeaconRead
import Verif.Lemmas.BeaconLayout
/-! Lemmas about beacons of external convergence layers. -/

namespace Dtn.EclaBeacon
open Discovery Cbor

/-- The block before services are added, as a beacon. -/
def pre (s : St) : Beacon := s.clas.foldl (fun b c => b.addCla c.1 (some c.2)) (Beacon.new s.host)

theorem fold_clas (l : List (String × Nat)) (b : Beacon) :
    (l.foldl (fun b c => b.addCla c.1 (some c.2)) b).block = l.foldl (fun b c => b.addCla c.1 (some c.2)) b.block := by
  induction l generalizing b with
  | nil => rfl
  | cons c l ih => rw [List.foldl_cons, ih]; rfl

theorem fold_block (pf : List Char → Option F32) (l : AList Nat String) (b : Beacon) :
    (l.foldlM (fun (b : Beacon) kv => b.addService pf kv.1 kv.2) b).map (·.block) =
    l.foldlM (fun (b : ServiceBlock) kv => match buildService pf kv.1 kv.2 with
      | .ok r => some (b.addService kv.1 r.2)
      | _ => none) b.block := by
  induction l generalizing b with
  | nil => rfl
  | cons kv l ih =>
    rw [List.foldlM_cons, List.foldlM_cons]
    unfold Beacon.addService
    cases buildService pf kv.1 kv.2 with
    | ok r =>
      simp only [Option.bind_eq_bind, Option.bind_some]
      exact ih _
    | err => rfl
    | panic => rfl

theorem block_eq (pf : List Char → Option F32) (s : St) :
    block pf s = (s.services.foldlM (fun (b : Beacon) kv => b.addService pf kv.1 kv.2) (pre s)).map (·.block) := by
  rw [fold_block]
  unfold pre
  rw [fold_clas]
  rfl

theorem fold_some {pf : List Char → Option F32} (l : AList Nat String)
    (h : ∀ kv ∈ l, ∃ r, buildService pf kv.1 kv.2 = .ok r) (b : Beacon) :
    ∃ c, l.foldlM (fun (b : Beacon) kv => b.addService pf kv.1 kv.2) b = some c := by
  induction l generalizing b with
  | nil => exact ⟨b, rfl⟩
  | cons kv l ih =>
    obtain ⟨r, hr⟩ := h kv (by simp)
    obtain ⟨c, hc⟩ := ih (fun kv hm => h kv (by simp [hm])) { b with block := b.block.addService kv.1 r.2, flags := b.flags ||| 2 }
    refine ⟨c, ?_⟩
    rw [List.foldlM_cons]
    unfold Beacon.addService
    rw [hr]
    exact hc

theorem fold_none {pf : List Char → Option F32} (l : AList Nat String)
    (h : ∃ kv ∈ l, ∀ r, buildService pf kv.1 kv.2 ≠ .ok r) (b : Beacon) :
    l.foldlM (fun (b : Beacon) kv => b.addService pf kv.1 kv.2) b = none := by
  induction l generalizing b with
  | nil => simp at h
  | cons kv l ih =>
    rw [List.foldlM_cons]
    cases hb : b.addService pf kv.1 kv.2 with
    | none => rfl
    | some c =>
      obtain ⟨x, hx, hr⟩ := h
      rcases List.mem_cons.mp hx with rfl | hx
      · unfold Beacon.addService at hb
        split at hb
        · next r h => exact absurd h (hr r)
        · cases hb
      · exact ih ⟨x, hx, hr⟩ c

theorem payload_sized {pf : List Char → Option F32} {tag : Nat} {text : String} {r : Nat × Bytes} (h : buildService pf tag text = .ok r)
    (hs : Spec.Discovery.Sized (utf8 text).length) : Spec.Discovery.Sized r.2.length := by
  unfold buildService at h
  repeat' split at h
  all_goals first
    | cases h; exact hs
    | cases h; simp [Spec.Discovery.Sized, f32Bytes]
    | cases h

theorem insert_length (l : AList Nat Bytes) (k : Nat) (v : Bytes) : (AList.insert l k v).length ≤ l.length + 1 := by
  unfold AList.insert AList.erase
  have := List.length_filter_le (fun p => decide (p.1 ≠ k)) l
  simp only [List.length_cons]
  omega

theorem fold_size {pf : List Char → Option F32} (l : AList Nat String) (b c : Beacon)
    (h : l.foldlM (fun (b : Beacon) kv => b.addService pf kv.1 kv.2) b = some c) (hw : AList.WF b.block.services) :
    AList.WF c.block.services ∧ c.block.services.length ≤ b.block.services.length + l.length := by
  induction l generalizing b with
  | nil =>
    simp only [List.foldlM_nil, Option.pure_def, Option.some.injEq] at h
    subst h
    exact ⟨hw, by simp⟩
  | cons kv l ih =>
    rw [List.foldlM_cons] at h
    cases hb : b.addService pf kv.1 kv.2 with
    | none => simp [hb] at h
    | some b' =>
      simp only [hb, Option.bind_eq_bind, Option.bind_some] at h
      unfold Beacon.addService at hb
      split at hb
      · cases hb
        obtain ⟨h1, h2⟩ := ih _ h (hw.insert _ _)
        refine ⟨h1, ?_⟩
        have := insert_length b.block.services kv.1
        simp only [ServiceBlock.addService, List.length_cons] at h2 ⊢
        rename_i r _
        have := this r.2
        omega
      · cases hb

theorem read_empty {bs : Bytes} (h : Spec.Beacons.Arr [] bs) : Reads readBlock bs {} := by
  obtain ⟨hd, items, hh, hi, rfl⟩ := h
  cases hi
  unfold readBlock
  refine Reads.bind (Spec.Beacons.read_head (by omega) hh) ?_
  exact Reads.pure _

theorem blockOf_listed {free : Bool} {b : ServiceBlock} {bs : Bytes} (listed : Spec.EclaBeacons.Listed free b bs)
    (clas : ∀ c ∈ b.clas, ∀ p, c.2 = some p → p < 2 ^ 16) (tags : ∀ kv ∈ b.services, kv.1 < 2 ^ 8) :
    blockOf bs = some { clas := b.clas, services := collect b.services } := by
  unfold blockOf
  unfold Spec.EclaBeacons.Listed at listed
  by_cases he : b.clas = [] ∧ b.services = []
  · rw [if_pos he] at listed
    have := read_empty listed []
    rw [List.append_nil] at this
    rw [this, he.1, he.2]
    rfl
  · rw [if_neg he] at listed
    have := Spec.Beacons.read_block clas tags listed []
    rw [List.append_nil] at this
    rw [this]

theorem listed_write {b : ServiceBlock}
    (hc : Spec.Discovery.Sized b.clas.length ∧ ∀ c ∈ b.clas, Spec.Discovery.Sized (utf8 c.1).length ∧ ∀ p, c.2 = some p → p < 2 ^ 16)
    (hs : Spec.Discovery.Sized b.services.length ∧ ∀ s ∈ b.services, s.1 < 2 ^ 8 ∧ Spec.Discovery.Sized s.2.length) :
    Spec.EclaBeacons.Listed false b (writeBlock b) := by
  unfold Spec.EclaBeacons.Listed
  by_cases he : b.isEmpty = true
  · rw [if_pos ((isEmpty_iff b).mp he)]
    unfold writeBlock
    rw [he]
    exact Spec.Beacons.seq_spec .nil (by simp)
  · rw [if_neg (fun h => he ((isEmpty_iff b).mpr h))]
    exact Spec.Beacons.block_spec hc hs (by simpa using he)

/-- What a generated block is. -/
theorem block_is {pf : List Char → Option F32} {s : St} {b : ServiceBlock} (ht : Spec.EclaBeacons.Typed s) (h : block pf s = some b) :
    b.clas = s.clas.map (fun c => (c.1, some c.2)) ∧ AList.WF b.services ∧ b.services.length ≤ s.services.length ∧
    ∀ tag p, (tag, p) ∈ b.services ↔ ∃ text, (tag, text) ∈ s.services ∧ buildService pf tag text = .ok (tag, p) := by
  rw [block_eq, Option.map_eq_some_iff] at h
  obtain ⟨c, hc, rfl⟩ := h
  have hp := (Announcer.addClas_eq s.clas (Beacon.new s.host)).1
  have hp' : (pre s).block = { clas := s.clas.map fun c => (c.1, some c.2), services := [] } := by
    rw [pre, hp]; simp [Beacon.new]
  have hw : AList.WF s.services := ht.services.2.1
  obtain ⟨_, _, h1, h2⟩ := Announcer.addServices s.services hw _ _ hc
  obtain ⟨h3, h4⟩ := fold_size s.services _ _ hc (by rw [hp']; simp [AList.WF, AList.keys])
  rw [hp'] at h1 h4
  refine ⟨h1, h3, by simpa using h4, ?_⟩
  intro tag p
  have e1 : (tag, p) ∈ c.block.services ↔ AList.get? c.block.services tag = some p :=
    ⟨fun h => h3.get?_of_mem h, AList.mem_of_get?⟩
  rw [e1, h2, hp']
  constructor
  · rintro (⟨text, g1, g2⟩ | ⟨_, g⟩)
    · exact ⟨text, AList.mem_of_get? g1, g2⟩
    · simp [AList.get?] at g
  · rintro ⟨text, g1, g2⟩
    exact .inl ⟨text, hw.get?_of_mem g1, g2⟩

end Dtn.EclaBeacon
