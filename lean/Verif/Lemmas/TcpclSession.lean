import Verif.Spec.TcpclSession
/-! Lemmas about TCPCL sessions. -/

namespace Dtn.Tcpcl
open Dtn.Spec

/-! ### Segmentation -/

/-- A run of segments of transfer `tid`: the first one has the START flag if `st`, only the last one has END. -/
def Run (mru tid : Nat) : Bool → List XferSeg → Prop
  | _, [] => False
  | st, [s] => s.tid = tid ∧ s.flags = { «end» := true, start := st } ∧ s.len = s.buf.length ∧
      0 < s.buf.length ∧ s.buf.length ≤ mru ∧ s.extensions = []
  | st, s :: t :: ss => s.tid = tid ∧ s.flags = { «end» := false, start := st } ∧ s.len = s.buf.length ∧
      0 < s.buf.length ∧ s.buf.length ≤ mru ∧ s.extensions = [] ∧ Run mru tid false (t :: ss)

/-- The bytes of a list of segments. -/
def bytesOf (segs : List XferSeg) : Bytes := (segs.map (·.buf)).flatten

/-- A plain segment. -/
def plain (tid : Nat) (buf : Bytes) : XferSeg :=
  { flags := {}, buf := buf, len := buf.length, tid := tid, extensions := [] }

theorem chunksAux_flatten (n : Nat) (hn : 0 < n) (fuel : Nat) : ∀ l : Bytes, l.length ≤ fuel →
    (chunksAux n fuel l).flatten = l := by
  induction fuel with
  | zero =>
    intro l h
    have : l = [] := List.length_eq_zero_iff.mp (by omega)
    simp [chunksAux, this]
  | succ k ih =>
    intro l h
    unfold chunksAux
    split
    · next h0 => simp [h0]
    · next h0 =>
      have hl : 0 < l.length := List.length_pos_iff.mpr h0
      rw [List.flatten_cons, ih _ (by simp; omega), List.take_append_drop]

theorem chunksAux_bounds (n : Nat) (hn : 0 < n) (fuel : Nat) : ∀ l : Bytes,
    ∀ c ∈ chunksAux n fuel l, 0 < c.length ∧ c.length ≤ n := by
  induction fuel with
  | zero => intro l c h; simp [chunksAux] at h
  | succ k ih =>
    intro l c h
    unfold chunksAux at h
    split at h
    · simp at h
    · next h0 =>
      have hl : 0 < l.length := List.length_pos_iff.mpr h0
      rcases List.mem_cons.mp h with rfl | h
      · simp; omega
      · exact ih _ c h

theorem chunks_flatten {n : Nat} (hn : 0 < n) (l : Bytes) : (chunks n l).flatten = l :=
  chunksAux_flatten n hn _ l (Nat.le_refl _)

theorem chunks_bounds {n : Nat} (hn : 0 < n) (l : Bytes) :
    ∀ c ∈ chunks n l, 0 < c.length ∧ c.length ≤ n := chunksAux_bounds n hn _ l

theorem setEnd_run {mru tid : Nat} : ∀ (cs : List Bytes) (_ : cs ≠ [])
    (_ : ∀ c ∈ cs, 0 < c.length ∧ c.length ≤ mru),
    Run mru tid false (setEnd (cs.map (plain tid))) ∧
    Run mru tid true (setEnd (setStart (cs.map (plain tid)))) := by
  intro cs
  induction cs with
  | nil => intro h; exact absurd rfl h
  | cons c cs ih =>
    intro _ hb
    have hc := hb c (by simp)
    cases cs with
    | nil =>
      simp [setEnd, setStart, Run, plain, hc]
    | cons c' cs' =>
      have hih := (ih (by simp) (fun x hx => hb x (by simp [hx]))).1
      have key : ∀ (x : XferSeg), setEnd (x :: (c' :: cs').map (plain tid)) =
          x :: setEnd ((c' :: cs').map (plain tid)) := by
        intro x; simp [setEnd]
      have key2 : ∀ (st : Bool) (x : XferSeg) (l : List XferSeg), Run mru tid false l →
          Run mru tid st (x :: l) = (x.tid = tid ∧ x.flags = { «end» := false, start := st } ∧
          x.len = x.buf.length ∧ 0 < x.buf.length ∧ x.buf.length ≤ mru ∧ x.extensions = [] ∧ Run mru tid false l) := by
        intro st x l hl
        cases l with
        | nil => simp [Run] at hl
        | cons y ys => rfl
      constructor
      · rw [List.map_cons, key]
        rw [key2 _ _ _ hih]
        exact ⟨rfl, rfl, rfl, hc.1, hc.2, rfl, hih⟩
      · rw [List.map_cons, setStart, key]
        rw [key2 _ _ _ hih]
        exact ⟨rfl, rfl, rfl, hc.1, hc.2, rfl, hih⟩

theorem bytesOf_setEnd (l : List XferSeg) : bytesOf (setEnd l) = bytesOf l := by
  induction l with
  | nil => rfl
  | cons x l ih =>
    cases l with
    | nil => rfl
    | cons y ys =>
      simp only [setEnd]
      simp only [bytesOf, List.map_cons, List.flatten_cons] at ih ⊢
      rw [ih]

theorem bytesOf_setStart (l : List XferSeg) : bytesOf (setStart l) = bytesOf l := by
  cases l <;> rfl

theorem setEnd_length (l : List XferSeg) : (setEnd l).length = l.length := by
  induction l with
  | nil => rfl
  | cons x l ih =>
    cases l with
    | nil => rfl
    | cons y ys => simp only [setEnd, List.length_cons] at ih ⊢; rw [ih]

theorem bytesOf_plain (tid : Nat) (cs : List Bytes) : bytesOf (cs.map (plain tid)) = cs.flatten := by
  unfold bytesOf
  rw [List.map_map]
  congr 1
  induction cs with
  | nil => rfl
  | cons c cs ih => simp only [List.map_cons, ih]; rfl

theorem segments_spec {refuse : Bool} {tid mru : Nat} {data : Bytes} (hm : 0 < mru) :
    (segments refuse tid mru data = [] ↔ data = []) ∧
    bytesOf (segments refuse tid mru data) = data ∧
    (data ≠ [] → Run mru tid (!refuse) (segments refuse tid mru data)) := by
  have hfl := chunks_flatten hm data
  have hb := chunks_bounds hm data
  have hne : chunks mru data = [] ↔ data = [] := by
    constructor
    · intro h; rw [h] at hfl; exact hfl.symm
    · intro h; subst h; rfl
  have e : segments refuse tid mru data =
      setEnd (if refuse then (chunks mru data).map (plain tid) else setStart ((chunks mru data).map (plain tid))) := rfl
  have hbytes : bytesOf (segments refuse tid mru data) = data := by
    rw [e, bytesOf_setEnd]
    split
    · rw [bytesOf_plain, hfl]
    · rw [bytesOf_setStart, bytesOf_plain, hfl]
  refine ⟨?_, hbytes, ?_⟩
  · constructor
    · intro h; rw [h] at hbytes; exact hbytes.symm
    · intro h
      rw [e]; subst h
      cases refuse <;> rfl
  · intro hd
    have := setEnd_run (mru := mru) (tid := tid) (chunks mru data) (fun h => hd (hne.mp h)) hb
    rw [e]
    cases refuse
    · exact this.2
    · exact this.1

theorem Run.ne_nil {mru tid : Nat} {st : Bool} {l : List XferSeg} (h : Run mru tid st l) : l ≠ [] := by
  intro hl; subst hl; cases st <;> simp [Run] at h

theorem Run.isSegmentation {mru tid : Nat} : ∀ {st : Bool} {l : List XferSeg}, Run mru tid st l →
    IsSegmentation st tid mru (bytesOf l) l := by
  intro st l
  induction l generalizing st with
  | nil => intro h; simp [Run] at h
  | cons s l ih =>
    intro h
    cases l with
    | nil =>
      simp only [Run] at h
      obtain ⟨h1, h2, h3, h4, h5, h6⟩ := h
      refine ⟨rfl, by simp [*], ?_, ?_⟩
      · intro i x hx
        cases i with
        | zero => simp at hx; subst hx; simp [h2]
        | succ i => simp at hx
      · intro i x hx
        cases i with
        | zero => simp at hx; subst hx; simp [h2]
        | succ i => simp at hx
    | cons t ss =>
      simp only [Run] at h
      obtain ⟨h1, h2, h3, h4, h5, h6, h7⟩ := h
      have hih := ih h7
      refine ⟨rfl, ?_, ?_, ?_⟩
      · intro x hx
        rcases List.mem_cons.mp hx with rfl | hx
        · exact ⟨h4, h5, h3, h1⟩
        · exact hih.bounds x hx
      · intro i x hx
        cases i with
        | zero => simp at hx; subst hx; simp [h2]
        | succ i =>
          rw [List.getElem?_cons_succ] at hx
          rw [hih.startFlag i x hx]; simp
      · intro i x hx
        cases i with
        | zero => simp at hx; subst hx; simp [h2]
        | succ i =>
          rw [List.getElem?_cons_succ] at hx
          rw [hih.endFlag i x hx]; simp

end Dtn.Tcpcl
