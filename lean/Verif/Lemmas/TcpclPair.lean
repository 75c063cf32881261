import Verif.Lemmas.TcpclSend
import Mathlib.Data.List.Induction
/-! Lemmas about two connected TCPCL sessions. -/

namespace Dtn.Tcpcl
open Dtn.Spec

/-! ### Cutting segment sequences at START flags -/

/-- A sequence of segments with START exactly on the first one. -/
def StartRun (l : List XferSeg) : Prop :=
  ∃ x t, l = x :: t ∧ x.flags.start = true ∧ ∀ y ∈ t, y.flags.start = false

/-- Empty or starting with a START segment. -/
def StartsOk (l : List XferSeg) : Prop := l = [] ∨ ∃ x t, l = x :: t ∧ x.flags.start = true

theorem startsOk_flatten {ls : List (List XferSeg)} (h : ∀ l ∈ ls, StartRun l) : StartsOk ls.flatten := by
  cases ls with
  | nil => left; rfl
  | cons l ls =>
    obtain ⟨x, t, rfl, hx, _⟩ := h l (by simp)
    right; exact ⟨x, t ++ ls.flatten, rfl, hx⟩

theorem cut_start {t u A B : List XferSeg} (ht : ∀ y ∈ t, y.flags.start = false)
    (hu : ∀ y ∈ u, y.flags.start = false) (hA : StartsOk A) (hB : StartsOk B) (h : t ++ A <+: u ++ B) :
    (t <+: u ∧ A = []) ∨ (t = u ∧ A <+: B) := by
  induction t generalizing u with
  | nil =>
    rcases hA with rfl | ⟨x, A', rfl, hx⟩
    · left; exact ⟨List.nil_prefix, rfl⟩
    · right
      cases u with
      | nil => exact ⟨rfl, by simpa using h⟩
      | cons y u =>
        simp only [List.nil_append, List.cons_append] at h
        have := (List.cons_prefix_cons.mp h).1
        subst this
        simp [hu x (by simp)] at hx
  | cons a t ih =>
    cases u with
    | nil =>
      rcases hB with rfl | ⟨x, B', rfl, hx⟩
      · simp at h
      · simp only [List.nil_append, List.cons_append] at h
        have := (List.cons_prefix_cons.mp h).1
        subst this
        simp [ht a (by simp)] at hx
    | cons b u =>
      simp only [List.cons_append] at h
      obtain ⟨rfl, h'⟩ := List.cons_prefix_cons.mp h
      rcases ih (fun y hy => ht y (by simp [hy])) (fun y hy => hu y (by simp [hy])) h' with h2 | h2
      · left; exact ⟨List.cons_prefix_cons.mpr ⟨rfl, h2.1⟩, h2.2⟩
      · right; exact ⟨by rw [h2.1], h2.2⟩

theorem cut_runs {gs ps : List (List XferSeg)} (hg : ∀ g ∈ gs, StartRun g) (hp : ∀ p ∈ ps, StartRun p)
    (h : gs.flatten <+: ps.flatten) :
    ∀ (i : Nat) g, gs[i]? = some g → ∃ p, ps[i]? = some p ∧ g <+: p := by
  induction gs generalizing ps with
  | nil => intro i g hi; simp at hi
  | cons g gs ih =>
    obtain ⟨x, t, rfl, hx, ht⟩ := hg g (by simp)
    cases ps with
    | nil => simp at h
    | cons p ps =>
      obtain ⟨y, u, rfl, hy, hu⟩ := hp p (by simp)
      simp only [List.flatten_cons, List.cons_append] at h
      obtain ⟨rfl, h'⟩ := List.cons_prefix_cons.mp h
      have hA := startsOk_flatten (ls := gs) (fun l hl => hg l (by simp [hl]))
      have hB := startsOk_flatten (ls := ps) (fun l hl => hp l (by simp [hl]))
      intro i g hi
      rcases cut_start ht hu hA hB h' with ⟨h1, h2⟩ | ⟨h1, h2⟩
      · cases i with
        | zero =>
          simp at hi; subst hi
          exact ⟨x :: u, by simp, List.cons_prefix_cons.mpr ⟨rfl, h1⟩⟩
        | succ i =>
          rw [List.getElem?_cons_succ] at hi
          have hgs : gs = [] := by
            cases gs with
            | nil => rfl
            | cons g' gs' =>
              obtain ⟨z, w, rfl, _, _⟩ := hg g' (by simp)
              simp at h2
          subst hgs; simp at hi
      · cases i with
        | zero =>
          simp at hi; subst hi
          exact ⟨x :: u, by simp, by rw [h1]; exact List.prefix_refl _⟩
        | succ i =>
          rw [List.getElem?_cons_succ] at hi ⊢
          exact ih (fun l hl => hg l (by simp [hl])) (fun l hl => hp l (by simp [hl])) h2 i g hi

theorem startRun_of_flags {l : List XferSeg} (hne : l ≠ [])
    (h : ∀ i s, l[i]? = some s → (s.flags.start = true ↔ i = 0)) : StartRun l := by
  cases l with
  | nil => exact absurd rfl hne
  | cons x t =>
    refine ⟨x, t, rfl, (h 0 x rfl).mpr rfl, ?_⟩
    intro y hy
    obtain ⟨i, hi⟩ := List.getElem?_of_mem hy
    have := h (i + 1) y (by rw [List.getElem?_cons_succ]; exact hi)
    cases hs : y.flags.start
    · rfl
    · exact absurd (this.mp hs) (by omega)

theorem Group.Ok.startRun {refused : List Bytes} {g : Group} (h : g.Ok refused) : StartRun g.1 := by
  unfold Group.Ok at h
  split at h
  · exact startRun_of_flags h.1 h.2.2.2.1
  · obtain ⟨d, h1, h2, _⟩ := h
    exact ⟨d, [], h1, h2, by simp⟩

theorem IsPending.startRun {l : List XferSeg} {tid : Nat} (h : IsPending l tid) : StartRun l :=
  startRun_of_flags h.1 h.2.2.1

/-! ### The parts written by the sender -/

theorem PartOk.startRun {e : Env} {refuse : Bool} {mru tid : Nat} {data : Bytes} {part : List XferSeg}
    (h : PartOk e refuse mru tid data part) (hp : e.parses data = true) (hd : data ≠ []) : StartRun part := by
  unfold PartOk at h
  split at h
  · rcases h with ⟨_, h⟩ | ⟨rest, rfl, h⟩
    · simp [hp] at h
    · refine ⟨_, rest, rfl, rfl, ?_⟩
      rcases h with rfl | h
      · simp
      · intro y hy
        obtain ⟨i, hi⟩ := List.getElem?_of_mem hy
        have := h.startFlag i y hi
        cases hs : y.flags.start
        · rfl
        · simpa using this.mp hs
  · refine startRun_of_flags ?_ ?_
    · intro hnil; subst hnil; exact hd h.1.concat.symm
    · intro i s hs; rw [h.1.startFlag i s hs]; simp

theorem PartOk.tid {e : Env} {refuse : Bool} {mru tid : Nat} {data : Bytes} {part : List XferSeg}
    (h : PartOk e refuse mru tid data part) : ∀ d ∈ part, d.tid = tid := by
  unfold PartOk at h
  split at h
  · rcases h with ⟨rfl, _⟩ | ⟨rest, rfl, h⟩
    · simp
    · intro d hd
      rcases List.mem_cons.mp hd with rfl | hd
      · rfl
      · rcases h with rfl | h
        · simp at hd
        · exact (h.bounds d hd).2.2.2
  · intro d hd; exact (h.1.bounds d hd).2.2.2

theorem PartOk.lenOk {e : Env} {refuse : Bool} {mru tid : Nat} {data : Bytes} {part : List XferSeg}
    (h : PartOk e refuse mru tid data part) : ∀ d ∈ part, d.len = d.buf.length := by
  unfold PartOk at h
  split at h
  · rcases h with ⟨rfl, _⟩ | ⟨rest, rfl, h⟩
    · simp
    · intro d hd
      rcases List.mem_cons.mp hd with rfl | hd
      · rfl
      · rcases h with rfl | h
        · simp at hd
        · exact (h.bounds d hd).2.2.1
  · intro d hd; exact (h.1.bounds d hd).2.2.1

theorem PartOk.ext {e : Env} {refuse : Bool} {mru tid : Nat} {data : Bytes} {d : XferSeg} {t : List XferSeg}
    (h : PartOk e refuse mru tid data (d :: t)) (hr : refuse = true) :
    ∀ x ∈ d.extensions, x.data = e.bundleId data := by
  unfold PartOk at h
  rw [if_pos hr] at h
  rcases h with ⟨h, _⟩ | ⟨rest, h, _⟩
  · simp at h
  · obtain ⟨rfl, rfl⟩ := List.cons.inj h
    intro x hx
    simp [Sess.requestSeg] at hx
    subst hx; rfl

theorem bytesOf_append (a b : List XferSeg) : bytesOf (a ++ b) = bytesOf a ++ bytesOf b := by
  simp [bytesOf]

/-- A prefix of a segmentation that ends in an END segment, or that has all the bytes, is the whole segmentation. -/
theorem segmentation_prefix {st : Bool} {tid mru : Nat} {data : Bytes} {part g : List XferSeg}
    (h : IsSegmentation st tid mru data part) (hg : g <+: part)
    (hend : (∃ d ∈ g, d.flags.end = true) ∨ data.length ≤ (bytesOf g).length) : g = part := by
  obtain ⟨r, hr⟩ := hg
  cases r with
  | nil => simpa using hr
  | cons x r =>
    exfalso
    rcases hend with ⟨d, hd, he⟩ | hle
    · obtain ⟨i, hi⟩ := List.getElem?_of_mem hd
      have hil : i < g.length := (List.getElem?_eq_some_iff.mp hi).1
      have h1 : part[i]? = some d := by rw [← hr, List.getElem?_append_left hil]; exact hi
      have h2 := (h.endFlag i d h1).mp he
      rw [← hr] at h2
      simp at h2; omega
    · have hx := (h.bounds x (by rw [← hr]; simp)).1
      have hc : bytesOf part = data := h.concat
      rw [← hr, bytesOf_append] at hc
      have hl := congrArg List.length hc
      simp only [List.length_append] at hl
      have : (bytesOf (x :: r)).length = x.buf.length + (bytesOf r).length := by
        simp [bytesOf]
      omega

/-- A prefix of the part written for a request that ends in END, or that has all the bytes, holds exactly the
bytes of the request and has an END flag. -/
theorem PartOk.prefix_full {e : Env} {refuse : Bool} {mru tid : Nat} {data : Bytes} {part g : List XferSeg}
    (h : PartOk e refuse mru tid data part) (hd : data ≠ []) (hg : g <+: part)
    (hend : (∃ d ∈ g, d.flags.end = true) ∨ data.length ≤ (bytesOf g).length) :
    bytesOf g = data ∧ ∃ d ∈ g, d.flags.end = true := by
  have hlen : 0 < data.length := List.length_pos_iff.mpr hd
  have key : ∀ {st rest}, IsSegmentation st tid mru data rest →
      bytesOf rest = data ∧ ∃ d ∈ rest, d.flags.end = true := by
    intro st rest hseg
    refine ⟨hseg.concat, ?_⟩
    have hne : rest ≠ [] := by rintro rfl; exact hd hseg.concat.symm
    have hl : 0 < rest.length := List.length_pos_iff.mpr hne
    refine ⟨rest[rest.length - 1], List.getElem_mem (by omega), ?_⟩
    exact (hseg.endFlag (rest.length - 1) _ (List.getElem?_eq_getElem (by omega))).mpr (by omega)
  unfold PartOk at h
  split at h
  · rcases h with ⟨rfl, _⟩ | ⟨rest, rfl, h⟩
    · rw [List.prefix_nil.mp hg] at hend
      rcases hend with ⟨d, hd', _⟩ | hend
      · simp at hd'
      · simp [bytesOf] at hend; exact absurd hend hd
    · have hreq : bytesOf [Sess.requestSeg e tid data] = [] := rfl
      cases g with
      | nil =>
        rcases hend with ⟨d, hd', _⟩ | hend
        · simp at hd'
        · simp [bytesOf] at hend; exact absurd hend hd
      | cons y g =>
        obtain ⟨rfl, hg'⟩ := List.cons_prefix_cons.mp hg
        have hb : bytesOf (Sess.requestSeg e tid data :: g) = bytesOf g := rfl
        have hend' : (∃ d ∈ g, d.flags.end = true) ∨ data.length ≤ (bytesOf g).length := by
          rcases hend with ⟨d, hd', he⟩ | hend
          · rcases List.mem_cons.mp hd' with rfl | hd'
            · simp [Sess.requestSeg] at he
            · exact Or.inl ⟨d, hd', he⟩
          · exact Or.inr (by rw [hb] at hend; exact hend)
        rcases h with rfl | h
        · rw [List.prefix_nil.mp hg'] at hend'
          rcases hend' with ⟨d, hd', _⟩ | hend'
          · simp at hd'
          · simp [bytesOf] at hend'; exact absurd hend' hd
        · have hgr := segmentation_prefix h hg' hend'
          subst hgr
          obtain ⟨h1, d, h2, h3⟩ := key h
          exact ⟨by rw [hb]; exact h1, d, by simp [h2], h3⟩
  · have hgr := segmentation_prefix h.1 hg hend
    subst hgr
    exact key h.1

/-! ### What a session has read -/

/-- The messages a session has read in a history. -/
def recvs (evs : List ((Bytes → Bool) × Sess.Ev)) : List Packet :=
  evs.filterMap fun x => match x.2 with
    | .recv p => some p
    | _ => none

theorem recvs_snoc (evs : List ((Bytes → Bool) × Sess.Ev)) (x : (Bytes → Bool) × Sess.Ev) :
    recvs (evs ++ [x]) = recvs evs ++ recvs [x] := by simp [recvs]

theorem segs_of_not {x : (Bytes → Bool) × Sess.Ev} (h : ∀ d, x.2 ≠ .recv (.xferSeg d)) : segsIn (recvs [x]) = [] := by
  unfold recvs
  obtain ⟨has, ev⟩ := x
  cases ev with
  | recv p => cases p <;> simp_all [segsIn]
  | _ => rfl

/-- Which segments are in the log after one more event. -/
theorem step_handled {e : Env} {s : Sess} {ev : Sess.Ev} :
    ((∀ d, ev ≠ .recv (.xferSeg d)) → (s.step e ev).handled = s.handled) ∧
    ((s.step e ev).isTerminated = true ∧ (s.step e ev).handled = s.handled ∨
      ∀ d, ev = .recv (.xferSeg d) → ∃ b, (s.step e ev).handled = s.handled ++ [(d, b)]) := by
  by_cases hs : s.isTerminated = true
  · constructor
    · intro _; simp [Sess.step, hs]
    · left; simp [Sess.step, hs]
  have hs : s.isTerminated = false := by simpa using hs
  constructor
  · intro hev
    cases ev with
    | recv p =>
      by_cases hk : p = .keepAlive
      · subst hk
        unfold Sess.step
        simp only [hs, Bool.false_eq_true, if_false]
        split <;> rfl
      · rw [step_recv hs hk]
        exact (SameRx.receive e s p hs (fun d hd => hev d (by rw [hd]))).handled
    | request data =>
      unfold Sess.step
      simp only [hs, Bool.false_eq_true, if_false]
      split
      · exact (SameRx.request e s data hs).handled
      · rfl
    | closed =>
      unfold Sess.step
      simp only [hs, Bool.false_eq_true, if_false]
      split <;> rfl
    | timeout =>
      unfold Sess.step
      simp only [hs, Bool.false_eq_true, if_false]
      split <;> split <;> rfl
    | lost =>
      unfold Sess.step
      simp only [hs, Bool.false_eq_true, if_false]
      rfl
  · by_cases hev : ∃ d, ev = .recv (.xferSeg d)
    · obtain ⟨d, rfl⟩ := hev
      rw [step_recv hs (by intro h; cases h)]
      simp only [Sess.receive]
      have hpb : ∀ (s' : Sess) buf tid, (s'.processBundle e buf tid).handled = s'.handled := by
        intro s' buf tid; unfold Sess.processBundle; split <;> rfl
      have ht : s.terminated.isTerminated = true := by simp [Sess.terminated, Sess.isTerminated]
      unfold Sess.receiveSeg
      split
      · split
        · left; exact ⟨ht, rfl⟩
        · split
          · left; exact ⟨ht, rfl⟩
          · right; intro d' hd'; cases hd'
            refine ⟨true, ?_⟩
            simp only
            split
            · rw [hpb]; rfl
            · rfl
      · split
        · left; exact ⟨ht, rfl⟩
        · split
          · right; intro d' hd'; cases hd'; exact ⟨false, rfl⟩
          · right; intro d' hd'; cases hd'
            refine ⟨true, ?_⟩
            simp only
            split
            · rw [hpb]; rfl
            · rfl
      · left; exact ⟨ht, rfl⟩
    · right; intro d hd; exact absurd ⟨d, hd⟩ hev

theorem handled_prefix (e : Env) (s0 : Sess) (h0 : s0.handled = []) (evs : List ((Bytes → Bool) × Sess.Ev)) :
    (s0.run e evs).handled.map (·.1) <+: segsIn (recvs evs) ∧
    ((s0.run e evs).isTerminated = false → (s0.run e evs).handled.map (·.1) = segsIn (recvs evs)) := by
  induction evs using List.reverseRecOn with
  | nil => simp [Sess.run, h0, recvs, segsIn]
  | append_singleton evs x ih =>
    rw [run_snoc, recvs_snoc, segsIn_append]
    have hst := step_handled (e := { e with hasItem := x.1 }) (s := s0.run e evs) (ev := x.2)
    have hmono : (s0.run e evs).isTerminated = true →
        ((s0.run e evs).step { e with hasItem := x.1 } x.2) = s0.run e evs := by
      intro h; simp [Sess.step, h]
    by_cases hev : ∃ d, x.2 = .recv (.xferSeg d)
    · obtain ⟨d, hd⟩ := hev
      have hx : segsIn (recvs [x]) = [d] := by
        obtain ⟨has, ev⟩ := x
        simp only at hd
        subst hd
        rfl
      rw [hx]
      rcases hst.2 with ⟨h1, h2⟩ | h
      · rw [h1, h2]
        exact ⟨ih.1.trans (List.prefix_append _ _), by simp⟩
      · obtain ⟨b, hb⟩ := h d hd
        by_cases ht : (s0.run e evs).isTerminated = true
        · rw [hmono ht, ht]
          exact ⟨ih.1.trans (List.prefix_append _ _), by simp⟩
        · have := ih.2 (by simpa using ht)
          rw [hb, List.map_append, this]
          exact ⟨List.prefix_refl _, fun _ => rfl⟩
    · have hev' : ∀ d, x.2 ≠ .recv (.xferSeg d) := fun d hd => hev ⟨d, hd⟩
      rw [hst.1 hev', segs_of_not hev', List.append_nil]
      refine ⟨ih.1, fun h => ih.2 ?_⟩
      by_cases ht : (s0.run e evs).isTerminated = true
      · rw [hmono ht] at h; exact h
      · simpa using ht

/-! ### Logs only grow -/

theorem sendBundle_out (s : Sess) (data : Bytes) (req : Nat) :
    s.out <+: (s.sendBundle data req).out ∧ s.requests = (s.sendBundle data req).requests := by
  unfold Sess.sendBundle
  split
  · exact ⟨List.prefix_refl _, rfl⟩
  · simp only
    split
    · exact ⟨List.prefix_refl _, rfl⟩
    · rw [foldl_send_fields]; exact ⟨List.prefix_append _ _, rfl⟩

theorem step_out (e : Env) (s : Sess) (ev : Sess.Ev) :
    s.out <+: (s.step e ev).out ∧ s.requests <+: (s.step e ev).requests := by
  by_cases hs : s.isTerminated = true
  · simp [Sess.step, hs]
  have hs : s.isTerminated = false := by simpa using hs
  cases ev with
  | recv p =>
    by_cases hk : p = .keepAlive
    · subst hk
      unfold Sess.step
      simp only [hs, Bool.false_eq_true, if_false]
      split <;> simp [Sess.send]
    rw [step_recv hs hk]
    simp only
    have hpb : ∀ (s' : Sess) buf tid, s'.out <+: (s'.processBundle e buf tid).out ∧
        s'.requests <+: (s'.processBundle e buf tid).requests := by
      intro s' buf tid; unfold Sess.processBundle; split <;> simp [Sess.send]
    unfold Sess.receive
    split
    · split <;> simp [Sess.terminated, Sess.send]
    · unfold Sess.receiveSeg
      split
      · split
        · simp [Sess.terminated]
        · split
          · simp [Sess.terminated]
          · simp only
            split
            · exact ⟨List.IsPrefix.trans (by simp [Sess.send]) (hpb _ _ _).1,
                List.IsPrefix.trans (by simp [Sess.send]) (hpb _ _ _).2⟩
            · simp [Sess.send]
      · split
        · simp [Sess.terminated]
        · split
          · simp [Sess.send]
          · simp only
            split
            · exact ⟨List.IsPrefix.trans (by simp [Sess.send]) (hpb _ _ _).1,
                List.IsPrefix.trans (by simp [Sess.send]) (hpb _ _ _).2⟩
            · simp [Sess.send]
      · simp [Sess.terminated]
    · split
      · split
        · simp [Sess.terminated]
        · exact ⟨(sendBundle_out _ _ _).1, by rw [← (sendBundle_out _ _ _).2]; simp⟩
      · split
        · simp [Sess.terminated]
        · split <;> simp [Sess.respond]
      · simp [Sess.terminated]
    · split
      · split <;> simp [Sess.terminated, Sess.respond]
      · split <;> simp [Sess.terminated, Sess.respond]
      · simp [Sess.terminated]
    · simp [Sess.terminated]
  | request data =>
    unfold Sess.step
    simp only [hs, Bool.false_eq_true, if_false]
    split
    · unfold Sess.request
      simp only
      split
      · split <;> simp [Sess.send, Sess.terminated]
      · refine ⟨List.IsPrefix.trans (by simp) (sendBundle_out _ _ _).1, ?_⟩
        rw [← (sendBundle_out _ _ _).2]; simp
    · simp
  | closed =>
    unfold Sess.step
    simp only [hs, Bool.false_eq_true, if_false]
    split <;> simp [Sess.terminate, Sess.terminated, Sess.send]
  | timeout =>
    unfold Sess.step
    simp only [hs, Bool.false_eq_true, if_false]
    split <;> split <;> simp [Sess.terminate, Sess.terminated, Sess.send]
  | lost =>
    unfold Sess.step
    simp only [hs, Bool.false_eq_true, if_false]
    simp [Sess.terminated]

theorem run_out (e : Env) (s : Sess) (evs : List ((Bytes → Bool) × Sess.Ev)) :
    s.out <+: (s.run e evs).out ∧ s.requests <+: (s.run e evs).requests := by
  induction evs using List.reverseRecOn with
  | nil => simp [Sess.run]
  | append_singleton evs x ih =>
    rw [run_snoc]
    have := step_out { e with hasItem := x.1 } (s.run e evs) x.2
    exact ⟨ih.1.trans this.1, ih.2.trans this.2⟩

/-! ### The pair as two single sessions -/

/-- The data of the requests made at one end. -/
def LocalRequests (P : Bytes → Prop) (evs : List Pair.Ev) : Prop :=
  ∀ d, .atA (.request d) ∈ evs → P d

theorem take_prefix {l l' : List Packet} (h : l <+: l') {n : Nat} (hn : n ≤ l.length) : l'.take n = l.take n := by
  obtain ⟨t, rfl⟩ := h
  rw [List.take_append_of_le_length hn]

theorem take_succ_getElem? {l : List Packet} {n : Nat} {m : Packet} (h : l[n]? = some m) :
    l.take (n + 1) = l.take n ++ [m] := by
  rw [List.take_add_one, h]; rfl

/-- Each end of the pair has run as a single session that reads what the other end has written. -/
structure Proj (e : Env) (a0 b0 : Sess) (p : Pair) (evs : List Pair.Ev)
    (evsA evsB : List ((Bytes → Bool) × Sess.Ev)) : Prop where
  a : p.a = a0.run e evsA
  b : p.b = b0.run e evsB
  recvA : recvs evsA = p.b.out.take p.readA
  recvB : recvs evsB = p.a.out.take p.readB
  leA : p.readA ≤ p.b.out.length
  leB : p.readB ≤ p.a.out.length
  reqA : ∀ x ∈ evsA, ∀ d, x.2 = .request d → .atA (.request d) ∈ evs
  hasB : ∀ x ∈ evsB, (∃ p, x.2 = .recv p) → .toB x.1 ∈ evs

theorem recvs_local (has : Bytes → Bool) (l : Pair.LocalEv) : recvs [(has, l.toEv)] = [] := by
  cases l <;> rfl

theorem exists_proj (e : Env) (a0 b0 : Sess) (evs : List Pair.Ev) :
    ∃ evsA evsB, Proj e a0 b0 (Pair.run e { a := a0, b := b0 } evs) evs evsA evsB := by
  induction evs using List.reverseRecOn with
  | nil => exact ⟨[], [], rfl, rfl, rfl, rfl, by simp [Pair.run], by simp [Pair.run], by simp, by simp⟩
  | append_singleton evs x ih =>
    obtain ⟨evsA, evsB, h⟩ := ih
    have hrun : Pair.run e { a := a0, b := b0 } (evs ++ [x]) =
        (Pair.run e { a := a0, b := b0 } evs).step e x := by simp [Pair.run]
    rw [hrun]
    generalize Pair.run e { a := a0, b := b0 } evs = p at h ⊢
    have hA : ∀ y ∈ evsA, ∀ d, y.2 = .request d → .atA (.request d) ∈ evs ++ [x] :=
      fun y hy d hd => List.mem_append_left _ (h.reqA y hy d hd)
    have hB : ∀ y ∈ evsB, (∃ p, y.2 = .recv p) → .toB y.1 ∈ evs ++ [x] :=
      fun y hy hd => List.mem_append_left _ (h.hasB y hy hd)
    cases x with
    | toB has =>
      unfold Pair.step
      cases hm : p.a.out[p.readB]? with
      | none => exact ⟨evsA, evsB, h.a, h.b, h.recvA, h.recvB, h.leA, h.leB, hA, hB⟩
      | some m =>
        have hout := step_out { e with hasItem := has } p.b (.recv m)
        have hlt : p.readB < p.a.out.length := (List.getElem?_eq_some_iff.mp hm).1
        refine ⟨evsA, evsB ++ [(has, .recv m)], h.a, ?_, ?_, ?_, ?_, hlt, hA, ?_⟩
        · simp only; rw [run_snoc, ← h.b]
        · simp only; rw [take_prefix hout.1 h.leA]; exact h.recvA
        · rw [recvs_snoc, h.recvB, take_succ_getElem? hm]; rfl
        · exact Nat.le_trans h.leA hout.1.length_le
        · intro y hy hd
          rcases List.mem_append.mp hy with hy | hy
          · exact hB y hy hd
          · simp at hy; subst hy; simp
    | toA has =>
      unfold Pair.step
      cases hm : p.b.out[p.readA]? with
      | none => exact ⟨evsA, evsB, h.a, h.b, h.recvA, h.recvB, h.leA, h.leB, hA, hB⟩
      | some m =>
        have hout := step_out { e with hasItem := has } p.a (.recv m)
        have hlt : p.readA < p.b.out.length := (List.getElem?_eq_some_iff.mp hm).1
        refine ⟨evsA ++ [(has, .recv m)], evsB, ?_, h.b, ?_, ?_, hlt, ?_, ?_, hB⟩
        · simp only; rw [run_snoc, ← h.a]
        · rw [recvs_snoc, h.recvA, take_succ_getElem? hm]; rfl
        · simp only; rw [take_prefix hout.1 h.leB]; exact h.recvB
        · exact Nat.le_trans h.leB hout.1.length_le
        · intro y hy d hd
          rcases List.mem_append.mp hy with hy | hy
          · exact hA y hy d hd
          · simp at hy; subst hy; cases hd
    | atA l =>
      have hout := step_out e p.a l.toEv
      refine ⟨evsA ++ [(e.hasItem, l.toEv)], evsB, ?_, h.b, ?_, ?_, h.leA, ?_, ?_, hB⟩
      · simp only [Pair.step]; rw [run_snoc, ← h.a]
      · rw [recvs_snoc, recvs_local, List.append_nil, h.recvA]; rfl
      · simp only [Pair.step]; rw [take_prefix hout.1 h.leB]; exact h.recvB
      · exact Nat.le_trans h.leB hout.1.length_le
      · intro y hy d hd
        rcases List.mem_append.mp hy with hy | hy
        · exact hA y hy d hd
        · simp at hy; subst hy
          cases l <;> simp [Pair.LocalEv.toEv] at hd
          subst hd; simp
    | atB l =>
      have hout := step_out e p.b l.toEv
      refine ⟨evsA, evsB ++ [(e.hasItem, l.toEv)], h.a, ?_, ?_, ?_, ?_, h.leB, hA, ?_⟩
      · simp only [Pair.step]; rw [run_snoc, ← h.b]
      · simp only [Pair.step]; rw [take_prefix hout.1 h.leA]; exact h.recvA
      · rw [recvs_snoc, recvs_local, List.append_nil, h.recvB]; rfl
      · exact Nat.le_trans h.leA hout.1.length_le
      · intro y hy hd
        rcases List.mem_append.mp hy with hy | hy
        · exact hB y hy hd
        · simp at hy; subst hy
          obtain ⟨q, hq⟩ := hd
          cases l <;> simp [Pair.LocalEv.toEv] at hq

/-! ### Requests and refusals of a single session -/

theorem receive_requests (e : Env) (s : Sess) (p : Packet) : (s.receive e p).requests = s.requests := by
  have hpb : ∀ (s' : Sess) buf tid, (s'.processBundle e buf tid).requests = s'.requests := by
    intro s' buf tid; unfold Sess.processBundle; split <;> rfl
  unfold Sess.receive
  split
  · split <;> rfl
  · unfold Sess.receiveSeg
    split
    · split
      · rfl
      · split
        · rfl
        · simp only
          split
          · rw [hpb]; rfl
          · rfl
    · split
      · rfl
      · split
        · rfl
        · simp only
          split
          · rw [hpb]; rfl
          · rfl
    · rfl
  · split
    · split
      · rfl
      · exact (sendBundle_out _ _ _).2.symm
    · split
      · rfl
      · split <;> rfl
    · rfl
  · split
    · split <;> rfl
    · split <;> rfl
    · rfl
  · rfl

theorem step_requests {e : Env} {s : Sess} {ev : Sess.Ev} {d : Bytes} (h : d ∈ (s.step e ev).requests) :
    d ∈ s.requests ∨ ev = .request d := by
  by_cases hs : s.isTerminated = true
  · left; simpa [Sess.step, hs] using h
  have hs : s.isTerminated = false := by simpa using hs
  cases ev with
  | recv p =>
    left
    by_cases hk : p = .keepAlive
    · subst hk; rw [(step_keepAlive_tx hs).requests] at h; exact h
    · rw [step_recv hs hk] at h
      simp only [receive_requests] at h; exact h
  | request data =>
    unfold Sess.step at h
    simp only [hs, Bool.false_eq_true, if_false] at h
    split at h
    · have : (s.request e data).requests = s.requests ++ [data] := by
        unfold Sess.request
        simp only
        split
        · split <;> rfl
        · exact (sendBundle_out _ _ _).2.symm
      rw [this] at h
      rcases List.mem_append.mp h with h | h
      · exact Or.inl h
      · simp at h; subst h; exact Or.inr rfl
    · exact Or.inl h
  | closed =>
    left
    unfold Sess.step at h
    simp only [hs, Bool.false_eq_true, if_false] at h
    split at h <;> exact h
  | timeout => left; rw [(step_timeout_tx hs).requests] at h; exact h
  | lost =>
    left
    unfold Sess.step at h
    simp only [hs, Bool.false_eq_true, if_false] at h
    exact h

theorem run_requests (e : Env) (s0 : Sess) (h0 : s0.requests = []) (evs : List ((Bytes → Bool) × Sess.Ev)) :
    ∀ d ∈ (s0.run e evs).requests, ∃ x ∈ evs, x.2 = .request d := by
  induction evs using List.reverseRecOn with
  | nil => intro d hd; simp [Sess.run, h0] at hd
  | append_singleton evs x ih =>
    intro d hd
    rw [run_snoc] at hd
    rcases step_requests hd with h | h
    · obtain ⟨y, hy, hy'⟩ := ih d h
      exact ⟨y, List.mem_append_left _ hy, hy'⟩
    · exact ⟨x, by simp, h⟩

theorem receiveSeg_refused {e : Env} {s : Sess} {d : XferSeg} {x : Bytes}
    (h : x ∈ (s.receiveSeg e d).refused) : x ∈ s.refused ∨ (e.hasItem x = true ∧ s.refuseExisting = true) := by
  have hpb : ∀ (s' : Sess) buf tid, (s'.processBundle e buf tid).refused = s'.refused := by
    intro s' buf tid; unfold Sess.processBundle; split <;> rfl
  unfold Sess.receiveSeg at h
  split at h
  · split at h
    · exact Or.inl h
    · split at h
      · exact Or.inl h
      · simp only at h
        split at h
        · rw [hpb] at h; exact Or.inl h
        · exact Or.inl h
  · split at h
    · exact Or.inl h
    · split at h
      · next hr =>
        simp only [List.mem_append, List.mem_filter] at h
        rcases h with h | h
        · exact Or.inl h
        · simp only [Sess.refuses, Bool.and_eq_true] at hr
          exact Or.inr ⟨h.2, hr.1.2⟩
      · simp only at h
        split at h
        · rw [hpb] at h; exact Or.inl h
        · exact Or.inl h
  · exact Or.inl h

theorem step_refused {e : Env} {s : Sess} {ev : Sess.Ev} {x : Bytes} (h : x ∈ (s.step e ev).refused) :
    x ∈ s.refused ∨ (e.hasItem x = true ∧ (∃ p, ev = .recv p) ∧ s.refuseExisting = true) := by
  by_cases hs : s.isTerminated = true
  · left; simpa [Sess.step, hs] using h
  have hs : s.isTerminated = false := by simpa using hs
  by_cases hseg : ∃ d, ev = .recv (.xferSeg d)
  · obtain ⟨d, rfl⟩ := hseg
    rw [step_recv hs (by intro h; cases h)] at h
    rcases receiveSeg_refused h with h | h
    · exact Or.inl h
    · exact Or.inr ⟨h.1, ⟨_, rfl⟩, h.2⟩
  · left
    cases ev with
    | recv p =>
      by_cases hk : p = .keepAlive
      · subst hk
        unfold Sess.step at h
        simp only [hs, Bool.false_eq_true, if_false] at h
        split at h <;> exact h
      · rw [step_recv hs hk] at h
        have := (SameRx.receive e s p hs (fun d hd => hseg ⟨d, by rw [hd]⟩)).refused
        simp only at h; rw [this] at h; exact h
    | request data =>
      unfold Sess.step at h
      simp only [hs, Bool.false_eq_true, if_false] at h
      split at h
      · rw [(SameRx.request e s data hs).refused] at h; exact h
      · exact h
    | closed =>
      unfold Sess.step at h
      simp only [hs, Bool.false_eq_true, if_false] at h
      split at h <;> exact h
    | timeout =>
      unfold Sess.step at h
      simp only [hs, Bool.false_eq_true, if_false] at h
      split at h <;> split at h <;> exact h
    | lost =>
      unfold Sess.step at h
      simp only [hs, Bool.false_eq_true, if_false] at h
      exact h

theorem run_refused (e : Env) (s0 : Sess) (h0 : s0.refused = []) (evs : List ((Bytes → Bool) × Sess.Ev)) :
    ∀ d ∈ (s0.run e evs).refused, ∃ x ∈ evs, x.1 d = true ∧ ∃ p, x.2 = .recv p := by
  induction evs using List.reverseRecOn with
  | nil => intro d hd; simp [Sess.run, h0] at hd
  | append_singleton evs x ih =>
    intro d hd
    rw [run_snoc] at hd
    rcases step_refused hd with h | h
    · obtain ⟨y, hy, hy'⟩ := ih d h
      exact ⟨y, List.mem_append_left _ hy, hy'⟩
    · exact ⟨x, by simp, h.1, h.2.1⟩

/-- The event that produced a successful result. -/
theorem success_event {e : Env} {refuse mru} (hm : 0 < mru) (s0 : Sess) (h0 : TxShape e refuse mru s0 [])
    (hr0 : s0.results = []) (evs : List ((Bytes → Bool) × Sess.Ev)) {k : Nat}
    (hk : (k, .successful) ∈ (s0.run e evs).results) :
    ∃ data, (s0.run e evs).requests[k]? = some data ∧
      ((∃ a, .xferAck a ∈ recvs evs ∧ a.tid = k + 1 ∧ data.length ≤ a.len) ∨
       (∃ r, .xferRefuse r (k + 1) ∈ recvs evs ∧ refuse = true)) := by
  induction evs using List.reverseRecOn with
  | nil => simp [Sess.run, hr0] at hk
  | append_singleton evs x ih =>
    rw [run_snoc] at hk ⊢
    have hmono := (step_out { e with hasItem := x.1 } (s0.run e evs) x.2).2
    have lift : ∀ {data : Bytes}, (s0.run e evs).requests[k]? = some data →
        ((s0.run e evs).step { e with hasItem := x.1 } x.2).requests[k]? = some data := by
      intro data hd
      obtain ⟨t, ht⟩ := hmono
      rw [← ht, List.getElem?_append_left (List.getElem?_eq_some_iff.mp hd).1]; exact hd
    by_cases hold : (k, TransferResult.successful) ∈ (s0.run e evs).results
    · obtain ⟨data, h1, h2⟩ := ih hold
      refine ⟨data, lift h1, ?_⟩
      rw [recvs_snoc]
      rcases h2 with ⟨a, h2, h3⟩ | ⟨r, h2, h3⟩
      · exact Or.inl ⟨a, List.mem_append_left _ h2, h3⟩
      · exact Or.inr ⟨r, List.mem_append_left _ h2, h3⟩
    · obtain ⟨parts, htx⟩ := TxShape.run hm evs h0
      obtain ⟨data, h1, _, h2⟩ := step_success (htx.env x.1) hk hold
      refine ⟨data, lift h1, ?_⟩
      rw [recvs_snoc]
      obtain ⟨has, ev⟩ := x
      rcases h2 with ⟨a, h2, h3, h4, _⟩ | ⟨r, h2, h3, _⟩
      · simp only at h2; subst h2
        exact Or.inl ⟨a, List.mem_append_right _ (by simp [recvs]), h3, h4⟩
      · simp only at h2; subst h2
        exact Or.inr ⟨r, List.mem_append_right _ (by simp [recvs]), h3⟩

/-! ### Acknowledgements and groups -/

theorem ackValues_run {l : List XferSeg} (hns : ∀ y ∈ l, y.flags.start = false) : ∀ n t m,
    (t, m) ∈ ackValues n l → (∃ d ∈ l, d.tid = t) ∧ m ≤ n + (bytesOf l).length := by
  induction l with
  | nil => intro n t m h; simp [ackValues] at h
  | cons x l ih =>
    intro n t m h
    simp only [ackValues, hns x (by simp), Bool.false_eq_true, if_false, List.mem_cons, Prod.mk.injEq] at h
    have hb : (bytesOf (x :: l)).length = x.buf.length + (bytesOf l).length := by simp [bytesOf]
    rcases h with ⟨rfl, rfl⟩ | h
    · exact ⟨⟨x, by simp, rfl⟩, by omega⟩
    · obtain ⟨⟨d, hd, hd'⟩, h2⟩ := ih (fun y hy => hns y (by simp [hy])) _ t m h
      exact ⟨⟨d, by simp [hd], hd'⟩, by omega⟩

theorem ackValues_startRun {l : List XferSeg} (h : StartRun l) (n t m : Nat) (hm : (t, m) ∈ ackValues n l) :
    (∃ d ∈ l, d.tid = t) ∧ m ≤ (bytesOf l).length := by
  obtain ⟨x, l, rfl, hx, hl⟩ := h
  simp only [ackValues, hx, if_true, List.mem_cons, Prod.mk.injEq] at hm
  have hb : (bytesOf (x :: l)).length = x.buf.length + (bytesOf l).length := by simp [bytesOf]
  rcases hm with ⟨rfl, rfl⟩ | hm
  · exact ⟨⟨x, by simp, rfl⟩, by omega⟩
  · obtain ⟨⟨d, hd, hd'⟩, h2⟩ := ackValues_run hl _ t m hm
    exact ⟨⟨d, by simp [hd], hd'⟩, by omega⟩

theorem ackValues_flatten {ls : List (List XferSeg)} (h : ∀ l ∈ ls, StartRun l) : ∀ n t m,
    (t, m) ∈ ackValues n ls.flatten → ∃ l ∈ ls, (∃ d ∈ l, d.tid = t) ∧ m ≤ (bytesOf l).length := by
  induction ls with
  | nil => intro n t m hm; simp [ackValues] at hm
  | cons l ls ih =>
    intro n t m hm
    rw [List.flatten_cons, ackValues_append] at hm
    rcases List.mem_append.mp hm with hm | hm
    · exact ⟨l, by simp, ackValues_startRun (h l (by simp)) n t m hm⟩
    · obtain ⟨l', h1, h2⟩ := ih (fun l hl => h l (by simp [hl])) _ t m hm
      exact ⟨l', by simp [h1], h2⟩

theorem accepted_groups {e : Env} {s : Sess} {groups pend} (h : RxShape e s groups pend) :
    accepted s = ((groups.filter (·.2.isSome)).map (·.1)).flatten ++ pend := by
  unfold accepted
  rw [h.split, List.filter_append, List.map_append]
  congr 1
  · clear h
    induction groups with
    | nil => rfl
    | cons g groups ih =>
      rw [List.map_cons, List.flatten_cons, List.filter_append, List.map_append, ih]
      obtain ⟨l, o⟩ := g
      cases o with
      | none => simp [Group.items, List.filter_map, Function.comp_def]
      | some d => simp [Group.items, List.filter_map, Function.comp_def]
  · simp [List.filter_map, Function.comp_def]

theorem sublist_of_index {α β : Type} (f : α → Option β) : ∀ (as : List α) (bs : List β),
    (∀ (i : Nat) a, as[i]? = some a → (∃ b, bs[i]? = some b ∧ ∀ b', f a = some b' → b' = b)) →
    (as.filterMap f).Sublist bs
  | [], bs, _ => by simp
  | a :: as, [], h => by
    obtain ⟨b, hb, _⟩ := h 0 a rfl
    simp at hb
  | a :: as, b :: bs, h => by
    have ih := sublist_of_index f as bs (fun i a' ha => by
      have := h (i + 1) a' (by rw [List.getElem?_cons_succ]; exact ha)
      simpa using this)
    obtain ⟨b0, hb0, h0⟩ := h 0 a rfl
    simp at hb0; subst hb0
    cases hf : f a with
    | none => rw [List.filterMap_cons, hf]; exact ih.cons _
    | some b' => rw [List.filterMap_cons, hf, h0 b' hf]; exact ih.cons_cons _

/-! ### The connection delivers -/

/-- The transfers a session has read, the one in progress last. -/
def runsOf (groups : List Group) (pend : List XferSeg) : List (List XferSeg) := groups.map (·.1) ++ (if pend = [] then [] else [pend])

/-- Two sessions at the ends of a connection: what the second has read lines up with what the first has written. -/
theorem conn_lined (e : Env) (refuseA refuseB : Bool) (initA initB initA' initB' : SessInit)
    (hmru : 0 < initB.segmentMru) (hempty : e.parses [] = false) {a b : Sess} {evsA evsB : List ((Bytes → Bool) × Sess.Ev)}
    (ha : a = (newSess refuseA initA initB).run e evsA) (hb : b = (newSess refuseB initB' initA').run e evsB)
    (hreq : ∀ d ∈ a.requests, e.parses d = true) (hrecvB : recvs evsB <+: a.out) :
    ∃ parts groups pend, TxShape e refuseA initB.segmentMru a parts ∧ RxShape e b groups pend ∧
      (∀ part ∈ parts, StartRun part) ∧ (∀ g ∈ runsOf groups pend, StartRun g) ∧
      (runsOf groups pend).flatten <+: parts.flatten ∧
      (b.isTerminated = false → recvs evsB = a.out → (runsOf groups pend).flatten = parts.flatten) := by
  obtain ⟨parts, htx⟩ := TxShape.run hmru evsA (TxShape.fresh e refuseA initA initB)
  rw [← ha] at htx
  have hparse : ∀ d ∈ a.requests, e.parses d = true ∧ d ≠ [] := by
    intro d hd
    have := hreq d hd
    refine ⟨this, ?_⟩
    rintro rfl; simp [hempty] at this
  have hpartAt : ∀ (i : Nat) part, parts[i]? = some part → ∃ data, a.requests[i]? = some data ∧
      PartOk e refuseA initB.segmentMru (i + 1) data part := by
    intro i part hi
    have hlt : i < a.requests.length := by
      rw [← htx.len]; exact (List.getElem?_eq_some_iff.mp hi).1
    exact ⟨a.requests[i], List.getElem?_eq_getElem hlt, htx.ok i _ part (List.getElem?_eq_getElem hlt) hi⟩
  have hpartsRun : ∀ part ∈ parts, StartRun part := by
    intro part hpm
    obtain ⟨i, hi⟩ := List.getElem?_of_mem hpm
    obtain ⟨data, h1, h2⟩ := hpartAt i part hi
    have := hparse data (List.mem_of_getElem? h1)
    exact h2.startRun this.1 this.2
  have hreadB : segsIn (recvs evsB) <+: parts.flatten := by
    rw [← htx.segs]
    obtain ⟨t, ht⟩ := hrecvB
    exact ⟨segsIn t, by rw [← segsIn_append, ht]⟩
  have hlenOk : ∀ x ∈ evsB, ∀ d, x.2 = .recv (.xferSeg d) → d.len = d.buf.length := by
    intro x hx d hd
    have hmem : d ∈ segsIn (recvs evsB) := by
      simp only [segsIn, recvs, List.mem_filterMap]
      exact ⟨.xferSeg d, ⟨x, hx, by rw [hd]⟩, rfl⟩
    obtain ⟨part, hpm, hdp⟩ := List.mem_flatten.mp (hreadB.subset hmem)
    obtain ⟨i, hi⟩ := List.getElem?_of_mem hpm
    obtain ⟨data, _, h2⟩ := hpartAt i part hi
    exact h2.lenOk d hdp
  obtain ⟨groups, pend, hrx⟩ := RxShape.run (e := e) (s := newSess refuseB initB' initA') evsB
    (RxShape.fresh ⟨_, _, _, rfl⟩) hlenOk
  rw [← hb] at hrx
  have hhandled := handled_prefix e (newSess refuseB initB' initA') rfl evsB
  rw [← hb] at hhandled
  have hgsFlat : (runsOf groups pend).flatten = b.handled.map (·.1) := by
    rw [hrx.split]
    have h1 : ((groups.map Group.items).flatten.map (·.1)) = (groups.map (·.1)).flatten := by
      rw [List.map_flatten, List.map_map]
      congr 1
      apply List.map_congr_left
      intro g _
      simp [Group.items, Function.comp_def]
    rw [List.map_append, h1]
    simp only [runsOf, List.flatten_append]
    congr 1
    split
    · next hnil => simp [hnil]
    · simp [Function.comp_def]
  have hgsRun : ∀ g ∈ runsOf groups pend, StartRun g := by
    intro g hg
    rcases List.mem_append.mp hg with hg | hg
    · obtain ⟨g', hg', rfl⟩ := List.mem_map.mp hg
      exact (hrx.ok g' hg').startRun
    · split at hg
      · simp at hg
      · next hne =>
        simp at hg; subst hg
        rcases hrx.pending with hnil | ⟨tid, ht⟩
        · exact absurd hnil hne
        · exact ht.startRun
  refine ⟨parts, groups, pend, htx, hrx, hpartsRun, hgsRun, ?_, ?_⟩
  · rw [hgsFlat]; exact hhandled.1.trans hreadB
  · intro ht hall
    rw [hgsFlat, hhandled.2 ht, hall, htx.segs]

/-- Two sessions at the ends of a connection: each has read a prefix of what the other has written. `fates`
says for the transfers that were read to their end what was made of them. -/
theorem conn_fates (e : Env) (refuseA refuseB : Bool) (initA initB initA' initB' : SessInit)
    (hmru : 0 < initB.segmentMru) (hempty : e.parses [] = false) {a b : Sess} {evsA evsB : List ((Bytes → Bool) × Sess.Ev)}
    (ha : a = (newSess refuseA initA initB).run e evsA) (hb : b = (newSess refuseB initB' initA').run e evsB)
    (hreq : ∀ d ∈ a.requests, e.parses d = true) (hrecvA : recvs evsA <+: b.out) (hrecvB : recvs evsB <+: a.out) :
    ∃ fates : List (Option Bytes), b.processed = fates.filterMap id ∧ b.broken = [] ∧
    (∀ (i : Nat) f, fates[i]? = some f → ∃ data, a.requests[i]? = some data ∧ ∀ d, f = some d → d = data) ∧
    ∀ k, (k, .successful) ∈ a.results → ∃ data, a.requests[k]? = some data ∧
      (fates[k]? = some (some data) ∨ (fates[k]? = some none ∧ refuseA = true ∧ ∃ x ∈ evsB, x.1 (e.bundleId data) = true ∧ (∃ p, x.2 = .recv p) ∧
        e.bundleId data ∈ b.refused)) := by
  obtain ⟨parts, groups, pend, htx, hrx, hpartsRun, hgsRun, hpre, _⟩ :=
    conn_lined e refuseA refuseB initA initB initA' initB' hmru hempty ha hb hreq hrecvB
  have hparse : ∀ d ∈ a.requests, e.parses d = true ∧ d ≠ [] := by
    intro d hd
    have := hreq d hd
    refine ⟨this, ?_⟩
    rintro rfl; simp [hempty] at this
  have hpartAt : ∀ (i : Nat) part, parts[i]? = some part → ∃ data, a.requests[i]? = some data ∧
      PartOk e refuseA initB.segmentMru (i + 1) data part := by
    intro i part hi
    have hlt : i < a.requests.length := by
      rw [← htx.len]; exact (List.getElem?_eq_some_iff.mp hi).1
    exact ⟨a.requests[i], List.getElem?_eq_getElem hlt, htx.ok i _ part (List.getElem?_eq_getElem hlt) hi⟩
  let gs : List (List XferSeg) := runsOf groups pend
  have hcut := cut_runs hgsRun hpartsRun hpre
  have hgs_group : ∀ (i : Nat) g, groups[i]? = some g → gs[i]? = some g.1 := by
    intro i g hi
    have hlt : i < groups.length := (List.getElem?_eq_some_iff.mp hi).1
    simp only [gs, runsOf]
    rw [List.getElem?_append_left (by simpa using hlt), List.getElem?_map, hi]; rfl
  -- a complete transfer is exactly the request of the same number
  have hgroup : ∀ (i : Nat) g, groups[i]? = some g → ∃ data, a.requests[i]? = some data ∧
      ∀ d, g.2 = some d → d = data := by
    intro i g hi
    obtain ⟨part, hpart, hpre⟩ := hcut i g.1 (hgs_group i g hi)
    obtain ⟨data, h1, h2⟩ := hpartAt i part hpart
    refine ⟨data, h1, ?_⟩
    intro d hd
    have hok := hrx.ok g (List.mem_of_getElem? hi)
    unfold Group.Ok at hok
    rw [hd] at hok
    obtain ⟨hne, hcat, _, _, hend⟩ := hok
    have hl : 0 < g.1.length := List.length_pos_iff.mpr hne
    have hlast : ∃ x ∈ g.1, x.flags.end = true :=
      ⟨g.1[g.1.length - 1], List.getElem_mem (by omega),
        (hend (g.1.length - 1) _ (List.getElem?_eq_getElem (by omega))).mpr (by omega)⟩
    have := (h2.prefix_full (hparse data (List.mem_of_getElem? h1)).2 hpre (Or.inl hlast)).1
    rw [← this]; exact hcat.symm
  have hsub : (groups.filterMap (·.2)).Sublist a.requests := by
    apply sublist_of_index
    intro i g hi
    obtain ⟨data, h1, h2⟩ := hgroup i g hi
    exact ⟨data, h1, fun b' hb' => h2 b' hb'⟩
  have hall : ∀ d ∈ groups.filterMap (·.2), e.parses d = true := fun d hd => (hparse d (hsub.subset hd)).1
  have hproc : b.processed = groups.filterMap (·.2) := by
    rw [hrx.processed, List.filter_eq_self.mpr hall]
  have hbroken : b.broken = [] := by
    rw [hrx.broken]
    apply List.filter_eq_nil_iff.mpr
    intro d hd; simp [hall d hd]
  have hfate : ∀ (i : Nat) g, groups[i]? = some g → (groups.map (·.2))[i]? = some g.2 := by
    intro i g hi; rw [List.getElem?_map, hi]; rfl
  refine ⟨groups.map (·.2), by rw [hproc, List.filterMap_map]; rfl, hbroken, ?_, ?_⟩
  · intro i f hf
    rw [List.getElem?_map] at hf
    obtain ⟨g, hg, rfl⟩ := Option.map_eq_some_iff.mp hf
    exact hgroup i g hg
  intro k hk
  rw [ha] at hk
  obtain ⟨data, h1, h2⟩ := success_event hmru _ (TxShape.fresh e refuseA initA initB) rfl evsA hk
  rw [← ha] at h1
  refine ⟨data, h1, ?_⟩
  have hdne := (hparse data (List.mem_of_getElem? h1)).2
  rcases h2 with ⟨ack, hack, htid, hlen⟩ | ⟨r, hr, hrefuse⟩
  · left
    have hmem : (k + 1, ack.len) ∈ acksIn b.out := by
      simp only [acksIn, List.mem_filterMap]
      exact ⟨.xferAck ack, hrecvA.subset hack, by simp [htid]⟩
    rw [hrx.acks, accepted_groups hrx] at hmem
    have hflat : ((groups.filter (·.2.isSome)).map (·.1)).flatten ++ pend =
        ((groups.filter (·.2.isSome)).map (·.1) ++ (if pend = [] then [] else [pend])).flatten := by
      rw [List.flatten_append]
      congr 1
      split
      · next hnil => simp [hnil]
      · simp
    rw [hflat] at hmem
    have hruns : ∀ l ∈ (groups.filter (·.2.isSome)).map (·.1) ++ (if pend = [] then [] else [pend]), StartRun l := by
      intro l hl
      apply hgsRun
      rcases List.mem_append.mp hl with hl | hl
      · obtain ⟨g, hg, rfl⟩ := List.mem_map.mp hl
        exact List.mem_append_left _ (List.mem_map.mpr ⟨g, (List.mem_filter.mp hg).1, rfl⟩)
      · exact List.mem_append_right _ hl
    obtain ⟨l, hl, ⟨d, hd, hdt⟩, hle⟩ := ackValues_flatten hruns _ _ _ hmem
    have hidx : ∀ (i : Nat), gs[i]? = some l → i = k := by
      intro i hi
      obtain ⟨part, hpart, hpre⟩ := hcut i l hi
      obtain ⟨data', _, h2'⟩ := hpartAt i part hpart
      have := h2'.tid d (hpre.subset hd)
      omega
    have hfull : ∀ (i : Nat), gs[i]? = some l → bytesOf l = data ∧ ∃ x ∈ l, x.flags.end = true := by
      intro i hi
      have hik := hidx i hi
      subst hik
      obtain ⟨part, hpart, hpre⟩ := hcut i l hi
      obtain ⟨data', h1', h2'⟩ := hpartAt i part hpart
      have : data' = data := by rw [h1] at h1'; exact (Option.some.inj h1').symm
      subst this
      exact h2'.prefix_full hdne hpre (Or.inr (by omega))
    rcases List.mem_append.mp hl with hl | hl
    · obtain ⟨g, hg, rfl⟩ := List.mem_map.mp hl
      obtain ⟨hg1, hg2⟩ := List.mem_filter.mp hg
      obtain ⟨i, hi⟩ := List.getElem?_of_mem hg1
      have hik := hidx i (hgs_group i g hi)
      subst hik
      obtain ⟨data', h1', h2'⟩ := hgroup i g hi
      have : data' = data := by rw [h1] at h1'; exact (Option.some.inj h1').symm
      subst this
      obtain ⟨dd, hdd⟩ := Option.isSome_iff_exists.mp hg2
      rw [hfate i g hi, hdd, h2' dd hdd]
    · exfalso
      split at hl
      · simp at hl
      · next hne =>
        simp at hl; subst hl
        have hi : gs[groups.length]? = some l := by
          simp only [gs, runsOf]
          rw [List.getElem?_append_right (by simp)]
          simp [hne]
        obtain ⟨_, x, hx, hxe⟩ := hfull _ hi
        rcases hrx.pending with hnil | ⟨tid, ht⟩
        · exact absurd hnil hne
        · simp [ht.2.2.2 x hx] at hxe
  · right
    rcases hrx.refs r (k + 1) (hrecvA.subset hr) with ⟨g, hg, hnone, d, hd, hdt⟩ | hbr
    · obtain ⟨i, hi⟩ := List.getElem?_of_mem hg
      obtain ⟨part, hpart, hpre⟩ := hcut i g.1 (hgs_group i g hi)
      obtain ⟨data', h1', h2'⟩ := hpartAt i part hpart
      have hik : i = k := by
        have := h2'.tid d (hpre.subset hd)
        omega
      subst hik
      have : data' = data := by rw [h1] at h1'; exact (Option.some.inj h1').symm
      subst this
      have hok := hrx.ok g hg
      unfold Group.Ok at hok
      rw [hnone] at hok
      obtain ⟨d', hg1, _, x, hx, hx'⟩ := hok
      rw [hg1] at hpre
      obtain ⟨t, rfl⟩ := hpre
      have hxe := h2'.ext hrefuse x hx
      rw [hxe] at hx'
      have hmem := hx'
      rw [hb] at hx'
      obtain ⟨y, hy, hy', hy''⟩ := run_refused e (newSess refuseB initB' initA') rfl evsB _ hx'
      exact ⟨by rw [hfate i g hi, hnone], hrefuse, y, hy, hy', hy'', hmem⟩
    · exact absurd hbroken hbr

/-- Two sessions at the ends of a connection: each has read a prefix of what the other has written. -/
theorem conn_delivery (e : Env) (refuseA refuseB : Bool) (initA initB initA' initB' : SessInit)
    (hmru : 0 < initB.segmentMru) (hempty : e.parses [] = false) {a b : Sess} {evsA evsB : List ((Bytes → Bool) × Sess.Ev)}
    (ha : a = (newSess refuseA initA initB).run e evsA) (hb : b = (newSess refuseB initB' initA').run e evsB)
    (hreq : ∀ d ∈ a.requests, e.parses d = true) (hrecvA : recvs evsA <+: b.out) (hrecvB : recvs evsB <+: a.out) :
    b.processed.Sublist a.requests ∧ b.broken = [] ∧
    ∀ k, (k, .successful) ∈ a.results → ∃ data, a.requests[k]? = some data ∧
      (data ∈ b.processed ∨ (refuseA = true ∧ ∃ x ∈ evsB, x.1 (e.bundleId data) = true ∧ (∃ p, x.2 = .recv p) ∧
        e.bundleId data ∈ b.refused)) := by
  obtain ⟨fates, h1, h2, h3, h4⟩ := conn_fates e refuseA refuseB initA initB initA' initB' hmru hempty ha hb hreq hrecvA hrecvB
  refine ⟨by rw [h1]; exact sublist_of_index id fates a.requests h3, h2, ?_⟩
  intro k hk
  obtain ⟨data, g1, g2⟩ := h4 k hk
  refine ⟨data, g1, ?_⟩
  rcases g2 with g | ⟨_, g⟩
  · exact .inl (by rw [h1]; exact List.mem_filterMap.mpr ⟨_, List.mem_of_getElem? g, rfl⟩)
  · exact .inr g

theorem pair_delivery (e : Env) (refuseA refuseB : Bool) (initA initB initA' initB' : SessInit)
    (hmru : 0 < initB.segmentMru) (hempty : e.parses [] = false) (evs : List Pair.Ev)
    (hreq : ∀ d, .atA (.request d) ∈ evs → e.parses d = true) (p : Pair)
    (hp : p = Pair.run e { a := newSess refuseA initA initB, b := newSess refuseB initB' initA' } evs) :
    p.b.processed.Sublist p.a.requests ∧ p.b.broken = [] ∧
    ∀ k, (k, .successful) ∈ p.a.results → ∃ data, p.a.requests[k]? = some data ∧
      (data ∈ p.b.processed ∨ ∃ has, .toB has ∈ evs ∧ has (e.bundleId data) = true) := by
  obtain ⟨evsA, evsB, h⟩ := exists_proj e (newSess refuseA initA initB) (newSess refuseB initB' initA') evs
  rw [← hp] at h
  clear hp
  obtain ⟨h1, h2, h3⟩ := conn_delivery e refuseA refuseB initA initB initA' initB' hmru hempty h.a h.b (by
    intro d hd
    rw [h.a] at hd
    obtain ⟨x, hx, hx'⟩ := run_requests e (newSess refuseA initA initB) rfl evsA d hd
    exact hreq d (h.reqA x hx d hx')) (by rw [h.recvA]; exact List.take_prefix _ _) (by rw [h.recvB]; exact List.take_prefix _ _)
  refine ⟨h1, h2, ?_⟩
  intro k hk
  obtain ⟨data, g1, g2⟩ := h3 k hk
  refine ⟨data, g1, ?_⟩
  rcases g2 with g2 | ⟨_, y, hy, hy', hy'', _⟩
  · exact .inl g2
  · exact .inr ⟨y.1, h.hasB y hy hy'', hy'⟩

end Dtn.Tcpcl
