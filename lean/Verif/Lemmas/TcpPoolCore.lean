import Verif.Lemmas.TcpPool
/-! The invariant of the layer `tcp` holds after every run. -/

namespace Dtn.TcpPool
open Dtn.Tcpcl
open Dtn.Clas (Answer)
open Dtn.Spec.TcpPoolSpec

variable {A : Type} [DecidableEq A]

set_option linter.unusedSectionVars false

/-- The session of a connection goes on without an answer. -/
theorem core_same {cfg : Cfg A} {s t : State A} (h : Core cfg s) {c : Nat} {k : Chan A} {f : Chan A → Chan A} {m new : Sess}
    (hk : s.chans[c]? = some k) (hm : k.sess = some m) (hq : new.requests = m.requests) (hr : ∀ y ∈ m.results, y ∈ new.results)
    (hx : k.stage = .ended ∨ (k.stage = .session ∧ Tidy new ∧ txReq new.tx = txReq m.tx))
    (h1 : t.chans = s.chans.modify c f) (h2 : t.table = s.table)
    (h3 : t.reqs = s.reqs) (h4 : t.queue = s.queue) (h5 : t.alive = s.alive) (f1 : (f k).addr = k.addr) (f2 : (f k).entered = k.entered)
    (f3 : (f k).taken = k.taken) (f4 : (f k).stage = k.stage) (f5 : (f k).sess = some new) : Core cfg t := by
  have hall : ∀ k', s.chans[c]? = some k' → k' = k := by
    intro k' hk'
    rw [hk] at hk'
    exact (Option.some.inj hk').symm
  have hnc : k.stage ≠ .connecting := by rcases hx with e | ⟨e, _⟩ <;> rw [e] <;> simp
  have hc := h.chan c k hk
  have hgrow : Grow s t := grow_modify h1 (by
    intro k' hk'
    rw [hall k' hk']
    exact ⟨f1, fun j i hj => by rw [f2]; exact hj, fun x hx => ⟨new, f5, by rw [hm] at hx; cases hx; exact hr⟩⟩)
  refine ⟨?_, ?_, ?_, ?_, table_modify h1 h2 (fun k' hk' => by rw [hall k' hk']; exact f1) h.table, ?_, by rw [h3]; exact h.unique, by rw [h4]; exact h.nodup,
    by rw [h4, h3]; exact h.queued, by rw [h4, h5]; exact h.dead⟩
  · intro i r hr
    rw [h3] at hr
    refine (h.req i r hr).mono hgrow (fun _ hx => by rw [h4]; exact hx) ?_
    intro a d k' _ hd hs
    refine ⟨k', ?_, hs⟩
    rw [h1, modify_get, if_neg]
    · exact hd
    · rintro rfl
      rw [hall k' hd] at hs
      exact hnc hs
  · intro d k' hk'
    rw [h1] at hk'
    rcases modify_some hk' with ⟨rfl, k'', h6, rfl⟩ | ⟨_, h6⟩
    · rw [hall k'' h6]
      refine ⟨by rw [f3, f2]; exact hc.taken, ?_, ?_, ?_⟩
      · intro e1 e2
        rw [f4] at e1 e2
        rcases hx with e | ⟨e, _⟩
        · exact absurd e e2
        · exact absurd e e1
      · intro e
        rw [f4] at e
        rcases hx with e' | ⟨_, e', _⟩
        · rw [e] at e'; cases e'
        · exact ⟨new, f5, e'⟩
      · intro x hx
        rw [f5] at hx
        cases hx
        rw [f3, hq]
        exact hc.count m hm
    · exact h.chan d k' h6
  · intro d k' hk'
    rw [h1] at hk'
    rw [h3]
    rcases modify_some hk' with ⟨rfl, k'', h6, rfl⟩ | ⟨_, h6⟩
    · rw [hall k'' h6]
      intro j i hj
      rw [f2] at hj
      obtain ⟨r, g1, g2, g3, g4⟩ := h.member c k hk j i hj
      refine ⟨r, g1, by rw [f1]; exact g2, ?_, ?_⟩
      · unfold Fits at g3 ⊢
        rw [f4, f3, f5]
        rcases hx with e | ⟨e, _, e'⟩
        · rw [if_pos e] at g3 ⊢
          obtain ⟨ans, g3, g5⟩ := g3
          refine ⟨ans, g3, g5.imp id ?_⟩
          rintro ⟨x, r', e1, e2, e3⟩
          rw [hm] at e1
          cases e1
          exact ⟨new, r', rfl, hr _ e2, e3⟩
        · rw [hm] at g3
          simp only [Option.bind_some] at g3
          simp only [Option.bind_some, e']
          rw [if_neg (by rw [e]; simp)] at g3 ⊢
          split
          · next hle => rw [if_pos hle] at g3; exact g3
          · next hle =>
            rw [if_neg hle] at g3
            split
            · next hf => rw [if_pos hf] at g3; exact g3
            · next hf =>
              rw [if_neg hf] at g3
              obtain ⟨x, r', e1, e2, e3⟩ := g3
              cases e1
              exact ⟨new, r', rfl, hr _ e2, e3⟩
      · intro x hx hj
        rw [f5] at hx
        cases hx
        rw [hq]
        exact g4 m hm (by rw [← f3]; exact hj)
    · exact h.member d k' h6
  · intro d d' j j' i hd hd'
    exact h.once d d' j j' i (nth_modify h1 (fun k' hk' => by rw [hall k' hk']; exact f2) hd)
      (nth_modify h1 (fun k' hk' => by rw [hall k' hk']; exact f2) hd')
  · intro d k' hk' hs
    rw [h1] at hk'
    rw [h3]
    rcases modify_some hk' with ⟨rfl, k'', h6, rfl⟩ | ⟨_, h6⟩
    · rw [hall k'' h6, f4] at hs
      exact absurd hs hnc
    · exact h.connecting d k' h6 hs

theorem txReq_taken {x : Sess} (h : Tidy x) {j : Nat} (hj : txReq x.tx = some j) : x.requests.length = j + 1 := by
  have := h.tx
  cases hx : x.tx with
  | idle => simp [hx, txReq] at hj
  | terminated => simp [hx, txReq] at hj
  | sending len q =>
    rw [hx] at this
    simp [hx, txReq] at hj
    subst hj
    exact this.1
  | transferRequest d q =>
    rw [hx] at this
    simp [hx, txReq] at hj
    subst hj
    exact this.1

/-- What the session is sending. -/
theorem Core.flying {cfg : Cfg A} {s : State A} (h : Core cfg s) {c j : Nat} {k : Chan A} {m : Sess} (hk : s.chans[c]? = some k)
    (hst : k.stage = .session) (hm : k.sess = some m) (hj : txReq m.tx = some j) :
    ∃ i r, k.entered[j]? = some i ∧ s.reqs[i]? = some r ∧ r.pc = .flying c ∧ k.taken = j + 1 := by
  have hc := h.chan c k hk
  obtain ⟨x, hx, ht⟩ := hc.live hst
  rw [hm] at hx
  cases hx
  have h1 := txReq_taken ht hj
  have h2 := hc.count m hm
  have h3 := hc.taken
  have h4 : j < k.entered.length := by omega
  obtain ⟨r, g1, g2, g3, g4⟩ := h.member c k hk j (k.entered[j]) (List.getElem?_eq_getElem h4)
  refine ⟨_, r, List.getElem?_eq_getElem h4, g1, ?_, by omega⟩
  unfold Fits at g3
  rw [if_neg (by rw [hst]; simp), if_neg (by omega), if_pos (by rw [hm]; exact hj)] at g3
  exact g3

/-- The session of a connection answers what it was sending. -/
theorem core_answer {cfg : Cfg A} {s t : State A} (h : Core cfg s) {c j i : Nat} {k : Chan A} {f : Chan A → Chan A} {m new : Sess}
    {res : TransferResult}
    (hk : s.chans[c]? = some k) (hst : k.stage = .session) (hm : k.sess = some m) (hq : new.requests = m.requests) (hr : new.results = m.results ++ [(j, res)])
    (hj : txReq m.tx = some j) (hn : txReq new.tx = none) (htd : Tidy new) (hi : k.entered[j]? = some i)
    (h1 : t.chans = s.chans.modify c f) (h2 : t.table = s.table)
    (h3 : t.reqs = (s.goto i (.done (answerOf res))).reqs) (h4 : t.queue = s.queue) (h5 : t.alive = s.alive) (f1 : (f k).addr = k.addr)
    (f2 : (f k).entered = k.entered) (f3 : (f k).taken = k.taken) (f4 : (f k).stage = k.stage) (f5 : (f k).sess = some new) : Core cfg t := by
  obtain ⟨i', r, g1, g2, g3, htk⟩ := h.flying hk hst hm hj
  rw [hi] at g1
  cases g1
  have hget := goto_get s i (.done (answerOf res))
  rw [← h3] at hget
  have hother : ∀ {j}, i ≠ j → t.reqs[j]? = s.reqs[j]? := by
    intro j hj; rw [hget, if_neg hj]
  have hself : t.reqs[i]? = some { r with pc := .done (answerOf res) } := by rw [hget, if_pos rfl, g2]; rfl
  have hall : ∀ k', s.chans[c]? = some k' → k' = k := by
    intro k' hk'
    rw [hk] at hk'
    exact (Option.some.inj hk').symm
  have hc := h.chan c k hk
  have hmine : t.chans[c]? = some (f k) := by rw [h1, modify_get, if_pos rfl, hk]; rfl
  have hgrow : Grow s t := grow_modify h1 (by
    intro k' hk'
    rw [hall k' hk']
    refine ⟨f1, fun j i hj => by rw [f2]; exact hj, fun x hx => ⟨new, f5, ?_⟩⟩
    rw [hm] at hx; cases hx
    intro y hy
    rw [hr]
    exact List.mem_append_left _ hy)
  have hback : ∀ (l : Nat) (q : Req A) (b : A) (d : Nat), t.reqs[l]? = some q → q.pc = .connect b d → i ≠ l ∧ s.reqs[l]? = some q := by
    intro l q b d hq hqc
    by_cases hl : i = l
    · subst hl
      rw [hself] at hq
      cases hq
      cases hqc
    · rw [hother hl] at hq
      exact ⟨hl, hq⟩
  refine ⟨?_, ?_, ?_, ?_, table_modify h1 h2 (fun k' hk' => by rw [hall k' hk']; exact f1) h.table, ?_, ?_, by rw [h4]; exact h.nodup,
    ?_, by rw [h4, h5]; exact h.dead⟩
  · intro l q hq
    by_cases hl : i = l
    · subst hl
      rw [hself] at hq
      cases hq
      cases res with
      | failure => exact reqOk_failure rfl
      | successful => exact ⟨c, f k, j, new, hmine, by rw [f2]; exact hi, f5, by rw [hr]; simp⟩
    · rw [hother hl] at hq
      refine (h.req l q hq).mono hgrow (fun _ hx => by rw [h4]; exact hx) ?_
      intro a d k' _ hd hs
      refine ⟨k', ?_, hs⟩
      rw [h1, modify_get, if_neg]
      · exact hd
      · rintro rfl
        rw [hall k' hd, hst] at hs
        cases hs
  · intro d k' hk'
    rw [h1] at hk'
    rcases modify_some hk' with ⟨rfl, k'', h6, rfl⟩ | ⟨_, h6⟩
    · rw [hall k'' h6]
      refine ⟨by rw [f3, f2]; exact hc.taken, ?_, fun _ => ⟨new, f5, htd⟩, ?_⟩
      · intro e1 e2
        rw [f4] at e1
        exact absurd hst e1
      · intro x hx
        rw [f5] at hx
        cases hx
        rw [f3, hq]
        exact hc.count m hm
    · exact h.chan d k' h6
  · intro d k' hk'
    rw [h1] at hk'
    rcases modify_some hk' with ⟨rfl, k'', h6, rfl⟩ | ⟨hne, h6⟩
    · rw [hall k'' h6]
      intro j' l hl
      rw [f2] at hl
      have hdata : ∀ q : Req A, (∀ x, k.sess = some x → j' < k.taken → x.requests[j']? = some q.data) →
          ∀ x, (f k).sess = some x → j' < (f k).taken → x.requests[j']? = some q.data := by
        intro q hd x hx hlt
        rw [f5] at hx
        cases hx
        rw [hq]
        exact hd m hm (by rw [← f3]; exact hlt)
      by_cases e : j = j'
      · subst e
        rw [hi] at hl
        cases hl
        obtain ⟨q, e1, e2, e3, e4⟩ := h.member c k hk j i hi
        rw [g2] at e1
        cases e1
        refine ⟨_, hself, by rw [f1]; exact e2, ?_, hdata r e4⟩
        unfold Fits
        rw [f4, f3, f5, if_neg (by rw [hst]; simp), if_neg (by omega), if_neg (by simp [hn])]
        exact ⟨new, res, rfl, by rw [hr]; simp, rfl⟩
      · have hil : i ≠ l := by
          rintro rfl
          exact e (h.once c c j j' i ⟨k, hk, hi⟩ ⟨k, hk, hl⟩).2
        obtain ⟨q, e1, e2, e3, e4⟩ := h.member c k hk j' l hl
        refine ⟨q, by rw [hother hil]; exact e1, by rw [f1]; exact e2, ?_, hdata q e4⟩
        unfold Fits at e3 ⊢
        rw [f4, f3, f5]
        rw [if_neg (by rw [hst]; simp)] at e3 ⊢
        split
        · next hle => rw [if_pos hle] at e3; exact e3
        · next hle =>
          rw [if_neg hle, if_neg (by rw [hm]; simp [hj]; exact e)] at e3
          rw [if_neg (by simp [hn])]
          obtain ⟨x, r', q1, q2, q3⟩ := e3
          rw [hm] at q1
          cases q1
          exact ⟨new, r', rfl, by rw [hr]; exact List.mem_append_left _ q2, q3⟩
    · refine member_keep (h.member d k' h6) (fun j' l hl => hother ?_)
      rintro rfl
      exact hne (h.once c d j j' i ⟨k, hk, hi⟩ ⟨k', h6, hl⟩).1
  · intro d d' j j' i hd hd'
    exact h.once d d' j j' i (nth_modify h1 (fun k' hk' => by rw [hall k' hk']; exact f2) hd)
      (nth_modify h1 (fun k' hk' => by rw [hall k' hk']; exact f2) hd')
  · intro d k' hk' hs
    rw [h1] at hk'
    rcases modify_some hk' with ⟨rfl, k'', h6, rfl⟩ | ⟨_, h6⟩
    · rw [hall k'' h6, f4, hst] at hs
      cases hs
    · obtain ⟨l, q, b, e1, e2⟩ := h.connecting d k' h6 hs
      refine ⟨l, q, b, ?_, e2⟩
      rw [hother]
      · exact e1
      · rintro rfl
        rw [g2] at e1
        cases e1
        rw [g3] at e2
        cases e2
  · intro x l q p b b' d e1 e2 e3 e4
    exact h.unique x l q p b b' d (hback x q b d e1 e3).2 (hback l p b' d e2 e4).2 e3 e4
  · intro l hl
    rw [h4] at hl
    obtain ⟨q, e1, e2⟩ := h.queued l hl
    refine ⟨q, ?_, e2⟩
    rw [hother]
    · exact e1
    · rintro rfl
      rw [g2] at e1
      cases e1
      rw [g3] at e2
      cases e2

/-- The session has taken a transfer. -/
theorem core_mid {cfg : Cfg A} {s t : State A} (h : Core cfg s) {c i : Nat} {k : Chan A} {r : Req A} {f : Chan A → Chan A} {m : Sess}
    (hk : s.chans[c]? = some k) (hst : k.stage = .session) (hm : k.sess = some m) (hidle : m.tx = .idle) (hi : k.entered[k.taken]? = some i)
    (hr : s.reqs[i]? = some r)
    (h1 : t.chans = s.chans.modify c f) (h2 : t.table = s.table)
    (h3 : t.reqs = (s.goto i (.flying c)).reqs) (h4 : t.queue = s.queue) (h5 : t.alive = s.alive) (f1 : (f k).addr = k.addr)
    (f2 : (f k).entered = k.entered) (f3 : (f k).taken = k.taken + 1) (f4 : (f k).stage = k.stage) (f5 : (f k).sess = some (mid m r.data)) :
    Core cfg t := by
  have hc := h.chan c k hk
  obtain ⟨m', hm', htd⟩ := hc.live hst
  rw [hm] at hm'
  cases hm'
  have hcount := hc.count m hm
  obtain ⟨r', g1, g2, g3, g4⟩ := h.member c k hk _ _ hi
  rw [hr] at g1
  cases g1
  have hw : r.pc = .waiting c := by
    unfold Fits at g3
    rw [if_neg (by rw [hst]; simp), if_pos (Nat.le_refl _)] at g3
    exact g3
  have hget := goto_get s i (.flying c)
  rw [← h3] at hget
  have hother : ∀ {j}, i ≠ j → t.reqs[j]? = s.reqs[j]? := by
    intro j hj; rw [hget, if_neg hj]
  have hself : t.reqs[i]? = some { r with pc := .flying c } := by rw [hget, if_pos rfl, hr]; rfl
  have hall : ∀ k', s.chans[c]? = some k' → k' = k := by
    intro k' hk'
    rw [hk] at hk'
    exact (Option.some.inj hk').symm
  have hmine : t.chans[c]? = some (f k) := by rw [h1, modify_get, if_pos rfl, hk]; rfl
  have hgrow : Grow s t := grow_modify h1 (by
    intro k' hk'
    rw [hall k' hk']
    refine ⟨f1, fun j i hj => by rw [f2]; exact hj, fun x hx => ⟨_, f5, ?_⟩⟩
    rw [hm] at hx; cases hx
    intro y hy
    exact hy)
  have hback : ∀ (l : Nat) (q : Req A) (b : A) (d : Nat), t.reqs[l]? = some q → q.pc = .connect b d → i ≠ l ∧ s.reqs[l]? = some q := by
    intro l q b d hq hqc
    by_cases hl : i = l
    · subst hl
      rw [hself] at hq
      cases hq
      cases hqc
    · rw [hother hl] at hq
      exact ⟨hl, hq⟩
  refine ⟨?_, ?_, ?_, ?_, table_modify h1 h2 (fun k' hk' => by rw [hall k' hk']; exact f1) h.table, ?_, ?_, by rw [h4]; exact h.nodup,
    ?_, by rw [h4, h5]; exact h.dead⟩
  · intro l q hq
    by_cases hl : i = l
    · subst hl
      rw [hself] at hq
      cases hq
      exact ⟨f k, k.taken, hmine, by rw [f2]; exact hi⟩
    · rw [hother hl] at hq
      refine (h.req l q hq).mono hgrow (fun _ hx => by rw [h4]; exact hx) ?_
      intro a d k' _ hd hs
      refine ⟨k', ?_, hs⟩
      rw [h1, modify_get, if_neg]
      · exact hd
      · rintro rfl
        rw [hall k' hd, hst] at hs
        cases hs
  · intro d k' hk'
    rw [h1] at hk'
    rcases modify_some hk' with ⟨rfl, k'', h6, rfl⟩ | ⟨_, h6⟩
    · rw [hall k'' h6]
      refine ⟨by rw [f3, f2]; exact (List.getElem?_eq_some_iff.mp hi).1, ?_, fun _ => ⟨_, f5, mid_tidy htd hidle _⟩, ?_⟩
      · intro e1 e2
        rw [f4] at e1
        exact absurd hst e1
      · intro x hx
        rw [f5] at hx
        cases hx
        rw [f3]
        simp [mid, hcount]
    · exact h.chan d k' h6
  · intro d k' hk'
    rw [h1] at hk'
    rcases modify_some hk' with ⟨rfl, k'', h6, rfl⟩ | ⟨hne, h6⟩
    · rw [hall k'' h6]
      intro j l hl
      rw [f2] at hl
      by_cases e : k.taken = j
      · subst e
        rw [hi] at hl
        cases hl
        refine ⟨_, hself, by rw [f1]; exact g2, ?_, ?_⟩
        · unfold Fits
          rw [f4, f3, f5, if_neg (by rw [hst]; simp), if_neg (by omega), if_pos (by simp [mid, txReq, hcount])]
        · intro x hx _
          rw [f5] at hx
          cases hx
          simp [mid, ← hcount]
      · have hil : i ≠ l := by
          rintro rfl
          exact e (h.once c c k.taken j i ⟨k, hk, hi⟩ ⟨k, hk, hl⟩).2
        obtain ⟨q, e1, e2, e3, e4⟩ := h.member c k hk j l hl
        refine ⟨q, by rw [hother hil]; exact e1, by rw [f1]; exact e2, ?_, ?_⟩
        · unfold Fits at e3 ⊢
          rw [f4, f3, f5]
          rw [if_neg (by rw [hst]; simp)] at e3 ⊢
          by_cases hle : k.taken ≤ j
          · rw [if_pos hle] at e3
            rw [if_pos (by omega)]
            exact e3
          · rw [if_neg hle, if_neg (by rw [hm]; simp [hidle, txReq])] at e3
            rw [if_neg (by omega), if_neg (by simp [mid, txReq]; omega)]
            obtain ⟨x, r', q1, q2, q3⟩ := e3
            rw [hm] at q1
            cases q1
            exact ⟨_, r', rfl, q2, q3⟩
        · intro x hx hlt
          rw [f5] at hx
          cases hx
          have hlt' : j < k.taken := by omega
          have := e4 m hm hlt'
          simp only [mid]
          rw [List.getElem?_append_left (by omega)]
          exact this
    · refine member_keep (h.member d k' h6) (fun j l hl => hother ?_)
      rintro rfl
      exact hne (h.once c d _ j i ⟨k, hk, hi⟩ ⟨k', h6, hl⟩).1
  · intro d d' j j' i hd hd'
    exact h.once d d' j j' i (nth_modify h1 (fun k' hk' => by rw [hall k' hk']; exact f2) hd)
      (nth_modify h1 (fun k' hk' => by rw [hall k' hk']; exact f2) hd')
  · intro d k' hk' hs
    rw [h1] at hk'
    rcases modify_some hk' with ⟨rfl, k'', h6, rfl⟩ | ⟨_, h6⟩
    · rw [hall k'' h6, f4, hst] at hs
      cases hs
    · obtain ⟨l, q, b, e1, e2⟩ := h.connecting d k' h6 hs
      refine ⟨l, q, b, ?_, e2⟩
      rw [hother]
      · exact e1
      · rintro rfl
        rw [hr] at e1
        cases e1
        rw [hw] at e2
        cases e2
  · intro x l q p b b' d e1 e2 e3 e4
    exact h.unique x l q p b b' d (hback x q b d e1 e3).2 (hback l p b' d e2 e4).2 e3 e4
  · intro l hl
    rw [h4] at hl
    obtain ⟨q, e1, e2⟩ := h.queued l hl
    refine ⟨q, ?_, e2⟩
    rw [hother]
    · exact e1
    · rintro rfl
      rw [hr] at e1
      cases e1
      rw [hw] at e2
      cases e2

/-- The session of a connection has gone on, and what it answered was passed on. -/
theorem core_settle {cfg : Cfg A} {s t : State A} (h : Core cfg s) {c : Nat} {k k' : Chan A} {f : Chan A → Chan A} {m old new : Sess}
    (hk : s.chans[c]? = some k) (hst : k.stage = .session) (hm : k.sess = some m) (hg : Goes m new) (ho : old.results = m.results)
    (he : k'.entered = k.entered)
    (h1 : t.chans = s.chans.modify c f) (h2 : t.table = s.table)
    (h3 : t.reqs = s.reqs) (h4 : t.queue = s.queue) (h5 : t.alive = s.alive) 
    (hf : ∀ k, (f k).addr = k.addr ∧ (f k).entered = k.entered ∧ (f k).taken = k.taken ∧ (f k).stage = k.stage ∧ (f k).sess = some new)
    (hff : ∀ k, f { k with stage := .ended } = { f k with stage := .ended }) :
    Core cfg (t.settle c k' old new) := by
  unfold State.settle
  rcases hg.results with ⟨hr, hx⟩ | ⟨j, res, hj, hr, hn, hl⟩
  · have hnil : new.results.drop old.results.length = [] := by rw [hr, ho]; simp
    rw [hnil]
    simp only [List.foldl_nil]
    by_cases htm : new.isTerminated = true
    · rw [if_pos htm]
      have hcl := core_close h hk (by rw [hst]; simp)
      have hk2 : (s.close c).chans[c]? = some { k with stage := .ended } := by
        show (s.chans.modify c _)[c]? = _
        rw [modify_get, if_pos rfl, hk]; rfl
      refine core_same hcl (f := f) hk2 hm hg.requests (by rw [hr]; exact fun _ h => h) (.inl rfl) ?_ h2 ?_ h4 h5 (hf _).1 (hf _).2.1 (hf _).2.2.1 (hf _).2.2.2.1 (hf _).2.2.2.2
      · show (t.chans.modify c _) = (s.chans.modify c _).modify c f
        rw [h1, modify_twice, modify_twice]
        congr 1
        funext k
        exact (hff k).symm
      · show t.reqs.map _ = s.reqs.map _
        rw [h3]
    · rw [if_neg htm]
      have htd : Tidy new := hg.tidy.resolve_left htm
      refine core_same h hk hm hg.requests (by rw [hr]; exact fun _ h => h) (.inr ⟨hst, htd, hx.resolve_left htm⟩) h1 h2 h3 h4 h5
        (hf _).1 (hf _).2.1 (hf _).2.2.1 (hf _).2.2.2.1 (hf _).2.2.2.2
  · obtain ⟨i, r, g1, g2, g3, g4⟩ := h.flying hk hst hm hj
    have hone : new.results.drop old.results.length = [(j, res)] := by rw [hr, ho]; simp
    rw [hone]
    simp only [List.foldl_cons, List.foldl_nil]
    rw [he, g1]
    simp only
    rw [if_neg (by simp [hl])]
    have htd : Tidy new := hg.tidy.resolve_left (by simp [hl])
    refine core_answer h hk hst hm hg.requests hr hj hn htd g1 h1 h2 ?_ h4 h5
        (hf _).1 (hf _).2.1 (hf _).2.2.1 (hf _).2.2.2.1 (hf _).2.2.2.2
    show t.reqs.modify _ _ = s.reqs.modify _ _
    rw [h3]

/-- What a session does on connection `c`, other than taking a transfer. -/
theorem core_session {cfg : Cfg A} {s t : State A} (h : Core cfg s) {c : Nat} {k : Chan A} (hk : s.chans[c]? = some k) {has : Bytes → Bool}
    {ev : Sess.Ev} (hev : ∀ d, ev ≠ .request d) (hs : s.session cfg c k has ev = some t) : Core cfg t := by
  unfold State.session at hs
  split at hs
  · next x1 x2 old e1 e2 =>
    cases hs
    obtain ⟨x, hx, htd⟩ := (h.chan c k hk).live e1
    rw [e2] at hx
    cases hx
    exact core_settle h (f := fun k => { k with sess := some (old.step { cfg.env with hasItem := has } ev), history := k.history ++ [(has, ev)] })
      hk e1 e2 (goes_step htd hev) rfl rfl rfl rfl rfl rfl rfl (fun _ => ⟨rfl, rfl, rfl, rfl, rfl⟩) (fun _ => rfl)
  · cases hs

theorem core_next {cfg : Cfg A} {s t : State A} (h : Core cfg s) {c : Nat} (hs : s.next cfg c = some t) : Core cfg t := by
  unfold State.next at hs
  split at hs
  · cases hs
  · next k hk =>
    split at hs
    · next old i e1 e2 =>
      split at hs
      · cases hs
      · next r hr =>
        split at hs
        · next hc =>
          unfold State.session at hs
          simp only [hc.2, e1] at hs
          cases hs
          have htd : Tidy old := by
            obtain ⟨x, hx, htd⟩ := (h.chan c k hk).live hc.2
            rw [e1] at hx
            cases hx
            exact htd
          have hmid : Core cfg { s.goto i (.flying c) with chans := s.chans.modify c fun k => { k with taken := k.taken + 1, sess := some (mid old r.data) } } :=
            core_mid h hk hc.2 e1 hc.1 e2 hr rfl rfl rfl rfl rfl rfl rfl rfl rfl rfl
          refine core_settle hmid (k := { k with taken := k.taken + 1, sess := some (mid old r.data) })
            (f := fun k => { k with sess := some (old.step { cfg.env with hasItem := fun _ => false } (.request r.data)), history := k.history ++ [((fun _ => false), .request r.data)] })
            ?_ hc.2 rfl (goes_request htd hc.1 r.data) rfl rfl ?_ rfl rfl rfl rfl (fun _ => ⟨rfl, rfl, rfl, rfl, rfl⟩) (fun _ => rfl)
          · show (s.chans.modify c _)[c]? = _
            rw [modify_get, if_pos rfl, hk]; rfl
          · show (s.chans.modify c _).modify c _ = (s.chans.modify c _).modify c _
            rw [modify_twice, modify_twice]
            rfl
        · cases hs
    · cases hs

theorem core_go {cfg : Cfg A} {s t : State A} (h : Core cfg s) {i : Nat} {r : Req A} (hr : s.reqs[i]? = some r) {ok : Bool}
    (hs : s.go cfg i r ok = some t) : Core cfg t := by
  unfold State.go at hs
  split at hs
  · next hp =>
    split at hs
    · cases hs
      exact core_goto h hr (by rw [hp]; trivial) (by rw [hp]; simp) (by rw [hp]; simp) (reqOk_lost rfl) (by simp)
    · next a ha =>
      split at hs
      · next c hu =>
        cases hs
        refine core_goto h hr (by rw [hp]; trivial) (by rw [hp]; simp) (by rw [hp]; simp) ?_ (by simp)
        unfold State.usable at hu
        split at hu
        · cases hu
        · next d hd =>
          obtain ⟨k, h1, h2⟩ := h.table a d hd
          rw [h1] at hu
          simp only at hu
          split at hu
          · cases hu
          · cases hu
            exact ⟨ha, k, h1, h2⟩
      · cases hs
        exact core_connect h hr hp ha
  · next a c hp =>
    split at hs
    · cases hs
      exact core_connected h hr hp
    · cases hs
      exact core_refused h hr hp
  · next a c hp =>
    split at hs
    · cases hs
    · next k hk =>
      split at hs
      · cases hs
        exact core_goto h hr (by rw [hp]; trivial) (by rw [hp]; simp) (by rw [hp]; simp) (reqOk_lost rfl) (by simp)
      · next hne =>
        split at hs
        · cases hs
          exact core_enter h hr hp hk hne
        · cases hs
  · cases hs

theorem core_step {cfg : Cfg A} {s t : State A} (h : Core cfg s) {e : Ev A} (hs : step cfg s e = some t) : Core cfg t := by
  cases e with
  | request dest data =>
    simp only [step] at hs
    split at hs
    · cases hs
      exact core_request h _ _ (.inr rfl) (.inl ⟨rfl, by simp⟩) (by simp)
    · next ha =>
      split at hs
      · cases hs
        exact core_request h _ _ (.inl rfl) (.inr ⟨rfl, rfl⟩) (fun _ => by simpa using ha)
      · cases hs
  | shutdown =>
    simp only [step] at hs
    split at hs
    · next hc =>
      cases hs
      simp at hc
      exact core_shutdown h hc.1
    · cases hs
  | take =>
    simp only [step, State.take] at hs
    split at hs
    · cases hs
    · split at hs
      · cases hs
      · cases hs; exact core_die h
      · next hq => cases hs; exact core_start h hq
  | go i ok =>
    simp only [step] at hs
    split at hs
    · cases hs
    · next r hr => exact core_go h hr hs
  | accept a =>
    cases hs
    exact core_accept h a
  | contact c ok =>
    simp only [step] at hs
    split at hs
    · cases hs
    · next k hk =>
      split at hs
      · next hst =>
        cases ok
        · cases hs
          exact core_close h hk (by rw [hst]; simp)
        · cases hs
          have hc := h.chan c k hk
          exact core_begin h hk (.inl hst) rfl rfl rfl rfl rfl rfl rfl rfl (by simp) (by simp)
            ⟨hc.taken, fun _ _ => hc.early (by rw [hst]; simp) (by rw [hst]; simp), by simp, hc.count⟩
      · cases hs
  | params c r known =>
    simp only [step] at hs
    split at hs
    · cases hs
    · next k hk =>
      split at hs
      · next hst =>
        have hc := h.chan c k hk
        have he := hc.early (by rw [hst]; simp) (by rw [hst]; simp)
        cases r with
        | none =>
          cases hs
          exact core_close h hk (by rw [hst]; simp)
        | some r =>
          have hstart : ∀ s' : State A, s'.chans = s.chans → s'.table = s.table → s'.reqs = s.reqs → s'.queue = s.queue → s'.alive = s.alive →
              Core cfg { s' with chans := s'.chans.modify c fun k =>
                { k with stage := .session, remote := some r, sess := some (newSess cfg.refuse cfg.loc r) } } := by
            intro s' e1 e2 e3 e4 e5
            exact core_begin h hk (.inr hst) (by rw [e1]) e2 e3 e4 e5 rfl rfl rfl (by simp) (by simp)
              ⟨hc.taken, by simp, fun _ => ⟨_, rfl, newSess_tidy _ _ _⟩, by
                intro x hx
                cases hx
                rw [he.1]
                rfl⟩
          cases hs
          simp only [State.begun]
          split
          · exact core_close h hk (by rw [hst]; simp)
          · split
            · exact hstart s rfl rfl rfl rfl rfl
            · split
              · exact core_close h hk (by rw [hst]; simp)
              · split
                · exact hstart s rfl rfl rfl rfl rfl
                · exact hstart { s with met := _ } rfl rfl rfl rfl rfl
      · cases hs
  | next c => exact core_next h hs
  | message c has p =>
    simp only [step] at hs
    split at hs
    · cases hs
    · next k hk => exact core_session h hk (by simp) hs
  | timeout c =>
    simp only [step] at hs
    split at hs
    · cases hs
    · next k hk => exact core_session h hk (by simp) hs
  | lost c =>
    simp only [step] at hs
    split at hs
    · cases hs
    · next k hk => exact core_session h hk (by simp) hs
  | closed c =>
    simp only [step] at hs
    split at hs
    · cases hs
    · next k hk =>
      split at hs
      · exact core_session h hk (by simp) hs
      · cases hs

theorem core_init (cfg : Cfg A) : Core cfg ({} : State A) :=
  ⟨by simp, by simp, by simp, by rintro c c' j j' i ⟨k, hk, _⟩; simp at hk, by simp, by simp, by simp, by simp, by simp, by simp⟩

/-- Induction over runs. -/
theorem run_ind {cfg : Cfg A} {P : State A → Prop} (hstep : ∀ s t e, P s → step cfg s e = some t → P t) {evs : List (Ev A)} :
    ∀ {s t : State A}, P s → run cfg s evs = some t → P t := by
  induction evs with
  | nil => intro s t hs hr; cases hr; exact hs
  | cons e es ih =>
    intro s t hs hr
    simp only [run] at hr
    obtain ⟨u, h1, h2⟩ := Option.bind_eq_some_iff.mp hr
    exact ih (hstep s u e hs h1) h2

theorem core_run {cfg : Cfg A} {evs : List (Ev A)} {s t : State A} (h : Core cfg s) (hr : run cfg s evs = some t) : Core cfg t :=
  run_ind (P := Core cfg) (fun _ _ _ h hs => core_step h hs) h hr

end Dtn.TcpPool
