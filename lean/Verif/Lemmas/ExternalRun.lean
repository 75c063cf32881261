import Verif.Lemmas.External
/-! Following one request and the connections through a run of `routing/erouting/processing.rs`. -/

namespace Dtn.Routing.External
open Spec

/-- What no step changes about a request. -/
structure Keeps (p p' : Req) : Prop where
  bp : p'.bp = p.bp
  done : p.pc = .done → p'.pc = .done
  value : ∀ k, p.slot = .value k → p'.slot = .value k

theorem Keeps.refl (p : Req) : Keeps p p := ⟨rfl, id, fun _ => id⟩

theorem Keeps.trans {p q r : Req} (a : Keeps p q) (b : Keeps q r) : Keeps p r :=
  ⟨b.bp.trans a.bp, fun h => b.done (a.done h), fun k h => b.value k (a.value k h)⟩

/-- The same requests, each with its permanent parts. -/
structure KeepsAll (l m : List Req) : Prop where
  length : m.length = l.length
  each : ∀ (j : Nat) (p : Req), l[j]? = some p → ∃ p', m[j]? = some p' ∧ Keeps p p'

theorem KeepsAll.refl (l : List Req) : KeepsAll l l := ⟨rfl, fun _ p h => ⟨p, h, .refl p⟩⟩

theorem KeepsAll.trans {l m n : List Req} (a : KeepsAll l m) (b : KeepsAll m n) : KeepsAll l n := by
  refine ⟨b.length.trans a.length, fun j p h => ?_⟩
  obtain ⟨p', h1, h2⟩ := a.each j p h
  obtain ⟨p'', h3, h4⟩ := b.each j p' h1
  exact ⟨p'', h3, h2.trans h4⟩

theorem KeepsAll.modify (l : List Req) (i : Nat) (f : Req → Req) (h : ∀ p, l[i]? = some p → Keeps p (f p)) :
    KeepsAll l (l.modify i f) := by
  refine ⟨by simp, fun j p hp => ⟨_, mod_getElem? hp, ?_⟩⟩
  split
  · rename_i e; subst e; exact h p hp
  · exact .refl p

theorem keeps_hangUp (p : Req) : Keeps p p.hangUp :=
  ⟨hangUp_bp p, fun h => by rw [hangUp_pc]; exact h, fun k h => ((hangUp_slot p).2.2 k).mpr h⟩

theorem keeps_unregister (s : State) (key : String) : KeepsAll s.reqs (s.unregister key).reqs := by
  unfold State.unregister
  split
  · exact .refl _
  · exact .modify _ _ _ fun p _ => keeps_hangUp p

theorem keeps_goto (s : State) {i : Nat} {q : Req} (hq : s.reqs[i]? = some q) (hd : q.pc ≠ .done) (pc : PC) :
    KeepsAll s.reqs (s.goto i pc).reqs := by
  refine .modify _ _ _ fun p hp => ⟨rfl, fun h => ?_, fun _ => id⟩
  rw [hq] at hp
  obtain rfl := Option.some.inj hp
  exact absurd h hd

theorem keeps_send (s : State) (p : Packet) : KeepsAll s.reqs (s.send p).reqs := by
  rw [send_reqs]; exact .refl _

/-- A request that can run is not finished. -/
theorem runReq_not_done {s t : State} {i running} (h : s.runReq i running = some t) :
    ∃ q, s.reqs[i]? = some q ∧ q.pc ≠ .done := by
  unfold State.runReq at h
  cases hq : s.reqs[i]? with
  | none => rw [hq] at h; cases h
  | some q =>
    refine ⟨q, rfl, fun e => ?_⟩
    rw [hq] at h
    simp only [e] at h
    cases h

theorem keeps_runReq {evs s t i running} (I : Inv evs s) (h : s.runReq i running = some t) : KeepsAll s.reqs t.reqs := by
  obtain ⟨q, hq, hd⟩ := runReq_not_done h
  unfold State.runReq at h
  rw [hq] at h
  simp only at h
  have unreg : ∀ key pc, (q.slot ≠ .empty ∨ q.pc = .checked) → KeepsAll s.reqs ((s.unregister key).goto i pc).reqs := by
    intro key pc hs
    refine (keeps_unregister s key).trans (keeps_goto _ (unregister_other I key hq ?_) hd pc)
    rcases hs with h | h
    · exact .inr (.inr h)
    · exact .inr (.inl h)
  have R := I.req i q hq
  cases hpc : q.pc with
  | start =>
    rw [hpc] at h
    simp only at h
    split at h <;> obtain rfl := Option.some.inj h
    · exact keeps_goto s hq hd .done
    · exact keeps_goto s hq hd _
  | checked =>
    rw [hpc] at h
    obtain rfl := Option.some.inj h
    exact unreg q.bp.print _ (.inr hpc)
  | registered =>
    rw [hpc] at h
    obtain rfl := Option.some.inj h
    exact (keeps_send s _).trans (keeps_goto _ (by rw [send_reqs]; exact hq) hd _)
  | waiting =>
    rw [hpc] at h
    simp only at h
    split at h
    · cases h
    · obtain rfl := Option.some.inj h; exact keeps_goto s hq hd _
    · obtain rfl := Option.some.inj h; exact keeps_goto s hq hd _
  | got k =>
    rw [hpc] at h
    obtain rfl := Option.some.inj h
    exact unreg _ _ (.inl (by simp [R.got k (.inl hpc)]))
  | unregistered k =>
    rw [hpc] at h
    simp only at h
    split at h
    · cases h
    · split at h <;> obtain rfl := Option.some.inj h <;> exact keeps_goto s hq hd .done
  | lost =>
    rw [hpc] at h
    obtain rfl := Option.some.inj h
    exact (keeps_send s _).trans (keeps_goto _ (by rw [send_reqs]; exact hq) hd _)
  | reported =>
    rw [hpc] at h
    obtain rfl := Option.some.inj h
    exact unreg _ .done (.inl (R.late (.inr hpc)))
  | done => exact absurd hpc hd

theorem keeps_runTimer {s t : State} {i} (h : s.runTimer i = some t) : KeepsAll s.reqs t.reqs := by
  unfold State.runTimer at h
  cases hq : s.reqs[i]? with
  | none => rw [hq] at h; cases h
  | some q =>
    rw [hq] at h
    simp only at h
    split at h
    · rename_i hpc
      have hd : q.pc ≠ .done := by simp [hpc]
      split at h
      · rename_i hs
        obtain rfl := Option.some.inj h
        refine .modify _ _ _ fun p hp => ?_
        rw [hq] at hp
        obtain rfl := Option.some.inj hp
        exact ⟨rfl, fun h => absurd h hd, fun k hk => by rw [hs] at hk; cases hk⟩
      · obtain rfl := Option.some.inj h; exact keeps_goto s hq hd _
      · obtain rfl := Option.some.inj h; exact keeps_goto s hq hd _
    · cases h

theorem keeps_takeResponse (s : State) (r : Response) : KeepsAll s.reqs (s.takeResponse r).reqs := by
  unfold State.takeResponse
  dsimp only
  split
  · exact .refl _
  · refine .modify _ _ _ fun p _ => ?_
    split
    · rename_i e
      exact ⟨rfl, id, fun k hk => by rw [e] at hk; cases hk⟩
    · exact .refl _

/-- One step keeps all requests, except that an accepted question adds one. -/
theorem keeps_step {evs s t e} (I : Inv evs s) (h : step s e = some t) :
    KeepsAll s.reqs t.reqs ∨ ∃ bp, e = .ask bp ∧ t.reqs = s.reqs ++ [({ bp := bp } : Req)] := by
  cases e with
  | ask bp =>
    simp only [step] at h
    split at h
    · split at h <;> obtain rfl := Option.some.inj h
      · exact .inr ⟨bp, rfl, rfl⟩
      · exact .inl (.refl _)
    · cases h
  | run i running => exact .inl (keeps_runReq I h)
  | timer i => exact .inl (keeps_runTimer h)
  | notify n peer =>
    obtain rfl := Option.some.inj h
    left
    unfold State.runNotify
    split
    · exact .refl _
    · split
      · split
        · exact .refl _
        · exact keeps_send _ _
      · split
        · exact .refl _
        · exact keeps_send _ _
      · exact keeps_send _ _
  | shutdown => obtain rfl := Option.some.inj h; exact .inl (.refl _)
  | connect => obtain rfl := Option.some.inj h; exact .inl (.refl _)
  | proceed c =>
    simp only [step, State.proceed] at h
    left
    split at h
    · obtain rfl := Option.some.inj h; exact .refl _
    · obtain rfl := Option.some.inj h; exact keeps_send _ _
    · obtain rfl := Option.some.inj h; exact keeps_send _ _
    · cases h
  | response c r =>
    simp only [step] at h
    split at h
    · obtain rfl := Option.some.inj h; exact .inl (keeps_takeResponse s r)
    · cases h
  | serviceAdd c tag service =>
    simp only [step] at h
    split at h
    · obtain rfl := Option.some.inj h; exact .inl (.refl _)
    · cases h
  | text c =>
    simp only [step] at h
    split at h
    · obtain rfl := Option.some.inj h; exact .inl (.refl _)
    · cases h
  | binary c =>
    simp only [step] at h
    split at h
    · obtain rfl := Option.some.inj h; exact .inl (.refl _)
    · cases h
  | close c =>
    simp only [step] at h
    split at h
    · obtain rfl := Option.some.inj h; exact .inl (.refl _)
    · cases h
  | transfer c =>
    simp only [step] at h
    split at h
    · cases h
    · split at h
      · cases h
      · obtain rfl := Option.some.inj h; exact .inl (.refl _)

theorem keeps_step_each {evs s t e} (I : Inv evs s) (h : step s e = some t) {j : Nat} {p : Req}
    (hp : s.reqs[j]? = some p) : ∃ p', t.reqs[j]? = some p' ∧ Keeps p p' := by
  rcases keeps_step I h with K | ⟨bp, -, ht⟩
  · exact K.each j p hp
  · refine ⟨p, ?_, .refl p⟩
    rw [ht, List.getElem?_append_left (List.getElem?_eq_some_iff.mp hp).1]
    exact hp

/-! ### A request without competition -/

theorem unregister_frame {evs s} (I : Inv evs s) {key : String} {i : Nat} {q : Req} (hq : s.reqs[i]? = some q)
    (hk : q.bp.print ≠ key) : (s.unregister key).reqs[i]? = some q := by
  unfold State.unregister
  cases hm : AList.get? s.responses key with
  | none => exact hq
  | some j =>
    obtain ⟨qj, hj, hkey, -⟩ := I.map key j hm
    simp only
    rw [mod_getElem? hq]
    split
    · rename_i e
      subst e
      rw [hq] at hj
      obtain rfl := Option.some.inj hj
      exact absurd hkey hk
    · rfl

/-- A step of another request with another key leaves request `i` as it is. -/
theorem runReq_frame {evs s t j running} (I : Inv evs s) (h : s.runReq j running = some t) {i : Nat} {q p : Req}
    (hq : s.reqs[i]? = some q) (hp : s.reqs[j]? = some p) (hij : i ≠ j) (hk : q.bp.print ≠ p.bp.print) :
    t.reqs[i]? = some q := by
  have g : ∀ (u : State) pc, u.reqs[i]? = some q → (u.goto j pc).reqs[i]? = some q := by
    intro u pc hu
    unfold State.goto
    simp only
    rw [mod_getElem? hu, if_neg hij]
  have u := unregister_frame I hq hk
  unfold State.runReq at h
  rw [hp] at h
  simp only at h
  cases hpc : p.pc with
  | start =>
    rw [hpc] at h
    simp only at h
    split at h <;> obtain rfl := Option.some.inj h
    · exact g _ .done hq
    · exact g _ _ hq
  | checked =>
    rw [hpc] at h
    obtain rfl := Option.some.inj h
    exact g _ _ u
  | registered =>
    rw [hpc] at h
    obtain rfl := Option.some.inj h
    exact g _ _ (by rw [send_reqs]; exact hq)
  | waiting =>
    rw [hpc] at h
    simp only at h
    split at h
    · cases h
    · obtain rfl := Option.some.inj h; exact g _ _ hq
    · obtain rfl := Option.some.inj h; exact g _ _ hq
  | got k =>
    rw [hpc] at h
    obtain rfl := Option.some.inj h
    exact g _ _ u
  | unregistered k =>
    rw [hpc] at h
    simp only at h
    split at h
    · cases h
    · split at h <;> obtain rfl := Option.some.inj h <;> exact g _ .done hq
  | lost =>
    rw [hpc] at h
    obtain rfl := Option.some.inj h
    exact g _ _ (by rw [send_reqs]; exact hq)
  | reported =>
    rw [hpc] at h
    obtain rfl := Option.some.inj h
    exact g _ .done u
  | done => rw [hpc] at h; cases h

/-- Request `i` for the pack `bp` is in no hurry: no response yet, and every other request that prints alike is over. -/
structure Alone (s : State) (i : Nat) (bp : Held) : Prop where
  here : ∃ q, s.reqs[i]? = some q ∧ q.bp = bp ∧ q.slot = .empty
  others : ∀ (j : Nat) (p : Req), j ≠ i → s.reqs[j]? = some p → p.bp.print = bp.print → p.pc = .done

/-- Events that do not compete with request `i`. -/
def Harmless (i : Nat) (bp : Held) (e : Ev) : Prop :=
  e ≠ .timer i ∧ (∀ h, e = .ask h → h.print ≠ bp.print) ∧ ∀ c r, e = .response c r → r.bp.print ≠ bp.print

theorem Alone.others_step {evs s t e i bp} (I : Inv evs s) (A : Alone s i bp) (h : step s e = some t)
    (hh : Harmless i bp e) (j : Nat) (p : Req) (hj : j ≠ i) (hp : t.reqs[j]? = some p) (hb : p.bp.print = bp.print) :
    p.pc = .done := by
  rcases keeps_step I h with K | ⟨bp', rfl, ht⟩
  · have hlt : j < s.reqs.length := by
      rw [← K.length]; exact (List.getElem?_eq_some_iff.mp hp).1
    obtain ⟨p', h1, h2⟩ := K.each j _ (List.getElem?_eq_getElem hlt)
    rw [hp] at h1
    obtain rfl := Option.some.inj h1
    exact h2.done (A.others j _ hj (List.getElem?_eq_getElem hlt) (by rw [← h2.bp]; exact hb))
  · rw [ht] at hp
    by_cases hlt : j < s.reqs.length
    · rw [List.getElem?_append_left hlt] at hp
      exact A.others j p hj hp hb
    · rw [List.getElem?_append_right (by omega)] at hp
      have : j - s.reqs.length = 0 := by
        have := (List.getElem?_eq_some_iff.mp hp).1
        simp at this; omega
      rw [this] at hp
      simp at hp
      subst hp
      exact absurd hb (hh.2.1 bp' rfl)

theorem Alone.step {evs s t e i bp} (I : Inv evs s) (A : Alone s i bp) (h : step s e = some t)
    (hh : Harmless i bp e) : Alone t i bp := by
  refine ⟨?_, A.others_step I h hh⟩
  obtain ⟨q, hq, hbp, hs⟩ := A.here
  have same : t.reqs = s.reqs → ∃ q, t.reqs[i]? = some q ∧ q.bp = bp ∧ q.slot = .empty := by
    intro ht; rw [ht]; exact ⟨q, hq, hbp, hs⟩
  cases e with
  | ask bp' =>
    rcases keeps_step I h with K | ⟨b, -, ht⟩
    · simp only [External.step] at h
      split at h
      · split at h <;> obtain rfl := Option.some.inj h
        · simpa using K.length
        · exact same rfl
      · cases h
    · refine ⟨q, ?_, hbp, hs⟩
      rw [ht, List.getElem?_append_left (List.getElem?_eq_some_iff.mp hq).1]
      exact hq
  | run j running =>
    simp only [External.step] at h
    by_cases hij : i = j
    · subst hij
      have R := I.req i q hq
      have g : ∀ (u : State) pc, u.reqs[i]? = some q → ∃ q, (u.goto i pc).reqs[i]? = some q ∧ q.bp = bp ∧ q.slot = .empty := by
        intro u pc hu
        unfold State.goto
        refine ⟨_, mod_getElem? hu, ?_⟩
        rw [if_pos rfl]
        exact ⟨hbp, hs⟩
      unfold State.runReq at h
      rw [hq] at h
      simp only at h
      cases hpc : q.pc with
      | start =>
        rw [hpc] at h
        simp only at h
        split at h <;> obtain rfl := Option.some.inj h
        · exact g s .done hq
        · exact g s _ hq
      | checked =>
        rw [hpc] at h
        obtain rfl := Option.some.inj h
        exact g _ _ (unregister_other I q.bp.print hq (.inr (.inl hpc)))
      | registered =>
        rw [hpc] at h
        obtain rfl := Option.some.inj h
        exact g _ _ (by rw [send_reqs]; exact hq)
      | waiting => rw [hpc] at h; simp only [hs] at h; cases h
      | got k => rw [R.got k (.inl hpc)] at hs; cases hs
      | unregistered k => rw [R.got k (.inr hpc)] at hs; cases hs
      | lost => exact absurd hs (R.late (.inl hpc))
      | reported => exact absurd hs (R.late (.inr hpc))
      | done => rw [hpc] at h; cases h
    · obtain ⟨p, hp, hd⟩ := runReq_not_done h
      have hk : q.bp.print ≠ p.bp.print := by
        intro e
        exact hd (A.others j p (fun e => hij e.symm) hp (by rw [← e, hbp]))
      exact ⟨q, runReq_frame I h hq hp hij hk, hbp, hs⟩
  | timer j =>
    have hij : i ≠ j := by rintro rfl; exact hh.1 rfl
    simp only [External.step, State.runTimer] at h
    refine ⟨q, ?_, hbp, hs⟩
    split at h
    · cases h
    · split at h
      · split at h <;> obtain rfl := Option.some.inj h
        · simp only; rw [mod_getElem? hq, if_neg hij]
        · simp only [State.goto]; rw [mod_getElem? hq, if_neg hij]
        · simp only [State.goto]; rw [mod_getElem? hq, if_neg hij]
      · cases h
  | response c r =>
    simp only [External.step] at h
    split at h
    · obtain rfl := Option.some.inj h
      refine ⟨q, ?_, hbp, hs⟩
      unfold State.takeResponse
      dsimp only
      cases hm : AList.get? s.responses r.bp.print with
      | none => exact hq
      | some j =>
        obtain ⟨p, hp, hkey, -⟩ := I.map _ j hm
        simp only
        rw [mod_getElem? hq]
        split
        · rename_i e
          subst e
          rw [hq] at hp
          obtain rfl := Option.some.inj hp
          exact absurd (hkey.symm.trans (by rw [hbp])) (hh.2.2 c r rfl)
        · rfl
    · cases h
  | notify n peer =>
    obtain rfl := Option.some.inj h
    apply same
    unfold State.runNotify
    split
    · rfl
    · split
      · split
        · rfl
        · exact send_reqs _ _
      · split
        · rfl
        · exact send_reqs _ _
      · exact send_reqs _ _
  | shutdown => obtain rfl := Option.some.inj h; exact same rfl
  | connect => obtain rfl := Option.some.inj h; exact same rfl
  | proceed c =>
    simp only [External.step, State.proceed] at h
    split at h
    · obtain rfl := Option.some.inj h; exact same rfl
    · obtain rfl := Option.some.inj h; exact same (send_reqs _ _)
    · obtain rfl := Option.some.inj h; exact same (send_reqs _ _)
    · cases h
  | serviceAdd c tag service =>
    simp only [External.step] at h
    split at h
    · obtain rfl := Option.some.inj h; exact same rfl
    · cases h
  | text c =>
    simp only [External.step] at h
    split at h
    · obtain rfl := Option.some.inj h; exact same rfl
    · cases h
  | binary c =>
    simp only [External.step] at h
    split at h
    · obtain rfl := Option.some.inj h; exact same rfl
    · cases h
  | close c =>
    simp only [External.step] at h
    split at h
    · obtain rfl := Option.some.inj h; exact same rfl
    · cases h
  | transfer c =>
    simp only [External.step] at h
    split at h
    · cases h
    · split at h
      · cases h
      · obtain rfl := Option.some.inj h; exact same rfl

/-- Step by step. -/
theorem run_cons {s t : State} {e es} (h : run s (e :: es) = some t) : ∃ u, step s e = some u ∧ run u es = some t := by
  simp only [run] at h
  cases hs : step s e with
  | none => rw [hs] at h; cases h
  | some u => rw [hs] at h; exact ⟨u, rfl, h⟩

theorem run_append_some {s t : State} {xs ys} (h : run s (xs ++ ys) = some t) :
    ∃ u, run s xs = some u ∧ run u ys = some t := by
  rw [run_append] at h
  cases hs : run s xs with
  | none => rw [hs] at h; cases h
  | some u => rw [hs] at h; exact ⟨u, rfl, h⟩

theorem run_snoc {evs s e t} (hs : run {} evs = some s) (h : step s e = some t) : run {} (evs ++ [e]) = some t := by
  rw [run_append, hs]
  simp [run, h]

theorem Alone.run {i bp} : ∀ (es : List Ev) {evs s t}, run {} evs = some s → Alone s i bp → run s es = some t →
    (∀ e ∈ es, Harmless i bp e) → Alone t i bp
  | [], _, _, _, _, A, h, _ => by obtain rfl := Option.some.inj h; exact A
  | e :: es, evs, s, t, hs, A, h, hh => by
    obtain ⟨u, h1, h2⟩ := run_cons h
    exact Alone.run es (run_snoc hs h1) (A.step (inv_run evs s hs) h1 (hh e (by simp))) h2
      (fun e he => hh e (by simp [he]))

/-! ### A request with its response -/

/-- Request `i` has the response `r` at hand; once it is answered, the answer is what the response says. -/
structure Served (evs : List Ev) (s : State) (i k : Nat) (r : Response) : Prop where
  resp : s.inbox[k]? = some r
  here : ∃ q, s.reqs[i]? = some q ∧ q.slot = .value k ∧ q.bp.print = r.bp.print ∧
    (q.pc = .waiting ∨ q.pc = .got k ∨ q.pc = .unregistered k ∨ q.pc = .done)
  ans : ∀ a, (i, a) ∈ s.answers → ∃ running, Ev.run i running ∈ evs ∧ a = unpack running r

theorem unregister_answers (s : State) (key : String) : (s.unregister key).answers = s.answers := by
  unfold State.unregister; split <;> rfl
theorem send_answers (s : State) (p : Packet) : (s.send p).answers = s.answers := by
  unfold State.send; split <;> rfl

/-- The log of responses only grows, and an answer is only added for the request that runs. -/
theorem step_logs {s t : State} {e} (h : step s e = some t) : s.inbox <+: t.inbox ∧
    (t.answers = s.answers ∨ ∃ i running a, e = .run i running ∧ t.answers = s.answers ++ [(i, a)]) := by
  have same : ∀ u : State, u.inbox = s.inbox → u.answers = s.answers → s.inbox <+: u.inbox ∧
    (u.answers = s.answers ∨ ∃ i running a, e = .run i running ∧ u.answers = s.answers ++ [(i, a)]) :=
    fun u h1 h2 => ⟨by rw [h1]; exact List.prefix_refl _, .inl h2⟩
  cases e with
  | ask bp =>
    simp only [step] at h
    split at h
    · split at h <;> obtain rfl := Option.some.inj h <;> exact same _ rfl rfl
    · cases h
  | run j running =>
    simp only [step, State.runReq] at h
    split at h
    · cases h
    · split at h
      · split at h <;> obtain rfl := Option.some.inj h
        · exact ⟨List.prefix_refl _, .inr ⟨j, running, nothing, rfl, rfl⟩⟩
        · exact same _ rfl rfl
      · obtain rfl := Option.some.inj h
        exact same _ (unregister_inbox _ _) (unregister_answers _ _)
      · obtain rfl := Option.some.inj h
        exact same _ (send_inbox _ _) (send_answers _ _)
      · split at h
        · cases h
        · obtain rfl := Option.some.inj h; exact same _ rfl rfl
        · obtain rfl := Option.some.inj h; exact same _ rfl rfl
      · obtain rfl := Option.some.inj h
        exact same _ (unregister_inbox _ _) (unregister_answers _ _)
      · split at h
        · cases h
        · split at h <;> obtain rfl := Option.some.inj h
          · exact ⟨List.prefix_refl _, .inr ⟨j, running, _, rfl, rfl⟩⟩
          · exact ⟨List.prefix_refl _, .inr ⟨j, running, _, rfl, rfl⟩⟩
      · obtain rfl := Option.some.inj h
        exact same _ (send_inbox _ _) (send_answers _ _)
      · obtain rfl := Option.some.inj h
        refine ⟨?_, .inr ⟨j, running, nothing, rfl, ?_⟩⟩
        · show s.inbox <+: (s.unregister _).inbox
          rw [unregister_inbox]
          exact List.prefix_refl _
        · show (s.unregister _).answers ++ _ = _
          rw [unregister_answers]
      · cases h
  | timer i =>
    simp only [step, State.runTimer] at h
    split at h
    · cases h
    · split at h
      · split at h <;> obtain rfl := Option.some.inj h <;> exact same _ rfl rfl
      · cases h
  | notify n peer =>
    obtain rfl := Option.some.inj h
    unfold State.runNotify
    split
    · exact same _ rfl rfl
    · split
      · split
        · exact same _ rfl rfl
        · exact same _ (send_inbox _ _) (send_answers _ _)
      · split
        · exact same _ rfl rfl
        · exact same _ (send_inbox _ _) (send_answers _ _)
      · exact same _ (send_inbox _ _) (send_answers _ _)
  | shutdown => obtain rfl := Option.some.inj h; exact same _ rfl rfl
  | connect => obtain rfl := Option.some.inj h; exact same _ rfl rfl
  | proceed c =>
    simp only [step, State.proceed] at h
    split at h
    · obtain rfl := Option.some.inj h; exact same _ rfl rfl
    · obtain rfl := Option.some.inj h; exact same _ (send_inbox _ _) (send_answers _ _)
    · obtain rfl := Option.some.inj h; exact same _ (send_inbox _ _) (send_answers _ _)
    · cases h
  | response c r =>
    simp only [step] at h
    split at h
    · obtain rfl := Option.some.inj h
      unfold State.takeResponse
      dsimp only
      split
      · exact ⟨by simp, .inl rfl⟩
      · exact ⟨by simp, .inl rfl⟩
    · cases h
  | serviceAdd c tag service =>
    simp only [step] at h
    split at h
    · obtain rfl := Option.some.inj h; exact same _ rfl rfl
    · cases h
  | text c =>
    simp only [step] at h
    split at h
    · obtain rfl := Option.some.inj h; exact same _ rfl rfl
    · cases h
  | binary c =>
    simp only [step] at h
    split at h
    · obtain rfl := Option.some.inj h; exact same _ rfl rfl
    · cases h
  | close c =>
    simp only [step] at h
    split at h
    · obtain rfl := Option.some.inj h; exact same _ rfl rfl
    · cases h
  | transfer c =>
    simp only [step] at h
    split at h
    · cases h
    · split at h
      · cases h
      · obtain rfl := Option.some.inj h; exact same _ rfl rfl

/-- Only its own steps move a request. -/
theorem step_pc {s t : State} {e} (h : step s e = some t) {i : Nat} {p : Req} (hp : s.reqs[i]? = some p)
    (h1 : ∀ running, e ≠ .run i running) (h2 : e ≠ .timer i) : ∃ p', t.reqs[i]? = some p' ∧ p'.pc = p.pc := by
  have same : ∀ u : State, u.reqs = s.reqs → ∃ p', u.reqs[i]? = some p' ∧ p'.pc = p.pc :=
    fun u hu => ⟨p, by rw [hu]; exact hp, rfl⟩
  have unreg : ∀ key, ∃ p', (s.unregister key).reqs[i]? = some p' ∧ p'.pc = p.pc := by
    intro key
    unfold State.unregister
    split
    · exact ⟨p, hp, rfl⟩
    · refine ⟨_, mod_getElem? hp, ?_⟩
      split
      · exact hangUp_pc _
      · rfl
  have go : ∀ (u : State) j pc, j ≠ i → (∃ p', u.reqs[i]? = some p' ∧ p'.pc = p.pc) →
      ∃ p', (u.goto j pc).reqs[i]? = some p' ∧ p'.pc = p.pc := by
    rintro u j pc hj ⟨p', hu, hpc⟩
    exact ⟨_, mod_getElem? hu, by rw [if_neg fun e => hj e.symm]; exact hpc⟩
  cases e with
  | ask bp =>
    simp only [step] at h
    split at h
    · split at h <;> obtain rfl := Option.some.inj h
      · refine ⟨p, ?_, rfl⟩
        simp only
        rw [List.getElem?_append_left (List.getElem?_eq_some_iff.mp hp).1]
        exact hp
      · exact same _ rfl
    · cases h
  | run j running =>
    have hj : j ≠ i := by rintro rfl; exact h1 running rfl
    have sendr : ∀ pk, ∃ p', (s.send pk).reqs[i]? = some p' ∧ p'.pc = p.pc := fun pk => same _ (send_reqs _ _)
    simp only [step, State.runReq] at h
    split at h
    · cases h
    · split at h
      · split at h <;> obtain rfl := Option.some.inj h
        · exact go s j .done hj ⟨p, hp, rfl⟩
        · exact go s j _ hj ⟨p, hp, rfl⟩
      · obtain rfl := Option.some.inj h
        exact go _ j _ hj (unreg _)
      · obtain rfl := Option.some.inj h
        exact go _ j _ hj (sendr _)
      · split at h
        · cases h
        · obtain rfl := Option.some.inj h; exact go s j _ hj ⟨p, hp, rfl⟩
        · obtain rfl := Option.some.inj h; exact go s j _ hj ⟨p, hp, rfl⟩
      · obtain rfl := Option.some.inj h
        exact go _ j _ hj (unreg _)
      · split at h
        · cases h
        · split at h <;> obtain rfl := Option.some.inj h <;> exact go s j .done hj ⟨p, hp, rfl⟩
      · obtain rfl := Option.some.inj h
        exact go _ j _ hj (sendr _)
      · obtain rfl := Option.some.inj h
        exact go _ j .done hj (unreg _)
      · cases h
  | timer j =>
    have hj : j ≠ i := by rintro rfl; exact h2 rfl
    simp only [step, State.runTimer] at h
    split at h
    · cases h
    · split at h
      · split at h <;> obtain rfl := Option.some.inj h
        · exact ⟨_, mod_getElem? hp, by rw [if_neg fun e => hj e.symm]⟩
        · exact go s j _ hj ⟨p, hp, rfl⟩
        · exact go s j _ hj ⟨p, hp, rfl⟩
      · cases h
  | response c r =>
    simp only [step] at h
    split at h
    · obtain rfl := Option.some.inj h
      unfold State.takeResponse
      dsimp only
      split
      · exact ⟨p, hp, rfl⟩
      · refine ⟨_, mod_getElem? hp, ?_⟩
        split
        · split <;> rfl
        · rfl
    · cases h
  | notify n peer =>
    obtain rfl := Option.some.inj h
    apply same
    unfold State.runNotify
    split
    · rfl
    · split
      · split
        · rfl
        · exact send_reqs _ _
      · split
        · rfl
        · exact send_reqs _ _
      · exact send_reqs _ _
  | shutdown => obtain rfl := Option.some.inj h; exact same _ rfl
  | connect => obtain rfl := Option.some.inj h; exact same _ rfl
  | proceed c =>
    simp only [step, State.proceed] at h
    split at h
    · obtain rfl := Option.some.inj h; exact same _ rfl
    · obtain rfl := Option.some.inj h; exact same _ (send_reqs _ _)
    · obtain rfl := Option.some.inj h; exact same _ (send_reqs _ _)
    · cases h
  | serviceAdd c tag service =>
    simp only [step] at h
    split at h
    · obtain rfl := Option.some.inj h; exact same _ rfl
    · cases h
  | text c =>
    simp only [step] at h
    split at h
    · obtain rfl := Option.some.inj h; exact same _ rfl
    · cases h
  | binary c =>
    simp only [step] at h
    split at h
    · obtain rfl := Option.some.inj h; exact same _ rfl
    · cases h
  | close c =>
    simp only [step] at h
    split at h
    · obtain rfl := Option.some.inj h; exact same _ rfl
    · cases h
  | transfer c =>
    simp only [step] at h
    split at h
    · cases h
    · split at h
      · cases h
      · obtain rfl := Option.some.inj h; exact same _ rfl

theorem Served.step {evs s t e i k r es} (I : Inv evs s) (S : Served es s i k r) (h : step s e = some t) :
    Served (es ++ [e]) t i k r := by
  obtain ⟨q, hq, hs, hb, hpc⟩ := S.here
  obtain ⟨q', hq', K⟩ := keeps_step_each I h hq
  obtain ⟨hin, hans⟩ := step_logs h
  have old : ∀ a, (i, a) ∈ s.answers → ∃ running, Ev.run i running ∈ es ++ [e] ∧ a = unpack running r := by
    intro a ha
    obtain ⟨running, h1, h2⟩ := S.ans a ha
    exact ⟨running, by simp [h1], h2⟩
  have resp : t.inbox[k]? = some r := by
    obtain ⟨w, hw⟩ := hin
    rw [← hw, List.getElem?_append_left (List.getElem?_eq_some_iff.mp S.resp).1]
    exact S.resp
  by_cases hrun : ∃ running, e = .run i running
  · obtain ⟨running, rfl⟩ := hrun
    simp only [External.step, State.runReq] at h
    rw [hq] at h
    simp only at h
    have mk : ∀ (u : State) pc, u.reqs[i]? = some q → (pc = .got k ∨ pc = .unregistered k ∨ pc = .done) →
        (u.goto i pc).reqs[i]? = some q' → (q'.pc = .waiting ∨ q'.pc = .got k ∨ q'.pc = .unregistered k ∨ q'.pc = .done) := by
      intro u pc hu hpc' hg
      simp only [State.goto] at hg
      rw [mod_getElem? hu, if_pos rfl] at hg
      obtain rfl := Option.some.inj hg
      exact .inr hpc'
    rcases hpc with hpc | hpc | hpc | hpc <;> rw [hpc] at h
    · simp only [hs] at h
      obtain rfl := Option.some.inj h
      exact ⟨resp, ⟨q', hq', K.value k hs, by rw [K.bp]; exact hb, mk s _ hq (.inl rfl) hq'⟩, old⟩
    · obtain rfl := Option.some.inj h
      refine ⟨resp, ⟨q', hq', K.value k hs, by rw [K.bp]; exact hb,
        mk _ _ (unregister_other I _ hq (.inr (.inr (by simp [hs])))) (.inr (.inl rfl)) hq'⟩, ?_⟩
      intro a ha
      exact old a (by simpa [State.goto, unregister_answers] using ha)
    · simp only [S.resp] at h
      rw [if_neg (by rw [hb]; simp)] at h
      obtain rfl := Option.some.inj h
      refine ⟨resp, ⟨q', hq', K.value k hs, by rw [K.bp]; exact hb, mk s _ hq (.inr (.inr rfl)) hq'⟩, ?_⟩
      intro a ha
      simp only [State.answer, List.mem_append, List.mem_singleton, Prod.mk.injEq, true_and] at ha
      rcases ha with ha | rfl
      · exact old a ha
      · exact ⟨running, by simp, rfl⟩
    · cases h
  · have hne : ∀ running, e ≠ .run i running := fun running he => hrun ⟨running, he⟩
    have hans' : ∀ a, (i, a) ∈ t.answers → (i, a) ∈ s.answers := by
      intro a ha
      rcases hans with h | ⟨j, running, b, he, h⟩
      · rw [h] at ha; exact ha
      · rw [h] at ha
        simp only [List.mem_append, List.mem_singleton, Prod.mk.injEq] at ha
        rcases ha with ha | ⟨rfl, -⟩
        · exact ha
        · exact absurd he (hne running)
    refine ⟨resp, ⟨q', hq', K.value k hs, by rw [K.bp]; exact hb, ?_⟩, fun a ha => old a (hans' a ha)⟩
    by_cases ht : e = .timer i
    · subst ht
      simp only [External.step, State.runTimer] at h
      rw [hq] at h
      simp only at h
      split at h
      · simp only [hs] at h
        obtain rfl := Option.some.inj h
        simp only [State.goto] at hq'
        rw [mod_getElem? hq, if_pos rfl] at hq'
        obtain rfl := Option.some.inj hq'
        exact .inr (.inl rfl)
      · cases h
    · obtain ⟨q'', h1, h2⟩ := step_pc h hq hne ht
      rw [hq'] at h1
      obtain rfl := Option.some.inj h1
      rw [h2]
      exact hpc

theorem Served.run {i k r} : ∀ (xs : List Ev) {evs s t es}, External.run {} evs = some s → Served es s i k r →
    External.run s xs = some t → Served (es ++ xs) t i k r
  | [], _, _, _, _, _, S, h => by obtain rfl := Option.some.inj h; simpa using S
  | x :: xs, evs, s, t, es, hs, S, h => by
    obtain ⟨u, h1, h2⟩ := run_cons h
    have := Served.run xs (run_snoc hs h1) (S.step (inv_run evs s hs) h1) h2
    simpa using this

/-- Answers are never taken back. -/
theorem answers_run : ∀ (xs : List Ev) {s t : State}, run s xs = some t → s.answers <+: t.answers
  | [], _, _, h => by obtain rfl := Option.some.inj h; exact List.prefix_refl _
  | x :: xs, s, t, h => by
    obtain ⟨u, h1, h2⟩ := run_cons h
    have := answers_run xs h2
    rcases (step_logs h1).2 with e | ⟨_, _, _, _, e⟩
    · rw [e] at this; exact this
    · rw [e] at this; exact (List.prefix_append _ _).trans this

/-! ### Every request ends -/

/-- A finished request was answered. -/
theorem done_answered {evs s} (hs : run {} evs = some s) (i : Nat) (q : Req) (hq : s.reqs[i]? = some q)
    (hd : q.pc = .done) : ∃ a, (i, a) ∈ s.answers := by
  induction evs using List.reverseRecOn generalizing s q with
  | nil => obtain rfl := Option.some.inj hs; simp at hq
  | append_singleton evs e ih =>
    obtain ⟨u, h1, h2⟩ := run_append_some hs
    obtain ⟨t, h3, h4⟩ := run_cons h2
    obtain rfl : t = s := Option.some.inj h4
    have I := inv_run evs u h1
    by_cases hlt : i < u.reqs.length
    · have hp := List.getElem?_eq_getElem hlt
      by_cases hpd : (u.reqs[i]).pc = .done
      · obtain ⟨a, ha⟩ := ih h1 _ hp hpd
        exact ⟨a, (answers_run [e] h2).subset ha⟩
      · by_cases hrun : ∃ running, e = .run i running
        · obtain ⟨running, rfl⟩ := hrun
          have nd : ∀ (v : State) pc, KeepsAll u.reqs v.reqs → (v.goto i pc).reqs[i]? = some q → q.pc = pc := by
            intro v pc K hg
            obtain ⟨p', hp', _⟩ := K.each i _ hp
            simp only [State.goto] at hg
            rw [mod_getElem? hp', if_pos rfl] at hg
            obtain rfl := Option.some.inj hg
            rfl
          simp only [External.step, State.runReq] at h3
          rw [hp] at h3
          simp only at h3
          split at h3
          · split at h3 <;> obtain rfl := Option.some.inj h3
            · exact ⟨nothing, by simp [State.answer]⟩
            · have := nd u _ (.refl _) hq; rw [hd] at this; cases this
          · obtain rfl := Option.some.inj h3
            have := nd (u.register _ i) _ (keeps_unregister _ _) hq; rw [hd] at this; cases this
          · obtain rfl := Option.some.inj h3
            have := nd _ _ (keeps_send _ _) hq; rw [hd] at this; cases this
          · split at h3
            · cases h3
            · obtain rfl := Option.some.inj h3
              have := nd u _ (.refl _) hq; rw [hd] at this; cases this
            · obtain rfl := Option.some.inj h3
              have := nd u _ (.refl _) hq; rw [hd] at this; cases this
          · obtain rfl := Option.some.inj h3
            have := nd _ _ (keeps_unregister _ _) hq; rw [hd] at this; cases this
          · split at h3
            · cases h3
            · split at h3 <;> obtain rfl := Option.some.inj h3
              · exact ⟨nothing, by simp [State.answer]⟩
              · exact ⟨_, List.mem_append_right _ (List.mem_singleton.mpr rfl)⟩
          · obtain rfl := Option.some.inj h3
            have := nd _ _ (keeps_send _ _) hq; rw [hd] at this; cases this
          · obtain rfl := Option.some.inj h3
            exact ⟨nothing, by simp [State.answer]⟩
          · cases h3
        · by_cases ht : e = .timer i
          · subst ht
            simp only [External.step, State.runTimer] at h3
            rw [hp] at h3
            simp only at h3
            split at h3
            · have fin : ∀ f : Req → Req, (u.reqs.modify i f)[i]? = some q → q = f (u.reqs[i]) := by
                intro f hf
                rw [mod_getElem? hp, if_pos rfl] at hf
                exact (Option.some.inj hf).symm
              split at h3 <;> obtain rfl := Option.some.inj h3
              · have := fin _ hq; rw [this] at hd; cases hd
              · have := fin _ hq; rw [this] at hd; cases hd
              · have := fin _ hq; rw [this] at hd; cases hd
            · cases h3
          · obtain ⟨p', h5, h6⟩ := step_pc h3 hp (fun running he => hrun ⟨running, he⟩) ht
            rw [hq] at h5
            obtain rfl := Option.some.inj h5
            exact absurd (h6.symm.trans hd) hpd
    · rcases keeps_step I h3 with K | ⟨bp, -, ht⟩
      · have := (List.getElem?_eq_some_iff.mp hq).1
        rw [K.length] at this
        omega
      · rw [ht, List.getElem?_append_right (by omega)] at hq
        have hz : i - u.reqs.length = 0 := by
          have := (List.getElem?_eq_some_iff.mp hq).1
          simp at this; omega
        rw [hz] at hq
        simp at hq
        subst hq
        cases hd

/-- Steps left for a request. -/
def rank : PC → Nat
  | .start => 7
  | .checked => 6
  | .registered => 5
  | .waiting => 4
  | .got _ => 2
  | .unregistered _ => 1
  | .lost => 2
  | .reported => 1
  | .done => 0

theorem progress {evs s} (hs : run {} evs = some s) (i : Nat) (q : Req) (hq : s.reqs[i]? = some q) (hd : q.pc ≠ .done) :
    ∃ e t q', (e = .run i [] ∨ e = .timer i) ∧ step s e = some t ∧ t.reqs[i]? = some q' ∧ rank q'.pc < rank q.pc := by
  have I := inv_run evs s hs
  have R := I.req i q hq
  have go : ∀ (u : State) pc, KeepsAll s.reqs u.reqs → ∃ q', (u.goto i pc).reqs[i]? = some q' ∧ q'.pc = pc := by
    intro u pc K
    obtain ⟨p', hp', _⟩ := K.each i _ hq
    exact ⟨_, mod_getElem? hp', by rw [if_pos rfl]⟩
  have fin : ∀ (u : State) pc, KeepsAll s.reqs u.reqs → rank pc < rank q.pc → s.runReq i [] = some (u.goto i pc) →
      ∃ e t q', (e = .run i [] ∨ e = .timer i) ∧ step s e = some t ∧ t.reqs[i]? = some q' ∧ rank q'.pc < rank q.pc := by
    intro u pc K hr h
    obtain ⟨q', h1, h2⟩ := go u pc K
    exact ⟨_, _, q', .inl rfl, h, h1, by rw [h2]; exact hr⟩
  have finA : ∀ (u : State) a, KeepsAll s.reqs u.reqs → s.runReq i [] = some (u.answer i a) →
      ∃ e t q', (e = .run i [] ∨ e = .timer i) ∧ step s e = some t ∧ t.reqs[i]? = some q' ∧ rank q'.pc < rank q.pc := by
    intro u a K h
    obtain ⟨q', h1, h2⟩ := go u .done K
    refine ⟨_, _, q', .inl rfl, h, h1, ?_⟩
    rw [h2]
    cases hpc : q.pc <;> simp_all [rank]
  cases hpc : q.pc with
  | start =>
    rw [← hpc]
    by_cases hc : s.connection.isNone = true
    · exact finA s nothing (.refl _) (by unfold State.runReq; rw [hq]; simp only [hpc]; rw [if_pos hc])
    · exact fin s .checked (.refl _) (by rw [hpc]; decide) (by unfold State.runReq; rw [hq]; simp only [hpc]; rw [if_neg hc])
  | checked =>
    rw [← hpc]
    exact fin (s.register q.bp.print i) .registered (keeps_unregister _ _) (by rw [hpc]; decide)
      (by unfold State.runReq; rw [hq]; simp only [hpc])
  | registered =>
    rw [← hpc]
    exact fin _ .waiting (keeps_send _ _) (by rw [hpc]; decide)
      (by unfold State.runReq; rw [hq]; simp only [hpc]; rfl)
  | waiting =>
    rw [← hpc]
    cases hsl : q.slot with
    | empty =>
      refine ⟨.timer i, { s with reqs := s.reqs.modify i fun r => { r with pc := .lost, slot := .closed } }, _, .inr rfl,
        ?_, mod_getElem? hq, ?_⟩
      · simp only [step, State.runTimer]
        rw [hq]
        simp only [hpc, hsl]
        rfl
      · rw [if_pos rfl, hpc]; simp [rank]
    | value k =>
      exact fin s (.got k) (.refl _) (by rw [hpc]; simp [rank]) (by unfold State.runReq; rw [hq]; simp only [hpc, hsl])
    | closed =>
      exact fin s .lost (.refl _) (by rw [hpc]; simp [rank]) (by unfold State.runReq; rw [hq]; simp only [hpc, hsl])
  | got k =>
    rw [← hpc]
    exact fin (s.unregister q.bp.print) (.unregistered k) (keeps_unregister _ _) (by rw [hpc]; simp [rank])
      (by unfold State.runReq; rw [hq]; simp only [hpc])
  | unregistered k =>
    rw [← hpc]
    have hk := (R.origin k (R.got k (.inr hpc))).1
    have hr := List.getElem?_eq_getElem hk
    by_cases hp : (s.inbox[k]).bp.print ≠ q.bp.print
    · exact finA s nothing (.refl _) (by unfold State.runReq; rw [hq]; simp only [hpc, hr]; rw [if_pos hp])
    · exact finA s (unpack [] s.inbox[k]) (.refl _)
        (by unfold State.runReq; rw [hq]; simp only [hpc, hr]; rw [if_neg hp])
  | lost =>
    rw [← hpc]
    exact fin _ .reported (keeps_send _ _) (by rw [hpc]; decide)
      (by unfold State.runReq; rw [hq]; simp only [hpc]; rfl)
  | reported =>
    rw [← hpc]
    exact finA (s.unregister q.bp.print) nothing (keeps_unregister _ _) (by unfold State.runReq; rw [hq]; simp only [hpc])
  | done => exact absurd hpc hd

theorem ends (n : Nat) : ∀ {evs s}, run {} evs = some s → ∀ (i : Nat) (q : Req), s.reqs[i]? = some q → rank q.pc ≤ n →
    ∃ es t a, (∀ e ∈ es, e = .run i [] ∨ e = .timer i) ∧ es.length ≤ n ∧ run s es = some t ∧ (i, a) ∈ t.answers := by
  induction n with
  | zero =>
    intro evs s hs i q hq hr
    have hd : q.pc = .done := by cases h : q.pc <;> simp_all [rank]
    obtain ⟨a, ha⟩ := done_answered hs i q hq hd
    exact ⟨[], s, a, by simp, by simp, rfl, ha⟩
  | succ n ih =>
    intro evs s hs i q hq hr
    by_cases hd : q.pc = .done
    · obtain ⟨a, ha⟩ := done_answered hs i q hq hd
      exact ⟨[], s, a, by simp, by simp, rfl, ha⟩
    · obtain ⟨e, t, q', he, h1, h2, h3⟩ := progress hs i q hq hd
      obtain ⟨es, u, a, h4, h5, h6, h7⟩ := ih (run_snoc hs h1) i q' h2 (by omega)
      refine ⟨e :: es, u, a, ?_, by simp; omega, by simp [run, h1, h6], h7⟩
      intro x hx
      rcases List.mem_cons.mp hx with rfl | hx
      · exact he
      · exact h4 x hx

/-! ### The command loop -/

theorem send_alive (s : State) (p : Packet) : (s.send p).alive = s.alive := by unfold State.send; split <;> rfl
theorem unregister_alive (s : State) (key : String) : (s.unregister key).alive = s.alive := by
  unfold State.unregister; split <;> rfl

/-- What ends the command loop. -/
theorem alive_step {s t : State} {e} (h : step s e = some t) : t.alive = s.alive ∨ e = .shutdown ∨
    (∃ x p, e = .notify (.encounteredPeer x) p ∧ (x.node = none ∨ p = none)) ∨
    ∃ x p, e = .notify (.droppedPeer x) p ∧ x.node = none := by
  cases e with
  | ask b =>
    simp only [step] at h
    split at h
    · split at h <;> obtain rfl := Option.some.inj h <;> exact .inl rfl
    · cases h
  | run j running =>
    left
    simp only [step, State.runReq] at h
    split at h
    · cases h
    · split at h
      · split at h <;> obtain rfl := Option.some.inj h <;> rfl
      · obtain rfl := Option.some.inj h; exact unregister_alive _ _
      · obtain rfl := Option.some.inj h; exact send_alive _ _
      · split at h
        · cases h
        · obtain rfl := Option.some.inj h; rfl
        · obtain rfl := Option.some.inj h; rfl
      · obtain rfl := Option.some.inj h; exact unregister_alive _ _
      · split at h
        · cases h
        · split at h <;> obtain rfl := Option.some.inj h <;> rfl
      · obtain rfl := Option.some.inj h; exact send_alive _ _
      · obtain rfl := Option.some.inj h; exact unregister_alive _ _
      · cases h
  | timer j =>
    left
    simp only [step, State.runTimer] at h
    split at h
    · cases h
    · split at h
      · split at h <;> obtain rfl := Option.some.inj h <;> rfl
      · cases h
  | notify n p =>
    obtain rfl := Option.some.inj h
    unfold State.runNotify
    split
    · exact .inl rfl
    · split
      · rename_i x
        split
        · rename_i hx
          right; right; left
          refine ⟨x, p, rfl, ?_⟩
          simpa using hx
        · exact .inl (send_alive _ _)
      · rename_i x
        split
        · rename_i hx
          right; right; right
          exact ⟨x, p, rfl, by simpa using hx⟩
        · exact .inl (send_alive _ _)
      · exact .inl (send_alive _ _)
  | shutdown => exact .inr (.inl rfl)
  | connect => obtain rfl := Option.some.inj h; exact .inl rfl
  | proceed c =>
    left
    simp only [step, State.proceed] at h
    split at h
    · obtain rfl := Option.some.inj h; rfl
    · obtain rfl := Option.some.inj h; exact send_alive _ _
    · obtain rfl := Option.some.inj h; exact send_alive _ _
    · cases h
  | response c r =>
    left
    simp only [step] at h
    split at h
    · obtain rfl := Option.some.inj h
      unfold State.takeResponse
      dsimp only
      split <;> rfl
    · cases h
  | serviceAdd c tag service =>
    simp only [step] at h
    split at h
    · obtain rfl := Option.some.inj h; exact .inl rfl
    · cases h
  | text c =>
    simp only [step] at h
    split at h
    · obtain rfl := Option.some.inj h; exact .inl rfl
    · cases h
  | binary c =>
    simp only [step] at h
    split at h
    · obtain rfl := Option.some.inj h; exact .inl rfl
    · cases h
  | close c =>
    simp only [step] at h
    split at h
    · obtain rfl := Option.some.inj h; exact .inl rfl
    · cases h
  | transfer c =>
    simp only [step] at h
    split at h
    · cases h
    · split at h
      · cases h
      · obtain rfl := Option.some.inj h; exact .inl rfl

theorem dead_step {evs s t e} (hs : run {} evs = some s) (hal : s.alive = false) (h : step s e = some t) :
    t.reqs.length = s.reqs.length ∧ t.alive = false := by
  refine ⟨?_, ?_⟩
  · rcases keeps_step (inv_run evs s hs) h with K | ⟨b, rfl, hr⟩
    · exact K.length
    · simp only [step, hal] at h
      split at h
      · simp at h; subst h; rfl
      · cases h
  · rcases alive_step h with e | rfl | ⟨x, p, rfl, -⟩ | ⟨x, p, rfl, -⟩
    · exact e.trans hal
    · obtain rfl := Option.some.inj h; rfl
    · obtain rfl := Option.some.inj h; simp [State.runNotify, hal]
    · obtain rfl := Option.some.inj h; simp [State.runNotify, hal]

theorem dead_run : ∀ (es : List Ev) {evs s t}, run {} evs = some s → s.alive = false → run s es = some t →
    t.reqs.length = s.reqs.length
  | [], _, _, _, _, _, h => by obtain rfl := Option.some.inj h; rfl
  | e :: es, evs, s, t, hs, hal, h => by
    obtain ⟨u, h1, h2⟩ := run_cons h
    obtain ⟨h3, h4⟩ := dead_step hs hal h1
    rw [dead_run es (run_snoc hs h1) h4 h2, h3]

/-- Only well-formed packs enter. -/
theorem valid_run : ∀ (es : List Ev) {s t : State}, run s es = some t →
    (∀ q, Ev.ask q ∈ es → q.valid = true) ∧ ∀ d q, Ev.response d q ∈ es → q.bp.valid = true
  | [], _, _, _ => by simp
  | e :: es, s, t, h => by
    obtain ⟨u, h1, h2⟩ := run_cons h
    obtain ⟨ih1, ih2⟩ := valid_run es h2
    refine ⟨?_, ?_⟩
    · intro q hq
      rcases List.mem_cons.mp hq with rfl | hq
      · simp only [step] at h1
        by_contra hc
        rw [if_neg hc] at h1
        cases h1
      · exact ih1 q hq
    · intro d q hq
      rcases List.mem_cons.mp hq with rfl | hq
      · simp only [step] at h1
        by_contra hc
        rw [if_neg (fun h => hc h.2)] at h1
        cases h1
      · exact ih2 d q hq

end Dtn.Routing.External
