import Verif.Lemmas.ClasStep
/-! Transfers of the convergence layers are answered once, and the work ends. -/

namespace Dtn.Clas
open Spec.ClasSpec

variable {A : Type} [DecidableEq A]

set_option linter.unusedSectionVars false

/-- How many steps a transfer takes at most. -/
def weight (r : Req A) : Nat :=
  match r.pc with
  | .queued => 10 + (Mtcp.sendBuffer [r.data]).length
  | .check _ => 6 + (Mtcp.sendBuffer [r.data]).length
  | .connect _ => 5 + (Mtcp.sendBuffer [r.data]).length
  | .insert _ _ => 4 + (Mtcp.sendBuffer [r.data]).length
  | .get _ => 3 + (Mtcp.sendBuffer [r.data]).length
  | .write _ _ rest => 2 + rest.length
  | .remove _ => 1
  | .udpBind _ => 3
  | .udpConnect _ => 2
  | .udpSend _ => 1
  | .http => 2
  | .post _ => 1
  | .submit => 1
  | .done _ => 0

/-- How many steps are left at most. -/
def work (s : State A) : Nat := (s.reqs.map weight).sum + s.queue.length

theorem sum_modify {l : List (Req A)} {i : Nat} {r : Req A} (f : Req A → Req A) (h : l[i]? = some r) :
    ((l.modify i f).map weight).sum + weight r = (l.map weight).sum + weight (f r) := by
  induction l generalizing i with
  | nil => cases h
  | cons x l ih =>
    cases i with
    | zero =>
      cases h
      simp only [List.modify_zero_cons, List.map_cons, List.sum_cons]
      omega
    | succ i =>
      have := ih (i := i) h
      simp only [List.modify_succ_cons, List.map_cons, List.sum_cons]
      omega

theorem weight_drop (r : Req A) : weight r.drop ≤ weight r := by
  unfold Req.drop
  split
  · simp [weight]
  · exact Nat.le_refl _

theorem work_die (s : State A) : work s.die ≤ (s.reqs.map weight).sum := by
  unfold work State.die
  simp only [List.length_nil, Nat.add_zero]
  generalize s.reqs = l
  induction l with
  | nil => exact Nat.le_refl _
  | cons x l ih =>
    have := weight_drop x
    simp only [List.map_cons, List.sum_cons]
    omega

/-- What a step of the task of transfer `i` changes. -/
structure Went (s t : State A) (i : Nat) (r : Req A) : Prop where
  reqs : ∃ pc, t.reqs = (s.goto i pc).reqs ∧ weight { r with pc := pc } < weight r ∧ pc ≠ .queued
  queue : t.queue = s.queue
  alive : t.alive = s.alive

theorem goto_went {s : State A} {i : Nat} {r : Req A} {pc} (h : weight { r with pc := pc } < weight r) (hq : pc ≠ .queued) :
    Went s (s.goto i pc) i r := ⟨⟨pc, rfl, h, hq⟩, rfl, rfl⟩

theorem go_went {net} {s t : State A} {i r ch} (hs : s.go net i r ch = some t) : Went s t i r := by
  obtain ⟨dest, data, pc⟩ := r
  unfold State.go State.finish at hs
  split at hs <;> rename_i hp <;> (try (cases hs; done)) <;> subst hp
  · cases hs
    split
    · exact goto_went (by simp only [weight]; omega) (by simp)
    · exact goto_went (by simp only [weight]; omega) (by simp)
  · cases hs; exact ⟨⟨_, rfl, by simp only [weight]; omega, by simp⟩, rfl, rfl⟩
  · cases hs; exact goto_went (by simp only [weight]; omega) (by simp)
  · cases hs; exact ⟨⟨_, rfl, by simp only [weight]; omega, by simp⟩, rfl, rfl⟩
  · split at hs
    · cases hs; exact goto_went (by simp only [weight]; omega) (by simp)
    · cases hs; exact goto_went (by simp only [weight]; omega) (by simp)
  · cases hs; exact goto_went (by simp only [weight]; omega) (by simp)
  · rename_i c rest n _
    split at hs
    · rename_i hn
      cases hs
      unfold State.written State.finish
      dsimp only
      split
      · exact ⟨⟨_, rfl, by simp only [weight]; omega, by simp⟩, rfl, rfl⟩
      · exact ⟨⟨_, rfl, by simp only [weight, List.length_drop]; omega, by simp⟩, rfl, rfl⟩
    · cases hs
  · cases hs; exact goto_went (by simp only [weight]; omega) (by simp)
  · cases hs; exact ⟨⟨_, rfl, by simp only [weight]; omega, by simp⟩, rfl, rfl⟩
  · cases hs; exact goto_went (by simp only [weight]; omega) (by simp)
  · cases hs; exact goto_went (by simp only [weight]; omega) (by simp)
  · split at hs
    · cases hs; exact goto_went (by simp only [weight]; omega) (by simp)
    · cases hs
  · cases hs; exact goto_went (by simp only [weight]; omega) (by simp)
  · split at hs
    · cases hs; exact goto_went (by simp only [weight]; omega) (by simp)
    · cases hs; exact ⟨⟨_, rfl, by simp only [weight]; omega, by simp⟩, rfl, rfl⟩
  · cases hs; exact goto_went (by simp only [weight]; omega) (by simp)
  · split at hs
    · cases hs; exact goto_went (by simp only [weight]; omega) (by simp)
    · split at hs
      · cases hs; exact goto_went (by simp only [weight]; omega) (by simp)
      · split at hs
        · cases hs; exact goto_went (by simp only [weight]; omega) (by simp)
        · cases hs; exact goto_went (by simp only [weight]; omega) (by simp)
  · cases hs; exact ⟨⟨_, rfl, by simp only [weight]; omega, by simp⟩, rfl, rfl⟩
  · cases hs; exact goto_went (by simp only [weight]; omega) (by simp)
  · cases hs; exact ⟨⟨_, rfl, by simp only [weight]; omega, by simp⟩, rfl, rfl⟩
  · cases hs; exact goto_went (by simp only [weight]; omega) (by simp)

/-- What the loop does with transfer `i`. -/
theorem handle_went {k net} (s : State A) {i r} (hp : r.pc = .queued) :
    Went s (State.handle k net s i r) i r ∨ State.handle k net s i r = s.die := by
  obtain ⟨dest, data, pc⟩ := r
  subst hp
  unfold State.handle State.finish
  split
  · exact .inl (goto_went (by simp only [weight]; omega) (by simp))
  · exact .inl (goto_went (by simp only [weight]; omega) (by simp))
  · exact .inl (goto_went (by simp only [weight]; omega) (by simp))
  · exact .inl (goto_went (by simp only [weight]; omega) (by simp))
  · exact .inl (goto_went (by simp only [weight]; omega) (by simp))
  · split
    · exact .inl (goto_went (by simp only [weight]; omega) (by simp))
    · split
      · exact .inr rfl
      · exact .inl (goto_went (by simp only [weight]; omega) (by simp))
  · split
    · exact .inl (goto_went (by simp only [weight]; omega) (by simp))
    · split
      · exact .inr rfl
      · exact .inl (goto_went (by simp only [weight]; omega) (by simp))

theorem Went.work {s t : State A} {i r} (h : Went s t i r) (hr : s.reqs[i]? = some r) : work t < work s := by
  obtain ⟨pc, h1, h2, _⟩ := h.reqs
  have := sum_modify (fun r => { r with pc := pc }) hr
  unfold Clas.work
  rw [h1, h.queue]
  unfold State.goto
  dsimp only at this ⊢
  omega

theorem work_step {k net} {s t : State A} {e} (h : Inv k net s) (he : Internal e) (hs : step k net s e = some t) : work t < work s := by
  cases e with
  | request => cases he
  | shutdown => cases he
  | go i ch =>
    simp only [step] at hs
    split at hs
    · cases hs
    · rename_i r hr
      exact (go_went hs).work hr
  | take =>
    simp only [step] at hs
    unfold State.take at hs
    split at hs
    · cases hs
    · split at hs
      · cases hs
      · rename_i hq
        cases hs
        have := work_die s
        unfold Clas.work at *
        rw [hq]
        simp only [List.length_cons]
        omega
      · rename_i i q hq
        obtain ⟨r, hr, hp⟩ := h.queued i (by rw [hq]; simp)
        rw [hr] at hs
        cases hs
        have hl : Clas.work { s with queue := q } + 1 = Clas.work s := by
          unfold Clas.work
          rw [hq]
          simp only [List.length_cons]
          omega
        rcases handle_went (k := k) (net := net) { s with queue := q } hp with hw | hd
        · have := hw.work (show ({ s with queue := q } : State A).reqs[i]? = some r from hr)
          omega
        · rw [hd]
          have := work_die { s with queue := q }
          unfold Clas.work at *
          omega

theorem work_run {k net} {s t : State A} {evs} (h : Inv k net s) (he : ∀ e ∈ evs, Internal e) (hr : run k net s evs = some t) :
    evs.length + work t ≤ work s := by
  induction evs generalizing s with
  | nil => cases hr; simp
  | cons e evs ih =>
    unfold run at hr
    cases hs : step k net s e with
    | none => rw [hs] at hr; cases hr
    | some u =>
      rw [hs] at hr
      have := ih (inv_step h hs) (fun e h => he e (List.mem_cons_of_mem _ h)) hr
      have := work_step h (he e (List.mem_cons_self ..)) hs
      simp only [List.length_cons]
      omega

/-- What a step does to a transfer. -/
structure Later (r q : Req A) : Prop where
  dest : q.dest = r.dest
  data : q.data = r.data
  final : ∀ ans, r.pc = .done ans → q.pc = .done ans

theorem Later.refl (r : Req A) : Later r r := ⟨rfl, rfl, fun _ h => h⟩

theorem Later.trans {r q p : Req A} (h : Later r q) (g : Later q p) : Later r p :=
  ⟨g.dest.trans h.dest, g.data.trans h.data, fun ans e => g.final ans (h.final ans e)⟩

theorem drop_later (r : Req A) : Later r r.drop := by
  unfold Req.drop
  split
  · rename_i hp
    exact ⟨rfl, rfl, fun ans h => by rw [hp] at h; cases h⟩
  · exact Later.refl r

theorem goto_later {s : State A} {i : Nat} {r : Req A} (hr : s.reqs[i]? = some r) (ho : ∀ ans, r.pc ≠ .done ans) (pc) {j : Nat} {q : Req A} (hj : s.reqs[j]? = some q) :
    ∃ p, (s.goto i pc).reqs[j]? = some p ∧ Later q p := by
  rw [goto_get]
  by_cases hi : i = j
  · subst hi
    rw [if_pos rfl, hj]
    rw [hj] at hr
    cases hr
    exact ⟨_, rfl, rfl, rfl, fun ans h => absurd h (ho ans)⟩
  · rw [if_neg hi]
    exact ⟨q, hj, Later.refl q⟩

theorem step_later {k net} {s t : State A} {e} (h : Inv k net s) (hs : step k net s e = some t) {j : Nat} {q : Req A} (hj : s.reqs[j]? = some q) :
    ∃ p, t.reqs[j]? = some p ∧ Later q p := by
  have hd : ∃ p, s.die.reqs[j]? = some p ∧ Later q p := ⟨q.drop, by rw [die_get, hj]; rfl, drop_later q⟩
  have hn : ∀ x, (s.reqs ++ [x])[j]? = some q := by
    intro x
    rw [List.getElem?_append_left (List.getElem?_eq_some_iff.mp hj).1]
    exact hj
  cases e with
  | request dest data =>
    simp only [step] at hs
    split at hs
    · cases hs
      exact ⟨q, hn _, Later.refl q⟩
    · split at hs
      · cases hs
        exact ⟨q, hn _, Later.refl q⟩
      · cases hs
  | shutdown =>
    simp only [step] at hs
    split at hs
    · cases hs
      exact ⟨q, hj, Later.refl q⟩
    · cases hs
  | go i ch =>
    simp only [step] at hs
    split at hs
    · cases hs
    · rename_i r hr
      obtain ⟨pc, h1, h2, _⟩ := (go_went hs).reqs
      rw [h1]
      refine goto_later hr ?_ pc hj
      intro ans he
      unfold weight at h2
      rw [he] at h2
      simp at h2
  | take =>
    simp only [step] at hs
    unfold State.take at hs
    split at hs
    · cases hs
    · split at hs
      · cases hs
      · cases hs
        exact hd
      · rename_i i q' hq
        obtain ⟨r, hr, hp⟩ := h.queued i (by rw [hq]; simp)
        rw [hr] at hs
        cases hs
        rcases handle_went (k := k) (net := net) { s with queue := q' } (i := i) hp with hw | hd'
        · obtain ⟨pc, h1, _⟩ := hw.reqs
          rw [h1]
          exact goto_later (s := { s with queue := q' }) hr (by rw [hp]; simp) pc hj
        · rw [hd']
          exact hd

theorem run_later {k net} {s t : State A} {evs} (h : Inv k net s) (hr : run k net s evs = some t) {j : Nat} {q : Req A} (hj : s.reqs[j]? = some q) :
    ∃ p, t.reqs[j]? = some p ∧ Later q p := by
  induction evs generalizing s q with
  | nil => cases hr; exact ⟨q, hj, Later.refl q⟩
  | cons e evs ih =>
    unfold run at hr
    cases hs : step k net s e with
    | none => rw [hs] at hr; cases hr
    | some u =>
      rw [hs] at hr
      obtain ⟨p, h1, h2⟩ := step_later h hs hj
      obtain ⟨p', h3, h4⟩ := ih (inv_step h hs) hr h1
      exact ⟨p', h3, h2.trans h4⟩

/-- A transfer that is not answered goes on. -/
theorem progress {k net} {s : State A} (h : Inv k net s) {i : Nat} {r : Req A} (hr : s.reqs[i]? = some r) (ho : ∀ ans, r.pc ≠ .done ans) :
    ∃ e t, Internal e ∧ step k net s e = some t := by
  have hg : ∀ ch t, s.go net i r ch = some t → ∃ e t, Internal e ∧ step k net s e = some t := by
    intro ch t ht
    refine ⟨.go i ch, t, trivial, ?_⟩
    simp only [step]
    rw [hr]
    exact ht
  have hok := h.ok i r hr
  unfold Ok at hok
  obtain ⟨dest, data, pc⟩ := r
  cases pc with
  | queued =>
    have hm : some i ∈ s.queue := hok
    have ha : s.alive = true := by
      cases he : s.alive with
      | true => rfl
      | false => rw [h.dead he] at hm; cases hm
    cases hq : s.queue with
    | nil => rw [hq] at hm; cases hm
    | cons x q =>
      cases x with
      | none => exact ⟨.take, s.die, trivial, by simp only [step, State.take, ha, hq]; rfl⟩
      | some j =>
        obtain ⟨r, h1, _⟩ := h.queued j (by rw [hq]; simp)
        exact ⟨.take, _, trivial, by simp only [step, State.take, ha, hq, h1]; rfl⟩
  | check a => exact hg .ok _ rfl
  | connect a => exact hg .ok _ rfl
  | insert a c => exact hg .ok _ rfl
  | get a => exact hg .err _ rfl
  | write a c rest => exact hg .err _ rfl
  | remove a => exact hg .ok _ rfl
  | udpBind a => exact hg .ok _ rfl
  | udpConnect a => exact hg .err _ rfl
  | udpSend a => exact hg .err _ rfl
  | http =>
    by_cases he : data = []
    · exact hg .ok _ (by simp only [State.go]; rw [if_pos he])
    · cases hp : net.parse dest with
      | none => exact hg .ok (s.finish i .lost) (by simp only [State.go]; rw [if_neg he, hp])
      | some a =>
        cases hv : net.isV4 a with
        | true => exact hg .ok (s.goto i (.post a)) (by simp only [State.go]; rw [if_neg he, hp]; simp [hv])
        | false => exact hg .ok (s.finish i .lost) (by simp only [State.go]; rw [if_neg he, hp]; simp [hv])
  | post a => exact hg .err _ rfl
  | submit => exact hg (.result none) _ rfl
  | done ans => exact absurd rfl (ho ans)

end Dtn.Clas
