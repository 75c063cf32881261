import Verif.Lemmas.ClasWork
/-! When the command loop of a convergence layer ends. -/

namespace Dtn.Clas
open Spec.ClasSpec

variable {A : Type} [DecidableEq A]

set_option linter.unusedSectionVars false

/-- The loop can handle this transfer. -/
def Fine (k : Kind) (net : Sock A) (dest : String) (data : Bytes) : Prop :=
  (k = .mtcp ∨ k = .udp) → data ≠ [] → net.parse dest ≠ none

/-- The loop runs and nothing in the channel ends it. -/
structure Live (k : Kind) (net : Sock A) (s : State A) : Prop where
  alive : s.alive = true
  queue : none ∉ s.queue
  fine : ∀ (i : Nat) (r : Req A), s.reqs[i]? = some r → Fine k net r.dest r.data

theorem live_reqs {s t : State A} {i : Nat} {pc : Pc A} (he : t.reqs = (s.goto i pc).reqs) (P : Req A → Prop)
    (hP : ∀ r pc, P r → P { r with pc := pc }) (h : ∀ (j : Nat) (r : Req A), s.reqs[j]? = some r → P r) (j : Nat) (r : Req A)
    (hj : t.reqs[j]? = some r) : P r := by
  rw [he, goto_get] at hj
  by_cases hi : i = j
  · rw [if_pos hi] at hj
    cases hq : s.reqs[j]? with
    | none => rw [hq] at hj; cases hj
    | some q =>
      rw [hq] at hj
      cases hj
      exact hP q pc (h j q hq)
  · rw [if_neg hi] at hj
    exact h j r hj

theorem Live.move {k net} {s t : State A} {i : Nat} {pc : Pc A} (h : Live k net s) (he : t.reqs = (s.goto i pc).reqs)
    (hq : t.queue = s.queue) (ha : t.alive = s.alive) : Live k net t where
  alive := by rw [ha]; exact h.alive
  queue := by rw [hq]; exact h.queue
  fine := live_reqs he (fun r => Fine k net r.dest r.data) (fun _ _ h => h) h.fine

theorem live_step {k net} {s t : State A} {e} (hi : Inv k net s) (h : Live k net s) (hs : step k net s e = some t)
    (h1 : e ≠ .shutdown) (h2 : ∀ dest data, e = .request dest data → Fine k net dest data) : Live k net t := by
  cases e with
  | shutdown => exact absurd rfl h1
  | request dest data =>
    simp only [step] at hs
    rw [h.alive] at hs
    simp only [Bool.not_true, Bool.false_eq_true, if_false] at hs
    split at hs
    · cases hs
      refine ⟨rfl, ?_, ?_⟩
      · dsimp only
        rw [List.mem_append]
        rintro (hm | hm)
        · exact h.queue hm
        · simp at hm
      · intro j r hj
        by_cases hlt : j < s.reqs.length
        · rw [List.getElem?_append_left hlt] at hj
          exact h.fine j r hj
        · rw [List.getElem?_append_right (by omega)] at hj
          have := List.mem_of_getElem? hj
          rw [List.mem_singleton] at this
          subst this
          exact h2 dest data rfl
    · cases hs
  | go i ch =>
    simp only [step] at hs
    split at hs
    · cases hs
    · rename_i r hr
      have hw := go_went hs
      obtain ⟨pc, he, _⟩ := hw.reqs
      exact h.move he hw.queue hw.alive
  | take =>
    simp only [step] at hs
    unfold State.take at hs
    split at hs
    · cases hs
    · split at hs
      · cases hs
      · rename_i hq
        exact absurd (by rw [hq]; simp) h.queue
      · rename_i i q hq
        obtain ⟨r, hr, hp⟩ := hi.queued i (by rw [hq]; simp)
        rw [hr] at hs
        cases hs
        have hl : Live k net { s with queue := q } := ⟨h.alive, fun hm => h.queue (by rw [hq]; exact List.mem_cons_of_mem _ hm), h.fine⟩
        have hf := h.fine i r hr
        unfold State.handle State.finish
        split
        · exact hl.move rfl rfl rfl
        · exact hl.move rfl rfl rfl
        · exact hl.move rfl rfl rfl
        · exact hl.move rfl rfl rfl
        · exact hl.move rfl rfl rfl
        · split
          · exact hl.move rfl rfl rfl
          · rename_i he
            split
            · rename_i hn
              exact absurd hn (hf (.inl rfl) he)
            · exact hl.move rfl rfl rfl
        · split
          · exact hl.move rfl rfl rfl
          · rename_i he
            split
            · rename_i hn
              exact absurd hn (hf (.inr rfl) he)
            · exact hl.move rfl rfl rfl

theorem live_run {k net} {s t : State A} {evs} (hi : Inv k net s) (h : Live k net s) (hr : run k net s evs = some t)
    (h1 : .shutdown ∉ evs) (h2 : ∀ dest data, .request dest data ∈ evs → Fine k net dest data) : Live k net t := by
  induction evs generalizing s with
  | nil => cases hr; exact h
  | cons e evs ih =>
    unfold run at hr
    cases hs : step k net s e with
    | none => rw [hs] at hr; cases hr
    | some u =>
      rw [hs] at hr
      refine ih (inv_step hi hs) (live_step hi h hs ?_ ?_) hr (fun hm => h1 (List.mem_cons_of_mem _ hm))
        (fun dest data hm => h2 dest data (List.mem_cons_of_mem _ hm))
      · rintro rfl
        exact h1 (List.mem_cons_self ..)
      · rintro dest data rfl
        exact h2 dest data (List.mem_cons_self ..)

/-- A loop that has ended does not start again. -/
theorem dead_step {k net} {s t : State A} {e} (h : s.alive = false) (hs : step k net s e = some t) : t.alive = false := by
  cases e with
  | shutdown => simp only [step, h] at hs; cases hs
  | request dest data => simp only [step, h] at hs; cases hs; rfl
  | take => simp only [step, State.take, h] at hs; cases hs
  | go i ch =>
    simp only [step] at hs
    split at hs
    · cases hs
    · rw [(go_went hs).alive]; exact h

/-- After the loop has ended new transfers are lost. -/
structure Lost (n : Nat) (s : State A) : Prop where
  alive : s.alive = false
  lost : ∀ (i : Nat) (r : Req A), n ≤ i → s.reqs[i]? = some r → r.pc = .done .lost

theorem lost_step {k net} {n : Nat} {s t : State A} {e} (hi : Inv k net s) (h : Lost n s) (hn : n ≤ s.reqs.length)
    (hs : step k net s e = some t) : Lost n t ∧ n ≤ t.reqs.length := by
  have ha := dead_step h.alive hs
  cases e with
  | shutdown => simp only [step, h.alive] at hs; cases hs
  | take => simp only [step, State.take, h.alive] at hs; cases hs
  | request dest data =>
    simp only [step, h.alive] at hs
    cases hs
    refine ⟨⟨ha, ?_⟩, by simp; omega⟩
    intro i r hle hr
    by_cases hlt : i < s.reqs.length
    · rw [List.getElem?_append_left hlt] at hr
      exact h.lost i r hle hr
    · rw [List.getElem?_append_right (by omega)] at hr
      have := List.mem_of_getElem? hr
      rw [List.mem_singleton] at this
      subst this
      rfl
  | go i ch =>
    have hs' := hs
    simp only [step] at hs
    split at hs
    · cases hs
    · rename_i r hr
      obtain ⟨pc, he, _, _⟩ := (go_went hs).reqs
      have hlen : t.reqs.length = s.reqs.length := by rw [he]; unfold State.goto; simp
      refine ⟨⟨ha, ?_⟩, by rw [hlen]; exact hn⟩
      intro j q hle hj
      have hlt : j < s.reqs.length := by rw [← hlen]; exact (List.getElem?_eq_some_iff.mp hj).1
      obtain ⟨p, hp1, hp2⟩ := step_later hi hs' (List.getElem?_eq_getElem hlt)
      rw [hj] at hp1
      cases hp1
      exact hp2.final _ (h.lost j _ hle (List.getElem?_eq_getElem hlt))

theorem lost_run {k net} {n : Nat} {s t : State A} {evs} (hi : Inv k net s) (h : Lost n s) (hn : n ≤ s.reqs.length)
    (hr : run k net s evs = some t) : Lost n t := by
  induction evs generalizing s with
  | nil => cases hr; exact h
  | cons e evs ih =>
    unfold run at hr
    cases hs : step k net s e with
    | none => rw [hs] at hr; cases hr
    | some u =>
      rw [hs] at hr
      obtain ⟨h1, h2⟩ := lost_step hi h hn hs
      exact ih (inv_step hi hs) h1 h2 hr

end Dtn.Clas

namespace Dtn.Clas
open Spec.ClasSpec

theorem queue_go {A : Type} [DecidableEq A] {net : Sock A} {s t : State A} {i : Nat} {r : Req A} {ch : Choice} (h : s.go net i r ch = some t) :
    t.queue = s.queue := by
  unfold State.go at h
  repeat' split at h
  all_goals first
    | (cases h; done)
    | (cases h; simp only [State.finish, State.goto, State.written]; try split <;> rfl)

theorem queue_step {A : Type} [DecidableEq A] {k : Kind} {net : Sock A} {s t : State A} {e : Ev} (h : s.queue.length ≤ k.capacity) (hs : step k net s e = some t) :
    t.queue.length ≤ k.capacity := by
  cases e with
  | request dest data =>
    simp only [step] at hs
    split at hs
    · cases hs; exact h
    · split at hs
      · cases hs; simp; omega
      · cases hs
  | shutdown =>
    simp only [step] at hs
    split at hs
    · rename_i hc
      simp only [Bool.and_eq_true, decide_eq_true_eq] at hc
      cases hs; simp; omega
    · cases hs
  | take =>
    simp only [step, State.take] at hs
    split at hs
    · cases hs
    split at hs
    · cases hs
    · cases hs; simp [State.die]
    · rename_i i q hq
      split at hs
      · cases hs
      · cases hs
        have hl : q.length ≤ k.capacity := by rw [hq] at h; simp at h; omega
        unfold State.handle
        repeat' split
        all_goals first
          | exact hl
          | simp [State.die]
  | go i ch =>
    simp only [step] at hs
    split at hs
    · cases hs
    · rw [queue_go hs]; exact h

theorem queue_after {A : Type} [DecidableEq A] {k : Kind} {net : Sock A} {evs : List Ev} {s : State A} (h : After k net evs s) : s.queue.length ≤ k.capacity := by
  have key : ∀ (evs : List Ev) (s t : State A), s.queue.length ≤ k.capacity → run k net s evs = some t → t.queue.length ≤ k.capacity := by
    intro evs
    induction evs with
    | nil => intro s t h hr; cases hr; exact h
    | cons e evs ih =>
      intro s t h hr
      unfold run at hr
      cases hs : step k net s e with
      | none => rw [hs] at hr; cases hr
      | some u => rw [hs] at hr; exact ih u t (queue_step h hs) hr
  exact key evs {} s (by simp) h

end Dtn.Clas
