import Verif.Lemmas.TcpPoolRuns
/-! Single steps of the layer `tcp`: what transfers, the table and the channels do. -/

namespace Dtn.TcpPool
open Dtn.Tcpcl
open Dtn.Clas (Answer)
open Dtn.Spec.TcpPoolSpec

variable {A : Type} [DecidableEq A]

set_option linter.unusedSectionVars false

/-- How the task of a transfer can go on. -/
inductive Moves (cfg : Cfg A) (s : State A) (r : Req A) : Pc A → Prop
  | same : Moves cfg s r r.pc
  | done (ans : Answer) : Moves cfg s r (.done ans)
  | start : r.pc = .queued → Moves cfg s r .start
  | use {a : A} {c : Nat} : r.pc = .start → cfg.net.parse r.dest = some a → s.usable a = some c → Moves cfg s r (.send a c)
  | connect {a : A} : r.pc = .start → cfg.net.parse r.dest = some a → s.usable a = none → Moves cfg s r (.connect a s.chans.length)
  | send {a : A} {c : Nat} : r.pc = .connect a c → Moves cfg s r (.send a c)
  | enter {a : A} {c : Nat} : r.pc = .send a c → Moves cfg s r (.waiting c)
  | fly {c : Nat} : r.pc = .waiting c → Moves cfg s r (.flying c)

/-- Transfers after a step. -/
def Moved (cfg : Cfg A) (s t : State A) : Prop :=
  ∀ (i : Nat) (r' : Req A), t.reqs[i]? = some r' →
    ∃ r, s.reqs[i]? = some r ∧ r'.dest = r.dest ∧ r'.data = r.data ∧ Moves cfg s r r'.pc

theorem moved_eq {cfg : Cfg A} {s t : State A} (h : t.reqs = s.reqs) : Moved cfg s t :=
  fun i r' hr => ⟨r', by rw [← h]; exact hr, rfl, rfl, .same⟩

theorem moved_goto {cfg : Cfg A} {s t : State A} {i : Nat} {r : Req A} {pc : Pc A} (h : t.reqs = (s.goto i pc).reqs) (hr : s.reqs[i]? = some r)
    (hm : Moves cfg s r pc) : Moved cfg s t := by
  intro j r' hr'
  rw [h, goto_get] at hr'
  by_cases hj : i = j
  · subst hj
    rw [if_pos rfl, hr] at hr'
    cases hr'
    exact ⟨r, hr, rfl, rfl, hm⟩
  · rw [if_neg hj] at hr'
    exact ⟨r', hr', rfl, rfl, .same⟩

/-- Some transfers get an answer. -/
def Answers (s t : State A) : Prop :=
  ∀ (i : Nat) (r' : Req A), t.reqs[i]? = some r' → ∃ r, s.reqs[i]? = some r ∧ r'.dest = r.dest ∧ r'.data = r.data ∧
    (r'.pc = r.pc ∨ ∃ ans, r'.pc = .done ans)

theorem Answers.trans {s t u : State A} (h1 : Answers s t) (h2 : Answers t u) : Answers s u := by
  intro i r hr
  obtain ⟨r1, a1, a2, a3, a4⟩ := h2 i r hr
  obtain ⟨r2, b1, b2, b3, b4⟩ := h1 i r1 a1
  refine ⟨r2, b1, a2.trans b2, a3.trans b3, ?_⟩
  rcases a4 with e | e
  · rw [e]; exact b4
  · exact .inr e

theorem answers_eq {s t : State A} (h : t.reqs = s.reqs) : Answers s t :=
  fun i r hr => ⟨r, by rw [← h]; exact hr, rfl, rfl, .inl rfl⟩

theorem answers_goto {s : State A} (i : Nat) (ans : Answer) : Answers s (s.goto i (.done ans)) := by
  intro j r hr
  rw [goto_get] at hr
  by_cases hj : i = j
  · subst hj
    rw [if_pos rfl] at hr
    obtain ⟨q, h1, rfl⟩ := Option.map_eq_some_iff.mp hr
    exact ⟨q, h1, rfl, rfl, .inr ⟨ans, rfl⟩⟩
  · rw [if_neg hj] at hr
    exact ⟨r, hr, rfl, rfl, .inl rfl⟩

theorem answers_close (s : State A) (c : Nat) : Answers s (s.close c) := by
  intro i r hr
  replace hr : (s.reqs.map (Req.lose c))[i]? = some r := hr
  rw [List.getElem?_map] at hr
  obtain ⟨q, h1, rfl⟩ := Option.map_eq_some_iff.mp hr
  refine ⟨q, h1, ?_⟩
  unfold Req.lose
  split
  · exact ⟨rfl, rfl, .inr ⟨_, rfl⟩⟩
  · exact ⟨rfl, rfl, .inl rfl⟩

theorem answers_settle (s : State A) (c : Nat) (k : Chan A) (old new : Sess) : Answers s (s.settle c k old new) := by
  unfold State.settle
  have : ∀ (l : List (Nat × TransferResult)) (s u : State A), Answers u s → Answers u (l.foldl (fun s x =>
    match k.entered[x.1]? with
    | some i => s.goto i (.done (answerOf x.2))
    | none => s) s) := by
    intro l
    induction l with
    | nil => intro s u h; exact h
    | cons x xs ih =>
      intro s u h
      rw [List.foldl_cons]
      apply ih
      split
      · exact h.trans (answers_goto _ _)
      · exact h
  simp only
  split
  · exact (this _ s s (answers_eq rfl)).trans (answers_close _ _)
  · exact this _ s s (answers_eq rfl)

theorem Answers.moved {cfg : Cfg A} {s t u : State A} (h : Moved cfg s t) (h2 : Answers t u) : Moved cfg s u := by
  intro i r hr
  obtain ⟨r1, a1, a2, a3, a4⟩ := h2 i r hr
  obtain ⟨r2, b1, b2, b3, b4⟩ := h i r1 a1
  refine ⟨r2, b1, a2.trans b2, a3.trans b3, ?_⟩
  rcases a4 with e | ⟨ans, e⟩
  · rw [e]; exact b4
  · rw [e]; exact .done ans

theorem Answers.moved' {cfg : Cfg A} {s t : State A} (h : Answers s t) : Moved cfg s t := Answers.moved (moved_eq rfl) h

/-- The table after a step. -/
def Tabled (s t : State A) : Prop :=
  t.table = s.table ∨ ∃ a, t.table = AList.insert s.table a s.chans.length ∧ s.usable a = none

/-- The logs of the channels after a step. -/
def Entered (s t : State A) : Prop :=
  ∀ c j i, Nth t c j i → Nth s c j i ∨ ∃ r a, s.reqs[i]? = some r ∧ r.pc = .send a c

/-- The loop after a step. -/
def Lives (s t : State A) : Prop := (none ∈ t.queue ∨ t.alive = false) → (none ∈ s.queue ∨ s.alive = false)

structure Steps (cfg : Cfg A) (s t : State A) : Prop where
  moved : Moved cfg s t
  table : Tabled s t
  entered : Entered s t
  lives : Lives s t

theorem entered_modify {s t : State A} {c : Nat} {f : Chan A → Chan A} (h : t.chans = s.chans.modify c f)
    (hf : ∀ k, (f k).entered = k.entered) : Entered s t :=
  fun _ _ _ hn => .inl (nth_modify h (fun k _ => hf k) hn)

theorem entered_eq {s t : State A} (h : t.chans = s.chans) : Entered s t := by
  rintro c j i ⟨k, h1, h2⟩
  exact .inl ⟨k, by rw [← h]; exact h1, h2⟩

theorem entered_open {s t : State A} {k0 : Chan A} (h : t.chans = s.chans ++ [k0]) (hk : k0.entered = []) : Entered s t := by
  rintro c j i ⟨k, h1, h2⟩
  rw [h] at h1
  rcases append_get h1 with ⟨h1, _⟩ | ⟨_, rfl⟩
  · exact .inl ⟨k, h1, h2⟩
  · rw [hk] at h2; simp at h2

theorem entered_settle {s t : State A} (h : Entered s t) (c : Nat) (k : Chan A) (old new : Sess) : Entered s (t.settle c k old new) := by
  rintro d j i ⟨k', h1, h2⟩
  rw [settle_chans] at h1
  split at h1
  · rcases modify_some h1 with ⟨rfl, k2, h3, rfl⟩ | ⟨_, h3⟩
    · exact h _ j i ⟨k2, h3, h2⟩
    · exact h _ j i ⟨k', h3, h2⟩
  · exact h _ j i ⟨k', h1, h2⟩

theorem steps_close {cfg : Cfg A} (s : State A) (c : Nat) : Steps cfg s (s.close c) :=
  ⟨(answers_close s c).moved', .inl rfl, entered_modify (f := fun k => { k with stage := .ended }) rfl (fun _ => rfl), id⟩

theorem steps_session {cfg : Cfg A} {s t : State A} {c : Nat} {k : Chan A} {has : Bytes → Bool} {ev : Sess.Ev}
    (hs : s.session cfg c k has ev = some t) : Steps cfg s t := by
  unfold State.session at hs
  split at hs
  · next x1 x2 old e1 e2 =>
    cases hs
    have h := settle_table { s with chans := s.chans.modify c fun k => { k with sess := some (old.step { cfg.env with hasItem := has } ev), history := k.history ++ [(has, ev)] } }
      c k old (old.step { cfg.env with hasItem := has } ev)
    refine ⟨Answers.moved' ((answers_eq rfl).trans (answers_settle _ _ _ _ _)), .inl h.1,
      entered_settle (entered_modify (c := c) (f := fun k =>
        { k with sess := some (old.step { cfg.env with hasItem := has } ev), history := k.history ++ [(has, ev)] }) rfl (fun _ => rfl)) _ _ _ _, ?_⟩
    unfold Lives
    rw [h.2.1, h.2.2]
    exact id
  · cases hs

theorem steps_next {cfg : Cfg A} {s t : State A} (h : Core cfg s) {c : Nat} (hs : s.next cfg c = some t) : Steps cfg s t := by
  obtain ⟨k, old, i, r, hk, hst, hm, hi, htd, he, hr, hw, hmid, rfl⟩ := next_facts h hs
  have h := settle_table { s.goto i (.flying c) with chans := (s.chans.modify c fun k => { k with taken := k.taken + 1 }).modify c fun k =>
        { k with sess := some (old.step { cfg.env with hasItem := fun _ => false } (.request r.data)), history := k.history ++ [((fun _ => false), .request r.data)] } }
          c { k with taken := k.taken + 1 } old (old.step { cfg.env with hasItem := fun _ => false } (.request r.data))
  refine ⟨Answers.moved (moved_goto (pc := .flying c) rfl hr (.fly hw)) (answers_settle _ _ _ _ _), .inl h.1, entered_settle ?_ _ _ _ _, ?_⟩
  · exact entered_modify (modify_twice _ _ _ _) (fun _ => rfl)
  · unfold Lives
    rw [h.2.1, h.2.2]
    exact id

/-- Every step but a request, an incoming connection and the order to stop. -/
theorem steps {cfg : Cfg A} {s t : State A} (h : Core cfg s) {e : Ev A} (h1 : ∀ d x, e ≠ .request d x) (h2 : ∀ a, e ≠ .accept a)
    (h3 : e ≠ .shutdown) (hs : step cfg s e = some t) : Steps cfg s t := by
  cases e with
  | request dest data => exact absurd rfl (h1 _ _)
  | shutdown => exact absurd rfl h3
  | accept a => exact absurd rfl (h2 _)
  | take =>
    simp only [step, State.take] at hs
    split at hs
    · cases hs
    · split at hs
      · cases hs
      · next q hq =>
        cases hs
        refine ⟨?_, .inl rfl, entered_eq rfl, ?_⟩
        · refine Answers.moved' ?_
          intro i r hr
          replace hr : (s.reqs.map Req.drop)[i]? = some r := hr
          rw [List.getElem?_map] at hr
          obtain ⟨q, g1, rfl⟩ := Option.map_eq_some_iff.mp hr
          refine ⟨q, g1, ?_⟩
          unfold Req.drop
          split
          · exact ⟨rfl, rfl, .inr ⟨_, rfl⟩⟩
          · exact ⟨rfl, rfl, .inl rfl⟩
        · intro _
          exact .inl (by rw [hq]; simp)
      · next i q hq =>
        cases hs
        obtain ⟨r, hr, hrq⟩ := h.queued i (by rw [hq]; simp)
        refine ⟨moved_goto (pc := .start) rfl hr (.start hrq), .inl rfl, entered_eq rfl, ?_⟩
        rintro (g | g)
        · exact .inl (by rw [hq]; exact List.mem_cons_of_mem _ g)
        · exact .inr g
  | go i ok =>
    simp only [step] at hs
    split at hs
    · cases hs
    · next r hr =>
      unfold State.go at hs
      split at hs
      · next hp =>
        split at hs
        · cases hs
          exact ⟨Answers.moved' (answers_goto _ _), .inl rfl, entered_eq rfl, id⟩
        · next a ha =>
          split at hs
          · next c hu =>
            cases hs
            exact ⟨moved_goto rfl hr (.use hp ha hu), .inl rfl, entered_eq rfl, id⟩
          · next hu =>
            cases hs
            exact ⟨moved_goto (pc := .connect a s.chans.length) rfl hr (.connect hp ha hu), .inr ⟨a, rfl, hu⟩,
              entered_open (k0 := { addr := a, active := true, stage := .connecting }) rfl rfl, id⟩
      · next a c hp =>
        split at hs
        · cases hs
          exact ⟨moved_goto (pc := .send a c) rfl hr (.send hp), .inl rfl, entered_modify rfl (fun _ => rfl), id⟩
        · cases hs
          exact ⟨Answers.moved' ((answers_goto _ _).trans (answers_close _ _)), .inl rfl,
            entered_modify (f := fun k => { k with stage := .ended }) rfl (fun _ => rfl), id⟩
      · next a c hp =>
        split at hs
        · cases hs
        · split at hs
          · cases hs
            exact ⟨Answers.moved' (answers_goto _ _), .inl rfl, entered_eq rfl, id⟩
          · split at hs
            · cases hs
              refine ⟨moved_goto (pc := .waiting c) rfl hr (.enter hp), .inl rfl, ?_, id⟩
              rintro d j l ⟨k', g1, g2⟩
              replace g1 : (s.chans.modify c fun k => { k with entered := k.entered ++ [i] })[d]? = some k' := g1
              rcases modify_some g1 with ⟨rfl, k2, g3, rfl⟩ | ⟨_, g3⟩
              · rw [List.getElem?_append] at g2
                split at g2
                · exact .inl ⟨k2, g3, g2⟩
                · rw [List.getElem?_singleton] at g2
                  split at g2
                  · cases g2
                    exact .inr ⟨r, a, hr, hp⟩
                  · cases g2
              · exact .inl ⟨k', g3, g2⟩
            · cases hs
      · cases hs
  | contact c ok =>
    simp only [step] at hs
    split at hs
    · cases hs
    · split at hs
      · cases ok
        · cases hs; exact steps_close _ _
        · cases hs; exact ⟨moved_eq rfl, .inl rfl, entered_modify rfl (fun _ => rfl), id⟩
      · cases hs
  | params c r known =>
    simp only [step] at hs
    split at hs
    · cases hs
    · split at hs
      · cases r with
        | none => cases hs; exact steps_close _ _
        | some r =>
          cases hs
          simp only [State.begun]
          split
          · exact steps_close _ _
          · split
            · exact ⟨moved_eq rfl, .inl rfl, entered_modify rfl (fun _ => rfl), id⟩
            · split
              · exact steps_close _ _
              · split
                · exact ⟨moved_eq rfl, .inl rfl, entered_modify rfl (fun _ => rfl), id⟩
                · exact ⟨moved_eq rfl, .inl rfl, entered_modify rfl (fun _ => rfl), id⟩
      · cases hs
  | next c => exact steps_next h hs
  | message c has p =>
    simp only [step] at hs
    split at hs
    · cases hs
    · exact steps_session hs
  | timeout c =>
    simp only [step] at hs
    split at hs
    · cases hs
    · exact steps_session hs
  | lost c =>
    simp only [step] at hs
    split at hs
    · cases hs
    · exact steps_session hs
  | closed c =>
    simp only [step] at hs
    split at hs
    · cases hs
    · split at hs
      · exact steps_session hs
      · cases hs

theorem step_accept {cfg : Cfg A} {s t : State A} {a : A} (hs : step cfg s (.accept a) = some t) :
    t = s.open a false .contact := by
  cases hs; rfl

theorem step_request {cfg : Cfg A} {s t : State A} {d : String} {x : Bytes} (hs : step cfg s (.request d x) = some t) :
    t.table = s.table ∧ t.chans = s.chans ∧ t.alive = s.alive ∧ (none ∈ t.queue ↔ none ∈ s.queue) ∧
      ∃ r : Req A, t.reqs = s.reqs ++ [r] ∧ (r.pc = .queued ∨ r.pc = .done .lost) ∧ r.dest = d ∧ r.data = x := by
  simp only [step] at hs
  split at hs
  · cases hs; exact ⟨rfl, rfl, rfl, Iff.rfl, _, rfl, .inr rfl, rfl, rfl⟩
  · split at hs
    · cases hs
      exact ⟨rfl, rfl, rfl, by simp, _, rfl, .inl rfl, rfl, rfl⟩
    · cases hs

theorem step_shutdown {cfg : Cfg A} {s t : State A} (hs : step cfg s .shutdown = some t) :
    t.table = s.table ∧ t.chans = s.chans ∧ t.reqs = s.reqs := by
  simp only [step] at hs
  split at hs
  · cases hs; exact ⟨rfl, rfl, rfl⟩
  · cases hs

/-- The table after any step. -/
theorem table_step {cfg : Cfg A} {s t : State A} (h : Core cfg s) {e : Ev A} (hs : step cfg s e = some t) :
    t.table = s.table ∨ ∃ a, t.table = AList.insert s.table a s.chans.length ∧ (e = .accept a ∨ s.usable a = none) := by
  by_cases h1 : ∃ d x, e = .request d x
  · obtain ⟨d, x, rfl⟩ := h1
    exact .inl (step_request hs).1
  by_cases h2 : ∃ a, e = .accept a
  · obtain ⟨a, rfl⟩ := h2
    rw [step_accept hs]
    exact .inr ⟨a, rfl, .inl rfl⟩
  by_cases h3 : e = .shutdown
  · subst h3
    exact .inl (step_shutdown hs).1
  rcases (steps h (fun d x hd => h1 ⟨d, x, hd⟩) (fun a ha => h2 ⟨a, ha⟩) h3 hs).table with g | ⟨a, g1, g2⟩
  · exact .inl g
  · exact .inr ⟨a, g1, .inr g2⟩

/-- The loop ends only when it is told to. -/
theorem lives_step {cfg : Cfg A} {s t : State A} (h : Core cfg s) {e : Ev A} (h3 : e ≠ .shutdown) (hs : step cfg s e = some t) : Lives s t := by
  by_cases h1 : ∃ d x, e = .request d x
  · obtain ⟨d, x, rfl⟩ := h1
    obtain ⟨_, _, g3, g4, _⟩ := step_request hs
    unfold Lives
    rw [g3, g4]
    exact id
  by_cases h2 : ∃ a, e = .accept a
  · obtain ⟨a, rfl⟩ := h2
    rw [step_accept hs]
    exact id
  exact (steps h (fun d x hd => h1 ⟨d, x, hd⟩) (fun a ha => h2 ⟨a, ha⟩) h3 hs).lives

/-- Where new entries of channels come from. -/
theorem entered_step {cfg : Cfg A} {s t : State A} (h : Core cfg s) {e : Ev A} (hs : step cfg s e = some t) : Entered s t := by
  by_cases h1 : ∃ d x, e = .request d x
  · obtain ⟨d, x, rfl⟩ := h1
    exact entered_eq (step_request hs).2.1
  by_cases h2 : ∃ a, e = .accept a
  · obtain ⟨a, rfl⟩ := h2
    rw [step_accept hs]
    exact entered_open (k0 := { addr := a, active := false, stage := .contact }) rfl rfl
  by_cases h3 : e = .shutdown
  · subst h3
    exact entered_eq (step_shutdown hs).2.1
  exact (steps h (fun d x hd => h1 ⟨d, x, hd⟩) (fun a ha => h2 ⟨a, ha⟩) h3 hs).entered

/-- What transfers do in any step. -/
theorem moved_step {cfg : Cfg A} {s t : State A} (h : Core cfg s) {e : Ev A} (hs : step cfg s e = some t) (i : Nat) (r' : Req A)
    (hr : t.reqs[i]? = some r') : (∃ r, s.reqs[i]? = some r ∧ r'.dest = r.dest ∧ r'.data = r.data ∧ Moves cfg s r r'.pc) ∨
      (i = s.reqs.length ∧ (r'.pc = .queued ∨ r'.pc = .done .lost) ∧ e = .request r'.dest r'.data) := by
  by_cases h1 : ∃ d x, e = .request d x
  · obtain ⟨d, x, rfl⟩ := h1
    obtain ⟨_, _, _, _, r, g1, g2, g3, g4⟩ := step_request hs
    rw [g1, List.getElem?_append] at hr
    split at hr
    · exact .inl ⟨r', hr, rfl, rfl, .same⟩
    · next hlt =>
      rw [List.getElem?_singleton] at hr
      split at hr
      · cases hr
        exact .inr ⟨by omega, g2, by rw [g3, g4]⟩
      · cases hr
  by_cases h2 : ∃ a, e = .accept a
  · obtain ⟨a, rfl⟩ := h2
    rw [step_accept hs] at hr
    exact .inl ⟨r', hr, rfl, rfl, .same⟩
  by_cases h3 : e = .shutdown
  · subst h3
    rw [(step_shutdown hs).2.2] at hr
    exact .inl ⟨r', hr, rfl, rfl, .same⟩
  exact .inl ((steps h (fun d x hd => h1 ⟨d, x, hd⟩) (fun a ha => h2 ⟨a, ha⟩) h3 hs).moved i r' hr)

/-! ### Local work -/

/-- What is left to do by the node itself. -/
def weight : Pc A → Nat
  | .queued => 6
  | .start => 5
  | .connect _ _ => 4
  | .send _ _ => 3
  | .waiting _ => 2
  | .flying _ => 1
  | .done _ => 0

def work (l : List (Req A)) : Nat := (l.map fun r => weight r.pc).sum

theorem work_goto {s : State A} {i : Nat} {r : Req A} (hr : s.reqs[i]? = some r) (pc : Pc A) :
    work (s.goto i pc).reqs + weight r.pc = work s.reqs + weight pc := by
  have : ∀ (l : List (Req A)) (i : Nat), l[i]? = some r → work (l.modify i fun r => { r with pc := pc }) + weight r.pc = work l + weight pc := by
    intro l
    induction l with
    | nil => intro i h; simp at h
    | cons x xs ih =>
      intro i h
      cases i with
      | zero =>
        simp at h
        subst h
        simp [work]
        omega
      | succ i =>
        simp at h
        have := ih i h
        simp [work] at this ⊢
        omega
  exact this _ _ hr

theorem work_answers {s t : State A} (hl : t.reqs.length = s.reqs.length) (h : Answers s t) : work t.reqs ≤ work s.reqs := by
  have : ∀ (l l' : List (Req A)), l'.length = l.length → (∀ (i : Nat) (r' : Req A), l'[i]? = some r' → ∃ r, l[i]? = some r ∧ r'.dest = r.dest ∧ r'.data = r.data ∧
      (r'.pc = r.pc ∨ ∃ ans, r'.pc = .done ans)) → work l' ≤ work l := by
    intro l
    induction l with
    | nil => intro l' hl _; simp at hl; subst hl; exact Nat.le_refl _
    | cons x xs ih =>
      intro l' hl h
      cases l' with
      | nil => simp at hl
      | cons y ys =>
        have h0 := h 0 y rfl
        obtain ⟨r, e1, _, _, e2⟩ := h0
        simp at e1
        subst e1
        have := ih ys (by simpa using hl) (fun i r' hr => h (i + 1) r' (by simpa using hr))
        have hw : weight y.pc ≤ weight x.pc := by
          rcases e2 with e2 | ⟨ans, e2⟩
          · rw [e2]; exact Nat.le_refl _
          · rw [e2]; exact Nat.zero_le _
        simp [work] at this ⊢
        omega
  exact this _ _ hl h

theorem settle_length (s : State A) (c : Nat) (k : Chan A) (old new : Sess) : (s.settle c k old new).reqs.length = s.reqs.length := by
  unfold State.settle
  simp only
  have hf : ∀ (s : State A) (x : Nat × TransferResult), (match k.entered[x.1]? with
    | some i => s.goto i (.done (answerOf x.2))
    | none => s).reqs.length = s.reqs.length := by
    intro s x
    split
    · simp [State.goto]
    · rfl
  split
  · simp only [State.close, List.length_map]
    exact foldl_keeps (fun s : State A => s.reqs.length) _ hf _ _
  · exact foldl_keeps (fun s : State A => s.reqs.length) _ hf _ _

theorem work_step {cfg : Cfg A} {s t : State A} (h : Core cfg s) {e : Ev A} (hl : Local e) (hs : step cfg s e = some t) :
    work t.reqs + t.queue.length < work s.reqs + s.queue.length := by
  cases e with
  | take =>
    simp only [step, State.take] at hs
    split at hs
    · cases hs
    · split at hs
      · cases hs
      · next q hq =>
        cases hs
        have : work s.die.reqs ≤ work s.reqs := by
          refine work_answers (by simp [State.die]) ?_
          intro i r hr
          replace hr : (s.reqs.map Req.drop)[i]? = some r := hr
          rw [List.getElem?_map] at hr
          obtain ⟨q, g1, rfl⟩ := Option.map_eq_some_iff.mp hr
          refine ⟨q, g1, ?_⟩
          unfold Req.drop
          split
          · exact ⟨rfl, rfl, .inr ⟨_, rfl⟩⟩
          · exact ⟨rfl, rfl, .inl rfl⟩
        have h2 : s.die.queue = [] := rfl
        rw [h2, hq]
        simp
        omega
      · next i q hq =>
        cases hs
        obtain ⟨r, hr, hrq⟩ := h.queued i (by rw [hq]; simp)
        have := work_goto hr .start
        rw [hrq, hq] at *
        simp [weight] at this ⊢
        omega
  | go i ok =>
    simp only [step] at hs
    split at hs
    · cases hs
    · next r hr =>
      have hg : ∀ pc : Pc A, weight pc < weight r.pc → work (s.goto i pc).reqs + s.queue.length < work s.reqs + s.queue.length := by
        intro pc hpc
        have := work_goto hr pc
        omega
      unfold State.go at hs
      split at hs
      · next hp =>
        rw [hp] at hg
        split at hs
        · cases hs; exact hg _ (by simp [weight])
        · split at hs
          · cases hs; exact hg _ (by simp [weight])
          · cases hs; exact hg _ (by simp [weight])
      · next a c hp =>
        rw [hp] at hg
        split at hs
        · cases hs; exact hg _ (by simp [weight])
        · cases hs
          have h1 := work_answers (by simp [State.close]) (answers_close (s.goto i (.done (.replied .failure))) c)
          have h2 := hg (.done (.replied .failure)) (by simp [weight])
          have h3 : ((s.goto i (.done (.replied .failure))).close c).queue = s.queue := rfl
          rw [h3]
          omega
      · next a c hp =>
        rw [hp] at hg
        split at hs
        · cases hs
        · split at hs
          · cases hs; exact hg _ (by simp [weight])
          · split at hs
            · cases hs; exact hg _ (by simp [weight])
            · cases hs
      · cases hs
  | next c =>
    obtain ⟨k, old, i, r, hk, hst, hm, hi, htd, he, hr, hw, hmid, rfl⟩ := next_facts h hs
    rw [(settle_table _ _ _ _ _).2.2]
    have h1 := work_answers (settle_length _ _ _ _ _) (answers_settle { s.goto i (.flying c) with chans := (s.chans.modify c fun k => { k with taken := k.taken + 1 }).modify c fun k =>
        { k with sess := some (old.step { cfg.env with hasItem := fun _ => false } (.request r.data)), history := k.history ++ [((fun _ => false), .request r.data)] } }
          c { k with taken := k.taken + 1 } old (old.step { cfg.env with hasItem := fun _ => false } (.request r.data)))
    have h2 := work_goto hr (.flying c)
    rw [hw] at h2
    simp only [weight] at h2
    have h3 : ({ s.goto i (.flying c) with chans := (s.chans.modify c fun k => { k with taken := k.taken + 1 }).modify c fun k =>
        { k with sess := some (old.step { cfg.env with hasItem := fun _ => false } (.request r.data)), history := k.history ++ [((fun _ => false), .request r.data)] } } : State A).queue.length = s.queue.length := rfl
    rw [h3]
    have h4 : ({ s.goto i (.flying c) with chans := (s.chans.modify c fun k => { k with taken := k.taken + 1 }).modify c fun k =>
        { k with sess := some (old.step { cfg.env with hasItem := fun _ => false } (.request r.data)), history := k.history ++ [((fun _ => false), .request r.data)] } } : State A).reqs = (s.goto i (.flying c)).reqs := rfl
    rw [h4] at h1
    omega
  | _ => exact hl.elim

theorem work_le (l : List (Req A)) : work l ≤ 6 * l.length := by
  induction l with
  | nil => simp [work]
  | cons x xs ih =>
    have : weight x.pc ≤ 6 := by cases x.pc <;> simp [weight]
    simp [work] at ih ⊢
    omega

end Dtn.TcpPool
