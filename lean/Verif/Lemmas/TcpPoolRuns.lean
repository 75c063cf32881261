import Verif.Lemmas.TcpPoolCore
/-! What stays, in runs of the layer `tcp`. -/

namespace Dtn.TcpPool
open Dtn.Tcpcl
open Dtn.Clas (Answer)
open Dtn.Spec.TcpPoolSpec

variable {A : Type} [DecidableEq A]

set_option linter.unusedSectionVars false

/-- How a connection can change. -/
structure Evolves (cfg : Cfg A) (k k' : Chan A) : Prop where
  addr : k'.addr = k.addr
  active : k'.active = k.active
  entered : k.entered <+: k'.entered
  ended : k.stage = .ended → k'.stage = .ended
  sess : (k'.sess = k.sess ∧ k'.remote = k.remote ∧ k'.history = k.history) ∨
    (k.sess = none ∧ k'.history = k.history ∧ ∃ r, k'.remote = some r ∧ k'.sess = some (newSess cfg.refuse cfg.loc r)) ∨
    ∃ x has ev, k.sess = some x ∧ k'.remote = k.remote ∧ k'.history = k.history ++ [(has, ev)] ∧
      k'.sess = some (x.step { cfg.env with hasItem := has } ev)

theorem Evolves.refl (cfg : Cfg A) (k : Chan A) : Evolves cfg k k := ⟨rfl, rfl, List.prefix_refl _, id, .inl ⟨rfl, rfl, rfl⟩⟩

/-- A connection just made. -/
def Fresh (k : Chan A) : Prop := k.entered = [] ∧ k.sess = none ∧ k.history = [] ∧ k.stage ≠ .ended

/-- How the connections change. -/
structure Chans (cfg : Cfg A) (s t : State A) : Prop where
  old : ∀ (d : Nat) k, s.chans[d]? = some k → ∃ k', t.chans[d]? = some k' ∧ Evolves cfg k k'
  new : ∀ (d : Nat) k', t.chans[d]? = some k' → (∃ k, s.chans[d]? = some k ∧ Evolves cfg k k') ∨
    (d = s.chans.length ∧ Fresh k' ∧ AList.get? t.table k'.addr = some d)

theorem chans_eq {cfg : Cfg A} {s t : State A} (h : t.chans = s.chans) : Chans cfg s t :=
  ⟨fun d k hk => ⟨k, by rw [h]; exact hk, Evolves.refl _ _⟩, fun d k hk => .inl ⟨k, by rw [← h]; exact hk, Evolves.refl _ _⟩⟩

theorem chans_modify {cfg : Cfg A} {s t : State A} {c : Nat} {f : Chan A → Chan A} (h : t.chans = s.chans.modify c f)
    (hf : ∀ k, s.chans[c]? = some k → Evolves cfg k (f k)) : Chans cfg s t := by
  constructor
  · intro d k hk
    rw [h, modify_get]
    by_cases e : c = d
    · subst e
      rw [if_pos rfl, hk]
      exact ⟨f k, rfl, hf k hk⟩
    · rw [if_neg e]
      exact ⟨k, hk, Evolves.refl _ _⟩
  · intro d k hk
    rw [h] at hk
    rcases modify_some hk with ⟨rfl, k', h1, rfl⟩ | ⟨_, h1⟩
    · exact .inl ⟨k', h1, hf k' h1⟩
    · exact .inl ⟨k, h1, Evolves.refl _ _⟩

theorem chans_open {cfg : Cfg A} {s t : State A} {a : A} {act : Bool} {st : Stage} (hst : st ≠ .ended)
    (h : t.chans = (s.open a act st).chans) (ht : t.table = (s.open a act st).table) : Chans cfg s t := by
  constructor
  · intro d k hk
    exact ⟨k, by rw [h]; exact append_old hk, Evolves.refl _ _⟩
  · intro d k hk
    rw [h] at hk
    rcases append_get hk with ⟨hk, _⟩ | ⟨rfl, rfl⟩
    · exact .inl ⟨k, hk, Evolves.refl _ _⟩
    · exact .inr ⟨rfl, ⟨rfl, rfl, rfl, hst⟩, by rw [ht]; simp [State.open]⟩

theorem foldl_keeps {α β γ : Type} (p : α → γ) (g : α → β → α) (hg : ∀ s x, p (g s x) = p s) (l : List β) : ∀ s, p (l.foldl g s) = p s := by
  induction l with
  | nil => intro s; rfl
  | cons x xs ih => intro s; rw [List.foldl_cons, ih, hg]

theorem settle_chans (s : State A) (c : Nat) (k : Chan A) (old new : Sess) :
    (s.settle c k old new).chans = if new.isTerminated then s.chans.modify c (fun k => { k with stage := .ended }) else s.chans := by
  unfold State.settle
  simp only
  split
  · show List.modify _ _ _ = _
    rw [foldl_keeps (fun s : State A => s.chans)]
    intro s x
    split <;> rfl
  · rw [foldl_keeps (fun s : State A => s.chans)]
    intro s x
    split <;> rfl

theorem settle_table (s : State A) (c : Nat) (k : Chan A) (old new : Sess) :
    (s.settle c k old new).table = s.table ∧ (s.settle c k old new).alive = s.alive ∧ (s.settle c k old new).queue = s.queue := by
  unfold State.settle
  simp only
  split
  · refine ⟨foldl_keeps (fun s : State A => s.table) _ ?_ _ _, foldl_keeps (fun s : State A => s.alive) _ ?_ _ _,
      foldl_keeps (fun s : State A => s.queue) _ ?_ _ _⟩ <;> intro s x <;> split <;> rfl
  · refine ⟨foldl_keeps (fun s : State A => s.table) _ ?_ _ _, foldl_keeps (fun s : State A => s.alive) _ ?_ _ _,
      foldl_keeps (fun s : State A => s.queue) _ ?_ _ _⟩ <;> intro s x <;> split <;> rfl

theorem chans_session {cfg : Cfg A} {s t : State A} {c : Nat} {k : Chan A} {has : Bytes → Bool}
    {ev : Sess.Ev} (hk : ∀ k', s.chans[c]? = some k' → k'.sess = k.sess) (hs : s.session cfg c k has ev = some t) : Chans cfg s t := by
  unfold State.session at hs
  split at hs
  · next x1 x2 old e1 e2 =>
    cases hs
    refine chans_modify (c := c) (f := if (old.step { cfg.env with hasItem := has } ev).isTerminated
      then fun k => { k with stage := .ended, sess := some (old.step { cfg.env with hasItem := has } ev), history := k.history ++ [(has, ev)] }
      else fun k => { k with sess := some (old.step { cfg.env with hasItem := has } ev), history := k.history ++ [(has, ev)] }) ?_ ?_
    · rw [settle_chans]
      split
      · simp only [modify_twice]
        rfl
      · rfl
    · intro k' hk'
      have := hk k' hk'
      rw [e2] at this
      split
      · exact ⟨rfl, rfl, List.prefix_refl _, fun _ => rfl, .inr (.inr ⟨old, has, ev, this, rfl, rfl, rfl⟩)⟩
      · exact ⟨rfl, rfl, List.prefix_refl _, fun e => e, .inr (.inr ⟨old, has, ev, this, rfl, rfl, rfl⟩)⟩
  · cases hs

theorem chans_next {cfg : Cfg A} {s t : State A} {c : Nat} (hs : s.next cfg c = some t) : Chans cfg s t := by
  unfold State.next at hs
  split at hs
  · cases hs
  · next k hk =>
    split at hs
    · next old i e1 e2 =>
      split at hs
      · cases hs
      · next r hr =>
        split at hs
        · next hc =>
          have h := chans_session (by
            intro k' hk'
            replace hk' : (s.chans.modify c _)[c]? = some k' := hk'
            rw [modify_get, if_pos rfl, hk] at hk'
            cases hk'
            rfl) hs
          have hsub : ∀ (d : Nat) (k1 : Chan A), s.chans[d]? = some k1 →
              ∃ k2, (s.chans.modify c fun k => { k with taken := k.taken + 1 })[d]? = some k2 ∧ k2.addr = k1.addr ∧ k2.active = k1.active ∧
                k2.entered = k1.entered ∧ k2.stage = k1.stage ∧ k2.sess = k1.sess ∧ k2.remote = k1.remote ∧ k2.history = k1.history := by
            intro d k1 h1
            rw [modify_get]
            by_cases e : c = d
            · rw [if_pos e, h1]
              exact ⟨_, rfl, rfl, rfl, rfl, rfl, rfl, rfl, rfl⟩
            · rw [if_neg e]
              exact ⟨k1, h1, rfl, rfl, rfl, rfl, rfl, rfl, rfl⟩
          constructor
          · intro d k1 h1
            obtain ⟨k2, g1, g2, g3, g4, g5, g6, g7, g8⟩ := hsub d k1 h1
            obtain ⟨k3, g9, g10⟩ := h.old d k2 g1
            refine ⟨k3, g9, g10.addr.trans g2, g10.active.trans g3, by rw [← g4]; exact g10.entered, by rw [← g5]; exact g10.ended, ?_⟩
            rw [← g6, ← g7, ← g8]
            exact g10.sess
          · intro d k3 h3
            rcases h.new d k3 h3 with ⟨k2, g1, g10⟩ | ⟨g1, g2, g3⟩
            · left
              replace g1 : (s.chans.modify c fun k => { k with taken := k.taken + 1 })[d]? = some k2 := g1
              have hex : ∃ k1, s.chans[d]? = some k1 := by
                rw [modify_get] at g1
                split at g1
                · obtain ⟨k1, h1, _⟩ := Option.map_eq_some_iff.mp g1
                  exact ⟨k1, h1⟩
                · exact ⟨k2, g1⟩
              obtain ⟨k1, h1⟩ := hex
              obtain ⟨k2', g1', g2, g3, g4, g5, g6, g7, g8⟩ := hsub d k1 h1
              rw [g1] at g1'
              cases g1'
              refine ⟨k1, h1, g10.addr.trans g2, g10.active.trans g3, by rw [← g4]; exact g10.entered, by rw [← g5]; exact g10.ended, ?_⟩
              rw [← g6, ← g7, ← g8]
              exact g10.sess
            · right
              exact ⟨by simpa using g1, g2, g3⟩
        · cases hs
    · cases hs

theorem evolves_ended (cfg : Cfg A) (k : Chan A) : Evolves cfg k { k with stage := .ended } :=
  ⟨rfl, rfl, List.prefix_refl _, fun _ => rfl, .inl ⟨rfl, rfl, rfl⟩⟩

theorem chans_step {cfg : Cfg A} {s t : State A} (h : Core cfg s) {e : Ev A} (hs : step cfg s e = some t) : Chans cfg s t := by
  have hclose : ∀ (s' : State A) c, s'.chans = s.chans → Chans cfg s (s'.close c) := by
    intro s' c hc
    exact chans_modify (c := c) (f := fun k => { k with stage := .ended }) (by rw [← hc]; rfl) (fun k _ => evolves_ended cfg k)
  cases e with
  | request dest data =>
    simp only [step] at hs
    split at hs
    · cases hs; exact chans_eq rfl
    · split at hs
      · cases hs; exact chans_eq rfl
      · cases hs
  | shutdown =>
    simp only [step] at hs
    split at hs
    · cases hs; exact chans_eq rfl
    · cases hs
  | take =>
    simp only [step, State.take] at hs
    split at hs
    · cases hs
    · split at hs
      · cases hs
      · cases hs; exact chans_eq rfl
      · cases hs; exact chans_eq rfl
  | go i ok =>
    simp only [step] at hs
    split at hs
    · cases hs
    · next r hr =>
      unfold State.go at hs
      split at hs
      · split at hs
        · cases hs; exact chans_eq rfl
        · split at hs
          · cases hs; exact chans_eq rfl
          · cases hs; exact chans_open (by simp) rfl rfl
      · next a c hp =>
        split at hs
        · cases hs
          refine chans_modify rfl (fun k hk => ⟨rfl, rfl, List.prefix_refl _, ?_, .inl ⟨rfl, rfl, rfl⟩⟩)
          intro he
          have := h.req i r hr
          unfold ReqOk at this
          rw [hp] at this
          obtain ⟨_, k', h1, _, h2⟩ := this
          rw [hk] at h1
          cases h1
          rw [he] at h2
          cases h2
        · cases hs
          exact hclose _ _ rfl
      · split at hs
        · cases hs
        · split at hs
          · cases hs; exact chans_eq rfl
          · split at hs
            · cases hs
              exact chans_modify rfl (fun k hk => ⟨rfl, rfl, List.prefix_append _ _, id, .inl ⟨rfl, rfl, rfl⟩⟩)
            · cases hs
      · cases hs
  | accept a =>
    cases hs
    exact chans_open (by simp) rfl rfl
  | contact c ok =>
    simp only [step] at hs
    split at hs
    · cases hs
    · next k hk =>
      split at hs
      · next hst =>
        cases ok
        · cases hs
          exact hclose _ _ rfl
        · cases hs
          refine chans_modify rfl (fun k' hk' => ⟨rfl, rfl, List.prefix_refl _, ?_, .inl ⟨rfl, rfl, rfl⟩⟩)
          intro he
          rw [hk] at hk'
          cases hk'
          rw [hst] at he
          cases he
      · cases hs
  | params c r known =>
    simp only [step] at hs
    split at hs
    · cases hs
    · next k hk =>
      split at hs
      · next hst =>
        have he := (h.chan c k hk).early (by rw [hst]; simp) (by rw [hst]; simp)
        cases r with
        | none =>
          cases hs
          exact hclose _ _ rfl
        | some r =>
          have hstart : ∀ s' : State A, s'.chans = s.chans →
              Chans cfg s { s' with chans := s'.chans.modify c fun k =>
                { k with stage := .session, remote := some r, sess := some (newSess cfg.refuse cfg.loc r) } } := by
            intro s' e1
            refine chans_modify (c := c) (f := fun k => { k with stage := .session, remote := some r, sess := some (newSess cfg.refuse cfg.loc r) })
              (by rw [e1]) (fun k' hk' => ⟨rfl, rfl, List.prefix_refl _, ?_, .inr (.inl ⟨?_, rfl, r, rfl, rfl⟩)⟩)
            · intro he
              rw [hk] at hk'
              cases hk'
              rw [hst] at he
              cases he
            · rw [hk] at hk'
              cases hk'
              exact he.2
          cases hs
          simp only [State.begun]
          split
          · exact hclose _ _ rfl
          · split
            · exact hstart s rfl
            · split
              · exact hclose _ _ rfl
              · split
                · exact hstart s rfl
                · exact hstart { s with met := _ } rfl
      · cases hs
  | next c => exact chans_next hs
  | message c has p =>
    simp only [step] at hs
    split at hs
    · cases hs
    · next k hk => exact chans_session (fun k' hk' => by rw [hk] at hk'; cases hk'; rfl) hs
  | timeout c =>
    simp only [step] at hs
    split at hs
    · cases hs
    · next k hk => exact chans_session (fun k' hk' => by rw [hk] at hk'; cases hk'; rfl) hs
  | lost c =>
    simp only [step] at hs
    split at hs
    · cases hs
    · next k hk => exact chans_session (fun k' hk' => by rw [hk] at hk'; cases hk'; rfl) hs
  | closed c =>
    simp only [step] at hs
    split at hs
    · cases hs
    · next k hk =>
      split at hs
      · exact chans_session (fun k' hk' => by rw [hk] at hk'; cases hk'; rfl) hs
      · cases hs

/-- Sessions are what their history says. -/
def Hist (cfg : Cfg A) (s : State A) : Prop :=
  ∀ (c : Nat) k, s.chans[c]? = some k → (k.sess = none → k.history = []) ∧
    ∀ x, k.sess = some x → ∃ rem, k.remote = some rem ∧ x = (newSess cfg.refuse cfg.loc rem).run cfg.env k.history

theorem sess_run_append (e : Env) (x : Sess) (l : List ((Bytes → Bool) × Sess.Ev)) (has : Bytes → Bool) (ev : Sess.Ev) :
    x.run e (l ++ [(has, ev)]) = (x.run e l).step { e with hasItem := has } ev := by
  unfold Sess.run
  rw [List.foldl_append]
  rfl

theorem hist_step {cfg : Cfg A} {s t : State A} (h : Core cfg s) (hh : Hist cfg s) {e : Ev A} (hs : step cfg s e = some t) : Hist cfg t := by
  have hc := chans_step h hs
  intro c k' hk'
  rcases hc.new c k' hk' with ⟨k, h1, h2⟩ | ⟨_, ⟨_, h3, h4, _⟩, _⟩
  · obtain ⟨g1, g2⟩ := hh c k h1
    rcases h2.sess with ⟨e1, e2, e3⟩ | ⟨e1, e2, r, e3, e4⟩ | ⟨x, has, ev, e1, e2, e3, e4⟩
    · rw [e1, e2, e3]
      exact ⟨g1, g2⟩
    · rw [e2, e4, g1 e1]
      refine ⟨by simp, ?_⟩
      intro x hx
      cases hx
      exact ⟨r, e3, rfl⟩
    · rw [e4]
      refine ⟨by simp, ?_⟩
      intro y hy
      cases hy
      obtain ⟨rem, g3, g4⟩ := g2 x e1
      refine ⟨rem, e2.trans g3, ?_⟩
      rw [e3, sess_run_append, ← g4]
  · rw [h3, h4]
    exact ⟨fun _ => rfl, by simp⟩

/-- Transfers are kept as they were asked for, and answers stay. -/
def Later (s t : State A) : Prop :=
  ∀ (i : Nat) r, s.reqs[i]? = some r → ∃ r', t.reqs[i]? = some r' ∧ r'.dest = r.dest ∧ r'.data = r.data ∧
    ∀ ans, r.pc = .done ans → r'.pc = .done ans

theorem Later.refl (s : State A) : Later s s := fun _ r h => ⟨r, h, rfl, rfl, fun _ h => h⟩

theorem Later.trans {s t u : State A} (h1 : Later s t) (h2 : Later t u) : Later s u := by
  intro i r hr
  obtain ⟨r1, a1, a2, a3, a4⟩ := h1 i r hr
  obtain ⟨r2, b1, b2, b3, b4⟩ := h2 i r1 a1
  exact ⟨r2, b1, b2.trans a2, b3.trans a3, fun ans h => b4 ans (a4 ans h)⟩

theorem later_eq {s t : State A} (h : t.reqs = s.reqs) : Later s t := fun _ r hr => ⟨r, by rw [h]; exact hr, rfl, rfl, fun _ h => h⟩

theorem later_goto {s t : State A} {i : Nat} {r : Req A} (hr : s.reqs[i]? = some r) (hp : ∀ ans, r.pc ≠ .done ans) {pc : Pc A}
    (h : t.reqs = (s.goto i pc).reqs) : Later s t := by
  intro j q hq
  rw [h, goto_get]
  by_cases hj : i = j
  · subst hj
    rw [hr] at hq
    cases hq
    rw [if_pos rfl, hr]
    exact ⟨_, rfl, rfl, rfl, fun ans h => absurd h (hp ans)⟩
  · rw [if_neg hj]
    exact ⟨q, hq, rfl, rfl, fun _ h => h⟩

theorem later_map {s t : State A} {f : Req A → Req A} (h : t.reqs = s.reqs.map f)
    (hf : ∀ r, (f r).dest = r.dest ∧ (f r).data = r.data ∧ ∀ ans, r.pc = .done ans → (f r).pc = .done ans) : Later s t := by
  intro i r hr
  rw [h, List.getElem?_map, hr]
  exact ⟨f r, rfl, hf r⟩

theorem later_close (s : State A) (c : Nat) : Later s (s.close c) := by
  refine later_map (f := Req.lose c) rfl (fun r => ?_)
  unfold Req.lose
  split
  · next h =>
    refine ⟨rfl, rfl, ?_⟩
    intro ans ha
    rw [ha] at h
    simp at h
  · exact ⟨rfl, rfl, fun _ h => h⟩

theorem later_settle {cfg : Cfg A} {s t : State A} (h : Core cfg s) {c : Nat} {k k' : Chan A} {m old new : Sess}
    (hk : s.chans[c]? = some k) (hst : k.stage = .session) (hm : k.sess = some m) (hg : Goes m new) (ho : old.results = m.results)
    (he : k'.entered = k.entered) (h3 : t.reqs = s.reqs) : Later s (t.settle c k' old new) := by
  unfold State.settle
  rcases hg.results with ⟨hr, hx⟩ | ⟨j, res, hj, hr, hn, hl⟩
  · have hnil : new.results.drop old.results.length = [] := by rw [hr, ho]; simp
    rw [hnil]
    simp only [List.foldl_nil]
    split
    · exact (later_eq h3).trans (later_close _ _)
    · exact later_eq h3
  · obtain ⟨i, r, g1, g2, g3, g4⟩ := h.flying hk hst hm hj
    have hone : new.results.drop old.results.length = [(j, res)] := by rw [hr, ho]; simp
    rw [hone]
    simp only [List.foldl_cons, List.foldl_nil]
    rw [he, g1]
    simp only
    rw [if_neg (by simp [hl])]
    refine later_goto g2 (by rw [g3]; simp) (pc := .done (answerOf res)) ?_
    show t.reqs.modify _ _ = s.reqs.modify _ _
    rw [h3]

theorem later_session {cfg : Cfg A} {s t : State A} (h : Core cfg s) {c : Nat} {k : Chan A} (hk : s.chans[c]? = some k) {has : Bytes → Bool}
    {ev : Sess.Ev} (hev : ∀ d, ev ≠ .request d) (hs : s.session cfg c k has ev = some t) : Later s t := by
  unfold State.session at hs
  split at hs
  · next x1 x2 old e1 e2 =>
    cases hs
    obtain ⟨x, hx, htd⟩ := (h.chan c k hk).live e1
    rw [e2] at hx
    cases hx
    exact later_settle h hk e1 e2 (goes_step htd hev) rfl rfl rfl
  · cases hs

/-- What taking a transfer does. -/
theorem next_facts {cfg : Cfg A} {s t : State A} (h : Core cfg s) {c : Nat} (hs : s.next cfg c = some t) :
    ∃ k old i r, s.chans[c]? = some k ∧ k.stage = .session ∧ k.sess = some old ∧ old.tx = .idle ∧ Tidy old ∧ k.entered[k.taken]? = some i ∧
      s.reqs[i]? = some r ∧ r.pc = .waiting c ∧
      Core cfg { s.goto i (.flying c) with chans := s.chans.modify c fun k => { k with taken := k.taken + 1, sess := some (mid old r.data) } } ∧
      t = State.settle { s.goto i (.flying c) with chans := (s.chans.modify c fun k => { k with taken := k.taken + 1 }).modify c fun k =>
        { k with sess := some (old.step { cfg.env with hasItem := fun _ => false } (.request r.data)), history := k.history ++ [((fun _ => false), .request r.data)] } }
          c { k with taken := k.taken + 1 } old (old.step { cfg.env with hasItem := fun _ => false } (.request r.data)) := by
  unfold State.next at hs
  split at hs
  · cases hs
  · next k hk =>
    split at hs
    · next old i e1 e2 =>
      split at hs
      · cases hs
      · next r hr =>
        split at hs
        · next hc =>
          unfold State.session at hs
          simp only [hc.2, e1] at hs
          cases hs
          have htd : Tidy old := by
            obtain ⟨x, hx, htd⟩ := (h.chan c k hk).live hc.2
            rw [e1] at hx
            cases hx
            exact htd
          have hmid : Core cfg { s.goto i (.flying c) with chans := s.chans.modify c fun k => { k with taken := k.taken + 1, sess := some (mid old r.data) } } :=
            core_mid h hk hc.2 e1 hc.1 e2 hr rfl rfl rfl rfl rfl rfl rfl rfl rfl rfl
          refine ⟨k, old, i, r, hk, hc.2, e1, hc.1, htd, e2, hr, ?_, hmid, rfl⟩
          obtain ⟨r', g1, g2, g3, g4⟩ := h.member c k hk _ _ e2
          rw [hr] at g1
          cases g1
          unfold Fits at g3
          rw [if_neg (by rw [hc.2]; simp), if_pos (Nat.le_refl _)] at g3
          exact g3
        · cases hs
    · cases hs

theorem later_next {cfg : Cfg A} {s t : State A} (h : Core cfg s) {c : Nat} (hs : s.next cfg c = some t) : Later s t := by
  obtain ⟨k, old, i, r, hk, hst, hm, hi, htd, he, hr, hw, hmid, rfl⟩ := next_facts h hs
  have h1 : Later s { s.goto i (.flying c) with chans := s.chans.modify c fun k => { k with taken := k.taken + 1, sess := some (mid old r.data) } } :=
    later_goto hr (by rw [hw]; simp) rfl
  refine h1.trans (later_settle hmid (k := { k with taken := k.taken + 1, sess := some (mid old r.data) }) ?_ hst rfl
    (goes_request htd hi r.data) rfl rfl rfl)
  show (s.chans.modify c _)[c]? = _
  rw [modify_get, if_pos rfl, hk]; rfl

theorem later_step {cfg : Cfg A} {s t : State A} (h : Core cfg s) {e : Ev A} (hs : step cfg s e = some t) : Later s t := by
  cases e with
  | request dest data =>
    have : ∀ q : Req A, ∀ u : State A, u.reqs = s.reqs ++ [q] → Later s u := by
      intro q u hu i r hr
      refine ⟨r, ?_, rfl, rfl, fun _ h => h⟩
      rw [hu, List.getElem?_append_left (List.getElem?_eq_some_iff.mp hr).1]
      exact hr
    simp only [step] at hs
    split at hs
    · cases hs; exact this _ _ rfl
    · split at hs
      · cases hs; exact this _ _ rfl
      · cases hs
  | shutdown =>
    simp only [step] at hs
    split at hs
    · cases hs; exact later_eq rfl
    · cases hs
  | take =>
    simp only [step, State.take] at hs
    split at hs
    · cases hs
    · split at hs
      · cases hs
      · cases hs
        refine later_map (f := Req.drop) rfl (fun r => ?_)
        unfold Req.drop
        split
        · next hq => exact ⟨rfl, rfl, fun ans ha => by rw [ha] at hq; cases hq⟩
        · exact ⟨rfl, rfl, fun _ h => h⟩
      · next i q hq =>
        cases hs
        obtain ⟨r, hr, hrq⟩ := h.queued i (by rw [hq]; simp)
        exact later_goto hr (by rw [hrq]; simp) (pc := .start) rfl
  | go i ok =>
    simp only [step] at hs
    split at hs
    · cases hs
    · next r hr =>
      unfold State.go at hs
      split at hs
      · next hp =>
        split at hs
        · cases hs; exact later_goto hr (by rw [hp]; simp) rfl
        · next a ha =>
          split at hs
          · cases hs; exact later_goto hr (by rw [hp]; simp) rfl
          · cases hs
            exact later_goto hr (by rw [hp]; simp) (pc := .connect a s.chans.length) rfl
      · next a c hp =>
        split at hs
        · cases hs
          exact later_goto hr (by rw [hp]; simp) (pc := .send a c) rfl
        · cases hs
          exact (later_goto hr (by rw [hp]; simp) rfl).trans (later_close _ _)
      · next a c hp =>
        split at hs
        · cases hs
        · split at hs
          · cases hs; exact later_goto hr (by rw [hp]; simp) rfl
          · split at hs
            · cases hs
              exact later_goto hr (by rw [hp]; simp) (pc := .waiting c) rfl
            · cases hs
      · cases hs
  | accept a =>
    cases hs
    exact later_eq rfl
  | contact c ok =>
    simp only [step] at hs
    split at hs
    · cases hs
    · split at hs
      · cases ok
        · cases hs; exact later_close _ _
        · cases hs; exact later_eq rfl
      · cases hs
  | params c r known =>
    simp only [step] at hs
    split at hs
    · cases hs
    · split at hs
      · cases r with
        | none => cases hs; exact later_close _ _
        | some r =>
          cases hs
          simp only [State.begun]
          split
          · exact later_close _ _
          · split
            · exact later_eq rfl
            · split
              · exact later_close _ _
              · split
                · exact later_eq rfl
                · exact later_eq rfl
      · cases hs
  | next c => exact later_next h hs
  | message c has p =>
    simp only [step] at hs
    split at hs
    · cases hs
    · next k hk => exact later_session h hk (by simp) hs
  | timeout c =>
    simp only [step] at hs
    split at hs
    · cases hs
    · next k hk => exact later_session h hk (by simp) hs
  | lost c =>
    simp only [step] at hs
    split at hs
    · cases hs
    · next k hk => exact later_session h hk (by simp) hs
  | closed c =>
    simp only [step] at hs
    split at hs
    · cases hs
    · next k hk =>
      split at hs
      · exact later_session h hk (by simp) hs
      · cases hs

theorem later_run {cfg : Cfg A} {evs : List (Ev A)} : ∀ {s t : State A}, Core cfg s → run cfg s evs = some t → Later s t := by
  induction evs with
  | nil => intro s t _ hr; cases hr; exact Later.refl s
  | cons e es ih =>
    intro s t h hr
    simp only [run] at hr
    obtain ⟨u, h1, h2⟩ := Option.bind_eq_some_iff.mp hr
    exact (later_step h h1).trans (ih (core_step h h1) h2)

theorem hist_run {cfg : Cfg A} {evs : List (Ev A)} {s : State A} (hr : After cfg evs s) : Core cfg s ∧ Hist cfg s :=
  run_ind (P := fun s => Core cfg s ∧ Hist cfg s) (fun _ _ _ h hs => ⟨core_step h.1 hs, hist_step h.1 h.2 hs⟩)
    ⟨core_init cfg, by intro c k hk; simp at hk⟩ hr

end Dtn.TcpPool
