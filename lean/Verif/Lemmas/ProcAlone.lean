import Verif.Lemmas.ProcGood
/-! Sequential reasoning: what a task does until it ends or starts another task, when it has the node for itself. -/

namespace Dtn.Proc
open Routing (Notification Answer)

/-- The same node at another time. -/
def Node.at (n : Node) (t : Nat) : Node := { n with clock := t }

/-- A task that has the node for itself comes to a point where `Q` holds of the remaining tasks and the state, or waits
forever. -/
inductive Alone (Q : List Prog → Node → Prop) : Prog → Node → Prop where
  | stop {p : Prog} {n : Node} : Q [p] n → Alone Q p n
  | act {f : Node → Node} {k : Node → Prog} {n : Node} :
      (∀ t, n.clock ≤ t → Alone Q (k (n.at t)) (f (n.at t))) → Alone Q (.act f k) n
  | route {bp : Pack} {k : Option Answer → Prog} {n : Node} :
      (∀ t a, n.clock ≤ t → Alone Q (k a) ((n.at t).log (.asked bp a))) → Alone Q (.route bp k) n
  | choose {k : Bool → Prog} {n : Node} : (∀ b, Alone Q (k b) n) → Alone Q (.choose k) n
  | fresh {k : String → Prog} {n : Node} : (∀ s, Alone Q (k s) n) → Alone Q (.fresh k) n
  | spawn {t k : Prog} {n : Node} : Q [k, t] n → Alone Q (.spawn t k) n
  | wait {c : Node → Bool} {k : Prog} {n : Node} :
      (∀ t, n.clock ≤ t → c (n.at t) = true → Alone Q k (n.at t)) → Alone Q (.wait c k) n

variable {Q : List Prog → Node → Prop}

theorem reaches_clock (n : Node) (pool : List Prog) (t : Nat) (h : n.clock ≤ t) :
    Reaches .quiet ⟨n, pool⟩ ⟨n.at t, pool⟩ :=
  .step (.refl _) (.change _ _ _ ⟨t, h, rfl⟩)

theorem quiet_step {n : Node} {p : Prog} {u : Sys} (h : Step .quiet ⟨n, [p]⟩ u) :
    (∃ n' ps, TaskStep n p n' ps ∧ u = ⟨n', ps⟩) ∨ ∃ t, n.clock ≤ t ∧ u = ⟨n.at t, [p]⟩ := by
  generalize hs : (⟨n, [p]⟩ : Sys) = s at h
  cases h with
  | task l r p' n0 n' ps h =>
    rw [Sys.mk.injEq] at hs
    obtain ⟨rfl, hs⟩ := hs
    cases l with
    | nil =>
      simp only [List.nil_append, List.cons.injEq] at hs
      obtain ⟨rfl, rfl⟩ := hs
      exact .inl ⟨n', ps, h, by simp⟩
    | cons x l => simp at hs
  | call n pool c h => exact h.elim
  | change n0 n' pool h =>
    rw [Sys.mk.injEq] at hs
    obtain ⟨rfl, rfl⟩ := hs
    obtain ⟨t, ht, rfl⟩ := h
    exact .inr ⟨t, ht, rfl⟩

theorem Alone.reaches {p : Prog} {n : Node} {s : Sys} (h : Alone Q p n) (hr : Reaches .quiet ⟨n, [p]⟩ s) :
    (∃ q m t, s = ⟨m.at t, [q]⟩ ∧ m.clock ≤ t ∧ Alone Q q m ∧ Reaches .quiet ⟨n, [p]⟩ ⟨m, [q]⟩) ∨
    ∃ m pool, Q pool m ∧ Reaches .quiet ⟨n, [p]⟩ ⟨m, pool⟩ ∧ Reaches .quiet ⟨m, pool⟩ s := by
  generalize h0 : (⟨n, [p]⟩ : Sys) = s0 at hr
  induction hr with
  | refl => subst h0; exact .inl ⟨p, n, n.clock, rfl, Nat.le_refl _, h, .refl _⟩
  | @step t u hr' hs ih =>
    subst h0
    rcases ih with ⟨q, m, c, rfl, hc, hq, hm⟩ | ⟨m, pool, hQ, hr0, hr⟩
    · rcases quiet_step hs with ⟨n', ps, ht, rfl⟩ | ⟨t, ht, rfl⟩
      · have hstep : ∀ {n' : Node} {ps : List Prog}, TaskStep m q n' ps → Reaches .quiet ⟨n, [p]⟩ ⟨n', ps⟩ := by
          intro n' ps h'
          have := hm.step (.task [] [] q m n' ps h')
          simpa using this
        cases hq with
        | stop hQ => exact .inr ⟨m, [q], hQ, hm, (reaches_clock m [q] c hc).step hs⟩
        | spawn hQ =>
          cases ht
          exact .inr ⟨m, _, hQ, hstep (.spawn _ _ _), reaches_clock m _ c hc⟩
        | act h' => cases ht; exact .inl ⟨_, _, _, rfl, Nat.le_refl _, h' c hc, hr'.step hs⟩
        | route h' => cases ht; exact .inl ⟨_, _, _, rfl, Nat.le_refl _, h' c _ hc, hr'.step hs⟩
        | choose h' => cases ht; exact .inl ⟨_, m, c, rfl, hc, h' _, hstep (.choose _ _ _)⟩
        | fresh h' => cases ht; exact .inl ⟨_, m, c, rfl, hc, h' _, hstep (.fresh _ _ _)⟩
        | wait h' => cases ht with
          | wait _ _ hw => exact .inl ⟨_, m.at c, c, rfl, Nat.le_refl _, h' c hc hw, hr'.step hs⟩
      · exact .inl ⟨q, m, t, rfl, Nat.le_trans hc ht, hq, hm⟩
    · exact .inr ⟨m, pool, hQ, hr0, hr.step hs⟩

/-- The task and all tasks it started have ended. -/
theorem Alone.ended {p : Prog} {n m : Node} (h : Alone Q p n) (hr : Reaches .quiet ⟨n, [p]⟩ ⟨m, []⟩) :
    ∃ n' pool, Q pool n' ∧ Reaches .quiet ⟨n, [p]⟩ ⟨n', pool⟩ ∧ Reaches .quiet ⟨n', pool⟩ ⟨m, []⟩ := by
  rcases h.reaches hr with ⟨q, m', t, h, -, -, -⟩ | h
  · simp at h
  · exact h

/-- A task that has ended does not matter. -/
theorem drop_done {w : World} {n : Node} {ok : Bool} {pool : List Prog} {s : Sys}
    (hr : Reaches w ⟨n, .done ok :: pool⟩ s) :
    (∃ m pool', s = ⟨m, .done ok :: pool'⟩ ∧ Reaches w ⟨n, pool⟩ ⟨m, pool'⟩) ∨ Reaches w ⟨n, pool⟩ s := by
  generalize h0 : (⟨n, .done ok :: pool⟩ : Sys) = s0 at hr
  induction hr with
  | refl => subst h0; exact .inl ⟨n, pool, rfl, .refl _⟩
  | @step t u hr' hs ih =>
    subst h0
    rcases ih with ⟨m, pool', rfl, hr⟩ | hr
    · generalize ht : (⟨m, .done ok :: pool'⟩ : Sys) = v at hs
      cases hs with
      | task l r p n0 n' ps h =>
        rw [Sys.mk.injEq] at ht
        obtain ⟨rfl, ht⟩ := ht
        cases l with
        | nil =>
          simp only [List.nil_append, List.cons.injEq] at ht
          obtain ⟨rfl, rfl⟩ := ht
          cases h
          exact .inr (by simpa using hr)
        | cons x l =>
          simp only [List.cons_append, List.cons.injEq] at ht
          obtain ⟨rfl, rfl⟩ := ht
          exact .inl ⟨n', l ++ ps ++ r, by simp, hr.step (.task l r p m n' ps h)⟩
      | call n0 pool c h =>
        rw [Sys.mk.injEq] at ht
        obtain ⟨rfl, rfl⟩ := ht
        exact .inl ⟨_, _, rfl, hr.step (.call _ _ c h)⟩
      | change n0 n' pool h =>
        rw [Sys.mk.injEq] at ht
        obtain ⟨rfl, rfl⟩ := ht
        exact .inl ⟨_, _, rfl, hr.step (.change _ _ _ h)⟩
    · exact .inr (hr.step hs)

theorem drop_done_ended {w : World} {n m : Node} {ok : Bool} {pool : List Prog}
    (hr : Reaches w ⟨n, .done ok :: pool⟩ ⟨m, []⟩) : Reaches w ⟨n, pool⟩ ⟨m, []⟩ := by
  rcases drop_done hr with ⟨m', pool', h, -⟩ | h
  · simp at h
  · exact h

theorem quiet_ended {n : Node} {p : Prog} (hp : p = .panic ∨ ∃ ok, p = .done ok) {s : Sys}
    (hr : Reaches .quiet ⟨n, [p]⟩ s) : ∃ t, s.node = n.at t ∧ (s.pool = [p] ∨ s.pool = []) := by
  generalize h0 : (⟨n, [p]⟩ : Sys) = s0 at hr
  induction hr with
  | refl => subst h0; exact ⟨n.clock, rfl, .inl rfl⟩
  | @step t u _ hs ih =>
    subst h0
    obtain ⟨c, h1, h2⟩ := ih
    cases hs with
    | task l r p' m m' ps h =>
      rcases h2 with h2 | h2
      · simp only at h1 h2
        obtain ⟨rfl, rfl, rfl⟩ : l = [] ∧ p' = p ∧ r = [] := by
          cases l <;> simp_all
        rcases hp with rfl | ⟨ok, rfl⟩ <;> cases h <;> exact ⟨c, h1, .inr rfl⟩
      · simp at h2
    | call m pool c h => exact h.elim
    | change m m' pool h =>
      obtain ⟨t, -, rfl⟩ := h
      refine ⟨t, ?_, h2⟩
      simp only at h1 ⊢
      rw [h1]; rfl

/-- In a quiet world, the invariant holds and tasks follow the rules. -/
theorem quiet_good {n : Node} {pool : List Prog} {s : Sys} (i : Good n)
    (hp : ∀ p ∈ pool, RG Good Base p (fun _ _ => True) n) (hr : Reaches .quiet ⟨n, pool⟩ s) :
    Base n s.node ∧ Good s.node ∧ ∀ p ∈ s.pool, RG Good Base p (fun _ _ => True) s.node :=
  RG.reaches (I := Good) (G := Base) Base.refl (fun _ _ _ => Base.trans) (w := .quiet)
    (fun c h => h.elim)
    (fun n m h i => by obtain ⟨t, -, rfl⟩ := h; exact ⟨Base.outside (.clock _ _), Good.outside (.clock _ _) i⟩) hr i hp

/-- A task that has the node for itself. -/
theorem Alone.run {p : Prog} {n m : Node} (i : Good n) (hp : RG Good Base p (fun _ _ => True) n) (h : Alone Q p n)
    (hr : Reaches .quiet ⟨n, [p]⟩ ⟨m, []⟩) :
    ∃ n' pool, Q pool n' ∧ Reaches .quiet ⟨n', pool⟩ ⟨m, []⟩ ∧ Base n n' ∧ Base n' m ∧ Good n' ∧ Good m := by
  obtain ⟨n', pool, hQ, h1, h2⟩ := h.ended hr
  obtain ⟨b1, g1, p1⟩ := quiet_good i (by simpa using hp) h1
  obtain ⟨b2, g2, -⟩ := quiet_good g1 p1 h2
  exact ⟨n', pool, hQ, h2, b1, b2, g1, g2⟩

/-! ### Sequences of harmless steps -/

/-- `m` comes after `n`, and in between only events of a certain kind happened. -/
structure After (E : Event → Prop) (n m : Node) : Prop where
  cfg : m.cfg = n.cfg
  clock : n.clock ≤ m.clock
  inv : n.store.Inv → m.store.Inv
  known : n.store.Inv → ∀ bid, n.store.getMetadata bid ≠ none → m.store.getMetadata bid ≠ none
  events : ∃ es, m.events = n.events ++ es ∧ ∀ e ∈ es, E e

/-- The same, and the registered endpoints have not changed. -/
structure Later (E : Event → Prop) (n m : Node) : Prop extends After E n m where
  agents : m.agents = n.agents

namespace After
variable {E E' : Event → Prop} {n m k : Node}

theorem refl (n : Node) : After E n n := ⟨rfl, Nat.le_refl _, id, fun _ _ => id, [], by simp, by simp⟩

theorem trans (h : After E n m) (h' : After E m k) : After E n k := by
  obtain ⟨es, h1, h2⟩ := h.events
  obtain ⟨es', h3, h4⟩ := h'.events
  refine ⟨h'.cfg.trans h.cfg, Nat.le_trans h.clock h'.clock, fun i => h'.inv (h.inv i),
    fun i bid hb => h'.known (h.inv i) bid (h.known i bid hb), es ++ es', by rw [h3, h1, List.append_assoc], ?_⟩
  intro e he
  rcases List.mem_append.mp he with he | he
  · exact h2 e he
  · exact h4 e he

theorem mono (h : After E n m) (hE : ∀ e, E e → E' e) : After E' n m :=
  ⟨h.cfg, h.clock, h.inv, h.known, by obtain ⟨es, h1, h2⟩ := h.events; exact ⟨es, h1, fun e he => hE e (h2 e he)⟩⟩

end After

namespace Later
variable {E E' : Event → Prop} {n m k : Node}

theorem refl (n : Node) : Later E n n := ⟨.refl n, rfl⟩

theorem trans (h : Later E n m) (h' : Later E m k) : Later E n k :=
  ⟨h.toAfter.trans h'.toAfter, h'.agents.trans h.agents⟩

theorem mono (h : Later E n m) (hE : ∀ e, E e → E' e) : Later E' n m := ⟨h.toAfter.mono hE, h.agents⟩

theorem time (n : Node) {t : Nat} (h : n.clock ≤ t) : Later E n (n.at t) :=
  ⟨⟨rfl, h, id, fun _ _ => id, [], by simp [Node.at], by simp⟩, rfl⟩

theorem log (n : Node) (e : Event) (h : E e) : Later E n (n.log e) :=
  ⟨⟨rfl, Nat.le_refl _, id, fun _ _ => id, [e], rfl, by simpa using h⟩, rfl⟩

theorem stats (n : Node) (s : Stats) : Later E n { n with stats := s } :=
  ⟨⟨rfl, Nat.le_refl _, id, fun _ _ => id, [], by simp, by simp⟩, rfl⟩

theorem push (n : Node) (b : Bundle) : Later E n (n.push b) :=
  ⟨⟨rfl, Nat.le_refl _, fun i => i.push _ _, fun i bid h => (Base.push n b).known bid h, [], by simp [Node.push], by simp⟩, rfl⟩

theorem update (n : Node) (bp : Pack) : Later E n { n with store := (n.store.updateMetadata bp).1 } :=
  ⟨⟨rfl, Nat.le_refl _, fun i => i.update _, fun _ bid h => (Base.update n bp).known bid h, [], by simp, by simp⟩, rfl⟩

theorem remove (n : Node) (bid : String) (c : Cause) (h : E (.removed bid c)) : Later E n (n.remove bid c) := by
  refine ⟨⟨?_, ?_, ?_, fun i => (Base.remove n i bid c).known, ?_⟩, ?_⟩
  · unfold Node.remove; split <;> rfl
  · unfold Node.remove; split <;> exact Nat.le_refl _
  · intro i; unfold Node.remove; split <;> exact i.remove _
  · unfold Node.remove
    split
    · exact ⟨[.removed bid c], rfl, by simpa using h⟩
    · exact ⟨[], by simp, by simp⟩
  · unfold Node.remove; split <;> rfl

theorem removeIfSingleton (n : Node) (b : Bundle) (h : ∀ c, E (.removed b.id c)) : Later E n (n.removeIfSingleton b) := by
  unfold Node.removeIfSingleton
  split
  · exact remove _ _ _ (h _)
  · exact refl _

end Later

/-- Is the event a status report? -/
def IsReport (e : Event) : Prop := ∃ r, e = .report r

/-- Is the event a status report or the removal of this bundle for this reason? -/
def IsReportOr (bid : String) (c : Cause) (e : Event) : Prop := IsReport e ∨ e = .removed bid c

theorem alone_read {k : Node → Prog} {n : Node} (h : ∀ t, n.clock ≤ t → Alone Q (k (n.at t)) (n.at t)) :
    Alone Q (.read k) n := .act h

theorem alone_set {f : Node → Node} {k : Prog} {n : Node} (h : ∀ t, n.clock ≤ t → Alone Q k (f (n.at t))) :
    Alone Q (.set f k) n := .act h

/-- The store is told about new constraints of a bundle it knows. -/
theorem alone_sync {bp : Pack} {c : Cause} {k : Node → Prog} {n : Node} (hb : bp.hasAny = true)
    (h : ∀ t, n.clock ≤ t → Alone Q (k (n.at t)) { n.at t with store := (n.store.updateMetadata bp).1 }) :
    Alone Q (.act (fun n => n.sync bp c) k) n := by
  refine .act fun t ht => ?_
  rw [sync_update hb]
  exact h t ht

theorem alone_sendReport {bp : Pack} {cause : Bundle} {pos : Pos} {reason : Reason} {k : Prog} {n : Node}
    (hk : ∀ m, Later IsReport n m → Alone Q k m) : Alone Q (sendReport bp cause pos reason k) n := by
  unfold sendReport
  split
  · exact hk n (.refl n)
  refine alone_read fun t ht => ?_
  split
  · exact hk _ (.time n ht)
  rename_i subject _
  refine alone_read fun t2 ht2 => ?_
  split
  · exact hk _ ((Later.time n ht).trans (.time _ ht2))
  refine .fresh fun bid => .act fun t3 ht3 => .act fun t4 ht4 => hk _ ?_
  rw [sync_update ((Pack.hasAny_iff _).mpr ⟨.forwardPending, by simp [Pack.has_add]⟩)]
  refine Later.trans ?_ (.update _ _)
  refine Later.trans ?_ (.time _ ht4)
  refine Later.trans ?_ (.log _ _ ⟨_, rfl⟩)
  refine Later.trans ?_ (.push _ _)
  exact ((Later.time n ht).trans (.time _ ht2)).trans (.time _ ht3)

theorem alone_reportIf {asked : Bool} {bp : Pack} {b : Bundle} {pos : Pos} {reason : Reason} {k : Prog} {n : Node}
    (hk : ∀ m, Later IsReport n m → Alone Q k m) : Alone Q (reportIf asked bp b pos reason k) n := by
  unfold reportIf
  refine alone_read fun t ht => ?_
  split
  · exact alone_sendReport fun m h => hk m ((Later.time n ht).trans h)
  · exact hk _ (.time n ht)

theorem getBundle_remove_self {n : Node} (i : n.store.Inv) (bid : String) (c : Cause) :
    (n.remove bid c).store.getBundle bid = none := by
  unfold Node.remove
  split <;> simp [Node.log, MemStore.getBundle_remove i]

/-- Deletion of a bundle: it is gone afterwards. -/
theorem alone_delete {bp : Pack} {reason : Reason} {cause : Cause} {k : Bool → Prog} {n : Node} (i : n.store.Inv)
    (hempty : bp.has .localEndpoint = false)
    (hk : ∀ ok m, Later (IsReportOr bp.id cause) n m → m.store.getBundle bp.id = none → Alone Q (k ok) m) :
    Alone Q (delete bp reason cause k) n := by
  have hany : bp.clear.hasAny = false := by
    cases hh : bp.clear.hasAny with
    | false => rfl
    | true =>
      obtain ⟨c, hc⟩ := (Pack.hasAny_iff _).mp hh
      rw [Pack.has_clear] at hc
      simp_all
  unfold delete
  refine alone_read fun t ht => ?_
  split
  · rename_i h; exact hk _ _ (.time n ht) h
  · refine alone_reportIf fun m hm => .act fun t2 ht2 => ?_
    have hm' : Later (IsReportOr bp.id cause) n (m.at t2) :=
      ((Later.time n ht).trans (hm.mono fun e h => .inl h)).trans (.time _ ht2)
    have hs : (m.at t2).sync bp.clear cause = (m.at t2).remove bp.id cause := by
      simp [Node.sync, hany]
    rw [hs]
    exact hk _ _ (hm'.trans (.remove _ _ _ (.inr rfl))) (getBundle_remove_self (hm'.inv i) _ _)

end Dtn.Proc
