import Verif.Spec.Cron
import Verif.Lemmas.ProcEnds
import Verif.Lemmas.Carried
/-! Lemmas about the janitor. -/

namespace Dtn.Cron
open Proc Spec

variable {su : Setup} {pc : PeerCfg}

/-- The tasks of the janitor. -/
def Phase.own : Phase → List Prog
  | .waiting => []
  | .round main started => main.toList ++ started
  | .stopped => []

theorem Reaches.join {s t u : Sys} (h : Reaches su s t) (g : Reaches su t u) : Reaches su s u := by
  induction g with
  | refl => exact h
  | step _ st ih => exact ih.step st

/-! ### All tasks together -/

theorem step_perm {w : World} {n n' : Node} {p q q' : List Prog} (h : Proc.Step w ⟨n, p⟩ ⟨n', q⟩) (hp : p.Perm q') :
    ∃ r, Proc.Step w ⟨n, q'⟩ ⟨n', r⟩ ∧ q.Perm r := by
  cases h with
  | task l r x _ _ ps h =>
    obtain ⟨l', r', rfl⟩ := List.append_of_mem (hp.subset (by simp : x ∈ l ++ x :: r))
    refine ⟨_, .task l' r' x n n' ps h, ?_⟩
    have h1 : (l ++ r).Perm (l' ++ r') := List.Perm.cons_inv ((List.perm_middle.symm.trans hp).trans List.perm_middle)
    have m : ∀ a b : List Prog, (a ++ ps ++ b).Perm (ps ++ (a ++ b)) := fun a b => by
      rw [← List.append_assoc]; exact List.Perm.append_right b List.perm_append_comm
    exact (m l r).trans ((List.Perm.append_left ps h1).trans (m l' r').symm)
  | call _ _ c h => exact ⟨_, .call n q' c h, hp.append_right _⟩
  | change _ _ _ h => exact ⟨_, .change n n' q' h, hp⟩

/-- The tasks of the node, in some order. -/
def Flat (cfg : Config) (clock : Nat) (s : Sys) : Prop :=
  ∃ pool, Proc.Reaches .any ⟨Node.start cfg clock, []⟩ ⟨s.node, pool⟩ ∧ (s.phase.own ++ s.others).Perm pool

theorem flat_of {n n' : Node} {p q pool : List Prog} (h : Proc.Step .any ⟨n, p⟩ ⟨n', q⟩) (hp : p.Perm pool) {s : Proc.Sys}
    (hr : Proc.Reaches .any s ⟨n, pool⟩) : ∃ pool', Proc.Reaches .any s ⟨n', pool'⟩ ∧ q.Perm pool' := by
  obtain ⟨r, h1, h2⟩ := step_perm h hp
  exact ⟨r, hr.step h1, h2⟩

/-- Every step is a step of the node, without regard to which task belongs to whom. -/
theorem step_flat {s t : Sys} (h : Step (.mem pc) s t) {s0 : Proc.Sys} {pool : List Prog} (hr : Proc.Reaches .any s0 ⟨s.node, pool⟩)
    (hp : (s.phase.own ++ s.others).Perm pool) :
    ∃ pool', Proc.Reaches .any s0 ⟨t.node, pool'⟩ ∧ (t.phase.own ++ t.others).Perm pool' ∧
      Proc.Reaches .any ⟨s.node, pool⟩ ⟨t.node, pool'⟩ := by
  have one : ∀ {n' : Node} {q : List Prog}, Proc.Step .any ⟨s.node, s.phase.own ++ s.others⟩ ⟨n', q⟩ →
      ∃ pool', Proc.Reaches .any s0 ⟨n', pool'⟩ ∧ q.Perm pool' ∧ Proc.Reaches .any ⟨s.node, pool⟩ ⟨n', pool'⟩ := by
    intro n' q h
    obtain ⟨r, h1, h2⟩ := step_perm h hp
    exact ⟨r, hr.step h1, h2, .step (.refl _) h1⟩
  rcases h with h | h
  · cases h with
    | tick n others =>
      have s1 : Proc.Step .any ⟨n, pool⟩ ⟨dropPeers pc n, pool⟩ := .change _ _ _ (.peers _ _)
      have s2 : Proc.Step .any ⟨dropPeers pc n, pool⟩ ⟨(dropPeers pc n).log (.called .janitor), pool ++ [Call.janitor.prog]⟩ :=
        .call _ _ _ trivial
      refine ⟨_, (hr.step s1).step s2, ?_, (Proc.Reaches.refl _ |>.step s1).step s2⟩
      exact (List.perm_append_comm (l₁ := [Call.janitor.prog])).trans (hp.append_right _)
    | main n n' p k new started others h =>
      have := one (Proc.Step.task (w := .any) [] (started ++ others) p n n' (k :: new) h)
      simpa [Phase.own] using this
    | returned n ok started others =>
      have := one (Proc.Step.task (w := .any) [] (started ++ others) _ n n _ (.done n ok))
      simpa [Phase.own] using this
    | panicked n started others =>
      have := one (Proc.Step.task (w := .any) [] (started ++ others) _ n n _ (.panic n))
      simpa [Phase.own] using this
    | started n n' main l r p ps others h =>
      refine one (n' := n') ?_
      have := Proc.Step.task (w := .any) (main.toList ++ l) (r ++ others) p n n' ps h
      simpa [Phase.own] using this
    | ended n others => exact ⟨pool, hr, hp, .refl _⟩
  · cases h with
    | task n n' ph l r p ps h =>
      refine one (n' := n') ?_
      have := Proc.Step.task (w := .any) (ph.own ++ l) r p n n' ps h
      simpa using this
    | call n ph others c h =>
      refine one ?_
      have := Proc.Step.call (w := .any) n (ph.own ++ others) c trivial
      simpa [Setup.mem] using this
    | change n n' ph others h => exact one (.change _ _ _ h)

theorem flat_reaches {cfg : Config} {clock : Nat} {s : Sys} (h : Reaches (.mem pc) (start cfg clock) s) : Flat cfg clock s := by
  induction h with
  | refl => exact ⟨[], .refl _, .refl _⟩
  | step _ st ih =>
    obtain ⟨pool, h1, h2⟩ := ih
    obtain ⟨pool', k1, k2, -⟩ := step_flat st h1 h2
    exact ⟨pool', k1, k2⟩

theorem Flat.good {cfg : Config} {clock : Nat} {s : Sys} (h : Flat cfg clock s) : Good s.node ∧ s.node.cfg = cfg := by
  obtain ⟨pool, h1, -⟩ := h
  exact good_always h1

theorem Flat.base {cfg : Config} {clock : Nat} {s t : Sys} (h : Flat cfg clock s) (st : Step (.mem pc) s t) : Base s.node t.node := by
  obtain ⟨pool, h1, h2⟩ := h
  obtain ⟨pool', -, -, k⟩ := step_flat st h1 h2
  exact (any_good h1 k).1

/-! ### The task of the janitor does not panic -/

/-- In states with `I`, the task does not panic, whatever the tasks do that it starts. -/
def Steady (I : Node → Prop) : Prog → Prop
  | .done _ => True
  | .panic => False
  | .act _ k => ∀ m, I m → Steady I (k m)
  | .route _ k => ∀ a, Steady I (k a)
  | .choose k => ∀ b, Steady I (k b)
  | .fresh k => ∀ s, Steady I (k s)
  | .spawn _ k => Steady I k
  | .wait _ k => Steady I k

theorem steady_walks (I : Node → Prop) : Walks (fun _ _ => True) I (fun _ => True) (Steady I) where
  aside _ _ _ _ _ _ _ := trivial
  deliver _ _ _ _ := trivial
  pop _ _ := trivial
  act h m i := (h m i).2
  choose h := h
  fresh h := h
  spawn _ h := h
  wait h := h
  route _ _ h := h

theorem steady_janitor {I : Node → Prop} (h : ∀ n, I n → n.cfg.parallel = true ∨ ∀ m, I m → AllReadable m) :
    Steady I Call.janitor.prog := by
  have W := (steady_walks I).calm fun _ _ => trivial
  refine W.read fun m => W.sweep (W.read fun m => ?_) _
  split
  · trivial
  · refine W.read fun m => W.collect (fun l => W.readJ fun m i => ?_) _ _
    generalize l.mergeSort _ = l
    induction l with
    | nil => trivial
    | cons bp bps ih =>
      unfold forwardAll
      split
      · exact ih
      · rename_i hp
        refine W.forward ?_ fun _ => ih
        intro m' b host i' hb hn
        exact absurd hn (readable_set ((h m i).resolve_left hp m' i' _ _ hb) host)

theorem Steady.step {I : Node → Prop} {n n' : Node} {p k : Prog} {new : List Prog} (h : Steady I p) (i : I n) (st : TaskStep n p n' (k :: new)) :
    Steady I k := by
  cases st with
  | act f k => exact h n i
  | route bp k a => exact h a
  | choose k b => exact h b
  | fresh k s => exact h s
  | spawn t k => exact h
  | wait c k hc => exact h

/-- The janitor has not stopped and is not about to. -/
def Runs (I : Node → Prop) : Phase → Prop
  | .waiting => True
  | .round main _ => ∀ p, main = some p → Steady I p
  | .stopped => False

theorem runs_step {I : Node → Prop} (hj : Steady I (su.task .janitor)) {s t : Sys} (st : Step su s t) (i : I s.node) (h : Runs I s.phase) :
    Runs I t.phase := by
  rcases st with st | st
  · cases st with
    | tick n others => rintro p ⟨⟩; exact hj
    | main n n' p k new started others st => rintro _ ⟨⟩; exact (h _ rfl).step i st
    | returned n ok started others => rintro _ ⟨⟩
    | panicked n started others => exact (h _ rfl).elim
    | started n n' main l r p ps others st => exact h
    | ended n others => trivial
  · cases st <;> exact h

theorem Runs.not_stopped {I : Node → Prop} {ph : Phase} (h : Runs I ph) : ph ≠ .stopped := by
  rintro rfl; exact h

/-! ### Runs come to an end -/

/-- The tasks of calls wait for nothing but their own transfers. -/
def Setup.Fair (su : Setup) : Prop := ∀ (c : Call) (L : Nat) (O : Nat → Prop), Owes (su.task c) L O 0

theorem fair_mem (pc : PeerCfg) : (Setup.mem pc).Fair := owes_call

/-- The tasks of the janitor wait for nothing but their own transfers, whatever the others do, and tasks of an earlier process that
never make a step again. -/
def Held (s : Sys) : Prop := ∃ dead, Served ⟨s.node, dead, s.phase.own, s.others⟩

theorem served_leave {n : Node} {a own b : List Prog} (h : Served ⟨n, a, own, b⟩) : Served ⟨n, a, [], own ++ b⟩ := by
  obtain ⟨O, O', da, dm, db, h1, h2, h3, h4, h5, h6, h7, h8⟩ := h
  dsimp only at *
  refine ⟨fun _ => False, fun g => O g ∨ O' g, da, 0, dm + db, fun _ h _ => h, fun g h => h2 g (h.resolve_left id), h3.mono (Nat.le_refl _) fun _ h => .inr h,
    .nil, (h4.mono (Nat.le_refl _) fun _ h => .inl h).append (h5.mono (Nat.le_refl _) fun _ h => .inr h), fun g => ?_, fun g h => absurd rfl h, ?_⟩
  · have := h6 g; simp only [Pi.add_apply, Pi.zero_apply]; omega
  · rintro g (h | h)
    · exact .inr (h8 g (.inl h))
    · simp only [Pi.add_apply] at h
      by_cases hz : dm g = 0
      · exact .inr (h8 g (.inr (by omega)))
      · exact .inl (h7 g hz)

theorem served_start (hf : su.Fair) {n : Node} {a b : List Prog} (c : Call) (h : Served ⟨n, a, [], b⟩) : Served ⟨n.log (.called c), a, [su.task c], b⟩ := by
  obtain ⟨O, O', da, dm, db, h1, h2, h3, h4, h5, h6, h7, h8⟩ := h
  dsimp only at *
  cases h4
  exact ⟨O, O', da, 0 + 0, db, h1, h2, h3, .cons (hf c _ _) .nil, h5, h6, h7, h8⟩

theorem held_own (hf : su.Fair) {s t : Sys} (h : Own su s t) (hs : Held s) : Held t := by
  obtain ⟨dead, hs⟩ := hs
  refine ⟨dead, ?_⟩
  cases h with
  | tick n others => exact served_start hf .janitor (Served.other hs (.change _ _ _ _ _ (.peers n _)))
  | main n n' p k new started others h =>
    have := hs.own (.mk dead others [] started p n n' (k :: new) h)
    simpa [Phase.own] using this
  | returned n ok started others =>
    have := hs.own (.mk dead others [] started _ n n _ (.done n ok))
    simpa [Phase.own] using this
  | panicked n started others =>
    have := served_leave (hs.own (.mk dead others [] started _ n n _ (.panic n)))
    simpa [Phase.own] using this
  | started n n' main l r p ps others h =>
    have := Served.own (s := ⟨n, dead, (main.toList ++ l) ++ p :: r, others⟩) (by simpa [Phase.own] using hs) (.mk dead others (main.toList ++ l) r p n n' ps h)
    simpa [Phase.own] using this
  | ended n others => exact hs

theorem held_other (hf : su.Fair) {s t : Sys} (h : Other su s t) (hs : Held s) : Held t := by
  obtain ⟨dead, hs⟩ := hs
  refine ⟨dead, ?_⟩
  cases h with
  | task n n' ph l r p ps h => exact hs.other (.after dead ph.own l r p n n' ps h)
  | call n ph others c h =>
    obtain ⟨O, O', da, dm, db, hdis, hlt, ha, hm, hb, hr, hO, hO'⟩ := hs
    exact ⟨O, O', da, dm, db + 0, hdis, hlt, ha, hm, hb.append (.cons (hf c _ _) .nil), hr, hO, hO'⟩
  | change n n' ph others h => exact hs.other (.change n n' dead ph.own others h)

theorem held_step (hf : su.Fair) {s t : Sys} (h : Step su s t) (hs : Held s) : Held t := h.elim (held_own hf · hs) (held_other hf · hs)

theorem held_reaches (hf : su.Fair) {s t : Sys} (h : Reaches su s t) (hs : Held s) : Held t := by
  induction h with
  | refl => exact hs
  | step _ st ih => exact held_step hf st ih

theorem held_start (cfg : Config) (clock : Nat) : Held (start cfg clock) := ⟨[], served_reaches (.refl _)⟩

/-- As long as it has not stopped, the janitor is not blocked. -/
theorem own_step {s : Sys} (hv : Held s) (hs : s.phase ≠ .stopped) : ∃ t, Own su s t := by
  obtain ⟨n, ph, others⟩ := s
  cases ph with
  | waiting => exact ⟨_, .tick n others⟩
  | stopped => exact absurd rfl hs
  | round main started =>
    by_cases hl : (Phase.round main started).own = []
    · simp only [Phase.own, List.append_eq_nil_iff, Option.toList_eq_nil_iff] at hl
      obtain ⟨rfl, rfl⟩ := hl
      exact ⟨_, .ended n others⟩
    · obtain ⟨dead, hv⟩ := hv
      obtain ⟨u, hu⟩ := hv.steps hl
      generalize hf : (⟨n, dead, (Phase.round main started).own, others⟩ : Followed) = s at hu
      cases hu with
      | mk a b l r p n0 n' ps h =>
        simp only [Phase.own, Followed.mk.injEq] at hf
        obtain ⟨rfl, rfl, hl, rfl⟩ := hf
        cases main with
        | none =>
          simp only [Option.toList_none, List.nil_append] at hl
          subst hl
          exact ⟨_, .started _ _ _ _ _ _ _ _ h⟩
        | some q =>
          cases l with
          | nil =>
            simp only [Option.toList_some, List.cons_append, List.nil_append, List.cons.injEq] at hl
            obtain ⟨rfl, rfl⟩ := hl
            cases h with
            | done => exact ⟨_, .returned _ _ _ _⟩
            | panic => exact ⟨_, .panicked _ _ _⟩
            | act f k => exact ⟨_, .main _ _ _ _ _ _ _ (.act n f k)⟩
            | route bp k a => exact ⟨_, .main _ _ _ _ _ _ _ (.route n bp k a)⟩
            | choose k b => exact ⟨_, .main _ _ _ _ _ _ _ (.choose n k b)⟩
            | fresh k x => exact ⟨_, .main _ _ _ _ _ _ _ (.fresh n k x)⟩
            | spawn t k => exact ⟨_, .main _ _ _ _ _ _ _ (.spawn n t k)⟩
            | wait c k hc => exact ⟨_, .main _ _ _ _ _ _ _ (.wait n c k hc)⟩
          | cons x l =>
            simp only [Option.toList_some, List.cons_append, List.nil_append, List.cons.injEq] at hl
            obtain ⟨rfl, rfl⟩ := hl
            exact ⟨_, .started _ _ _ _ _ _ _ _ h⟩

/-- A step of the janitor within a run. -/
theorem own_less {s t : Sys} (h : Own su s t) (hs : s.phase ≠ .waiting) (he : t.phase ≠ .waiting) (hp : t.phase ≠ .stopped) :
    Less t.phase.own s.phase.own := by
  cases h with
  | tick n others => exact absurd rfl hs
  | main n n' p k new started others h => simpa [Phase.own] using less_step h [] started
  | returned n ok started others => simpa [Phase.own] using less_step (.done n ok) [] started
  | panicked n started others => exact absurd rfl hp
  | started n n' main l r p ps others h => simpa [Phase.own] using less_step h (main.toList ++ l) r
  | ended n others => exact absurd rfl he

theorem other_phase {s t : Sys} (h : Other su s t) : t.phase = s.phase := by cases h <;> rfl

theorem run_reaches {f : Nat → Sys} (run : JanitorRun su f) (i : Nat) : ∀ j, Reaches su (f i) (f (i + j)) := by
  intro j
  induction j with
  | zero => exact .refl _
  | succ j ih => exact ih.step (run.steps _)

/-- Sooner or later the janitor waits for the timer, or has stopped. -/
theorem rests {f : Nat → Sys} (held : ∀ i, Held (f i)) (run : JanitorRun su f) (i : Nat) :
    ∃ j, i ≤ j ∧ ((f j).phase = .waiting ∨ (f j).phase = .stopped) := by
  have : ∀ (l : List Prog) i, (f i).phase.own = l → ∃ j, i ≤ j ∧ ((f j).phase = .waiting ∨ (f j).phase = .stopped) := by
    intro l
    induction l using less_wf.induction with
    | h l ih =>
      intro i hi
      by_cases hw : (f i).phase = .waiting
      · exact ⟨i, Nat.le_refl _, .inl hw⟩
      by_cases hs : (f i).phase = .stopped
      · exact ⟨i, Nat.le_refl _, .inr hs⟩
      obtain ⟨j, hij, hj⟩ := run.fair i (own_step (held i) hs)
      obtain ⟨k, rfl⟩ := Nat.exists_eq_add_of_le hij
      clear hij
      have first : ∀ {i}, (f i).phase.own = l → (f i).phase ≠ .waiting → Own su (f i) (f (i + 1)) →
          ∃ j, i ≤ j ∧ ((f j).phase = .waiting ∨ (f j).phase = .stopped) := by
        intro i hi hw h
        by_cases h1 : (f (i + 1)).phase = .waiting
        · exact ⟨i + 1, by omega, .inl h1⟩
        by_cases h2 : (f (i + 1)).phase = .stopped
        · exact ⟨i + 1, by omega, .inr h2⟩
        obtain ⟨j, k1, k2⟩ := ih _ (by rw [← hi]; exact own_less h hw h1 h2) (i + 1) rfl
        exact ⟨j, by omega, k2⟩
      induction k generalizing i with
      | zero => exact first hi hw hj
      | succ k ihk =>
        rcases run.steps i with h | h
        · exact first hi hw h
        · have hp := other_phase h
          obtain ⟨j, k1, k2⟩ := ihk (i + 1) (by rw [hp, hi]) (by rw [hp]; exact hw) (by rw [hp]; exact hs)
            (by rw [show i + 1 + k = i + (k + 1) by omega]; exact hj)
          exact ⟨j, by omega, k2⟩
  exact this _ i rfl

/-- From waiting, the janitor begins a run. -/
theorem begins {f : Nat → Sys} (run : JanitorRun su f) {i : Nat} (h : (f i).phase = .waiting) :
    ∃ j n others, i ≤ j ∧ f j = ⟨n, .waiting, others⟩ ∧ f (j + 1) = ⟨(dropPeers su.peers n).log (.called .janitor), .round (some (su.task .janitor)) [], others⟩ := by
  have en : ∃ t, Own su (f i) t := by
    generalize f i = s at h
    obtain ⟨n, ph, others⟩ := s
    cases h
    exact ⟨_, .tick n others⟩
  obtain ⟨j, hij, hj⟩ := run.fair i en
  obtain ⟨k, rfl⟩ := Nat.exists_eq_add_of_le hij
  clear hij en
  have first : ∀ {i}, (f i).phase = .waiting → Own su (f i) (f (i + 1)) →
      ∃ j n others, i ≤ j ∧ f j = ⟨n, .waiting, others⟩ ∧ f (j + 1) = ⟨(dropPeers su.peers n).log (.called .janitor), .round (some (su.task .janitor)) [], others⟩ := by
    intro i h hj
    generalize hs : f i = s at h hj
    generalize ht : f (i + 1) = t at hj
    cases hj with
    | tick n others => exact ⟨i, n, others, Nat.le_refl _, hs, ht⟩
    | _ => cases h
  induction k generalizing i with
  | zero => exact first h hj
  | succ k ihk =>
    rcases run.steps i with h' | h'
    · exact first h h'
    · obtain ⟨j, n, o, k1, k2⟩ := ihk (i := i + 1) (by rw [other_phase h']; exact h) (by rw [show i + 1 + k = i + (k + 1) by omega]; exact hj)
      exact ⟨j, n, o, by omega, k2⟩

/-- Again and again the janitor begins a run, if it has not stopped. -/
theorem begins_again {f : Nat → Sys} (held : ∀ i, Held (f i)) (run : JanitorRun su f)
    (on : ∀ i, (f i).phase ≠ .stopped) (i : Nat) : ∃ j n others, i ≤ j ∧ f j = ⟨n, .waiting, others⟩ ∧
      f (j + 1) = ⟨(dropPeers su.peers n).log (.called .janitor), .round (some (su.task .janitor)) [], others⟩ := by
  obtain ⟨j, h1, h2⟩ := rests held run i
  obtain ⟨k, n, o, h3, h4⟩ := begins run (h2.resolve_right (on j))
  exact ⟨k, n, o, by omega, h4⟩

/-! ### What a run owes -/

theorem will_step {I D : Node → Prop} {s t : Sys} (hD : ∀ n m, Base n m → D n → D m) (st : Step su s t) (b : Base s.node t.node)
    (ht : t.phase ≠ .stopped) (i : I s.node) (i' : I t.node)
    (h : D s.node ∨ ∃ p ∈ s.phase.own, Will I D p s.node) : D t.node ∨ ∃ p ∈ t.phase.own, Will I D p t.node := by
  rcases h with h | ⟨p, hp, hw⟩
  · exact .inl (hD _ _ b h)
  · rcases st with st | st
    · cases st with
      | tick n others => cases hp
      | main n n' q k new started others st =>
        simp only [Phase.own, Option.toList_some, List.singleton_append, List.mem_cons] at hp
        rcases hp with rfl | hp
        · exact (hw.step st b i i').imp id fun ⟨x, hx, h⟩ => ⟨x, by simpa [Phase.own, or_assoc] using Or.inl (List.mem_cons.mp hx), h⟩
        · exact .inr ⟨p, by simp [Phase.own, hp], hw.mono b⟩
      | returned n ok started others =>
        simp only [Phase.own, Option.toList_some, List.singleton_append, List.mem_cons] at hp
        rcases hp with rfl | hp
        · exact .inl (hw n (.refl _) i)
        · exact .inr ⟨p, by simp [Phase.own, hp], hw⟩
      | panicked n started others => exact absurd rfl ht
      | started n n' main l r q ps others st =>
        simp only [Phase.own, List.mem_append, List.mem_cons] at hp
        rcases hp with hp | hp | rfl | hp
        · exact .inr ⟨p, by simp only [Phase.own, List.mem_append]; simp [hp], hw.mono b⟩
        · exact .inr ⟨p, by simp only [Phase.own, List.mem_append]; simp [hp], hw.mono b⟩
        · exact (hw.step st b i i').imp id fun ⟨x, hx, h⟩ => ⟨x, by simp only [Phase.own, List.mem_append]; simp [hx], h⟩
        · exact .inr ⟨p, by simp only [Phase.own, List.mem_append]; simp [hp], hw.mono b⟩
      | ended n others => cases hp
    · rw [other_phase st]; exact .inr ⟨p, hp, hw.mono b⟩

/-- What the janitor owes when a run begins is done when the run has ended, and so again and again. -/
theorem owed_again {f : Nat → Sys} (held : ∀ i, Held (f i)) (base : ∀ i, Base (f i).node (f (i + 1)).node) (run : JanitorRun su f)
    (on : ∀ i, (f i).phase ≠ .stopped) {i : Nat} {I : Node → Prop} {D : Node → Node → Prop} (hI : ∀ j, i ≤ j → I (f j).node)
    (hD : ∀ n0 n m, Base n m → D n0 n → D n0 m)
    (owes : ∀ n0 : Node, Will (fun m => I m ∧ n0.events <+: m.events) (D n0) (su.task .janitor) n0) :
    ∃ j k, i ≤ j ∧ j ≤ k ∧ D (f j).node (f k).node := by
  obtain ⟨j, n, o, hij, h1, h2⟩ := begins_again held run on i
  have past : ∀ k, Base (f (j + 1)).node (f (j + 1 + k)).node := by
    intro k
    induction k with
    | zero => exact .refl _
    | succ k ih => exact ih.trans (base _)
  have all : ∀ k, D (f (j + 1)).node (f (j + 1 + k)).node ∨
      ∃ p ∈ (f (j + 1 + k)).phase.own, Will (fun m => I m ∧ (f (j + 1)).node.events <+: m.events) (D (f (j + 1)).node) p (f (j + 1 + k)).node := by
    have inv : ∀ k, I (f (j + 1 + k)).node ∧ (f (j + 1)).node.events <+: (f (j + 1 + k)).node.events :=
      fun k => ⟨hI _ (by omega), (past k).past⟩
    intro k
    induction k with
    | zero =>
      refine .inr ⟨_, ?_, owes _⟩
      rw [Nat.add_zero, h2]; exact List.mem_singleton.mpr rfl
    | succ k ih => exact will_step (hD _) (run.steps _) (base _) (on _) (inv k) (inv (k + 1)) ih
  obtain ⟨k, h3, h4⟩ := rests held run (j + 1)
  obtain ⟨k, rfl⟩ := Nat.exists_eq_add_of_le h3
  rcases all k with h | ⟨p, hp, -⟩
  · exact ⟨j + 1, j + 1 + k, by omega, h3, h⟩
  · rw [h4.resolve_right (on _)] at hp; cases hp

theorem will_sweep {I D : Node → Prop} {bid : String} {T : Nat} (hI : ∀ m, I m → m.store.getBundle bid ≠ none ∧ m.store.Inv ∧ T ≤ m.dtnNow)
    {p : Pack} (hid : p.id = bid) (hp : p.creationTime + p.lifetime < 2 ^ 64) (hx : Expired T p) {k : Prog} :
    ∀ (ms : List Pack), p ∈ ms → ∀ n, Will I D (sweep ms k) n := by
  intro ms
  induction ms with
  | nil => intro h; cases h
  | cons q ms ih =>
    intro h n
    unfold sweep
    refine will_read fun m _ im => ?_
    by_cases hq : q.hasExpired m.dtnNow = true
    · rw [if_pos hq]
      dsimp only
      refine will_set fun m2 _ i2 _ i2' => ?_
      rcases List.mem_cons.mp h with rfl | h
      · exfalso
        refine (hI _ i2').1 ?_
        have : (m2.store.remove p.id).1.getBundle bid = none := by rw [MemStore.getBundle_remove (hI m2 i2).2.1, hid]; simp
        unfold Node.remove
        split <;> exact this
      · exact ih h _
    · rw [if_neg hq]
      rcases List.mem_cons.mp h with rfl | h
      · exfalso
        refine hq ?_
        unfold Pack.hasExpired
        rw [if_neg hx.1, Nat.mod_eq_of_lt (show _ < u64 from hp)]
        have := (hI m im).2.2
        have := hx.2
        simp only [decide_eq_true_eq]
        omega
      · exact ih h _

/-- A run of the janitor leaves no bundle in the store that was overdue all the time. -/
theorem will_expired {I D : Node → Prop} {bid : String} {T : Nat}
    (hI : ∀ m, I m → m.store.getBundle bid ≠ none ∧ m.store.Inv ∧ Overdue bid T m) (n : Node) : Will I D Call.janitor.prog n := by
  refine will_read fun m _ im => ?_
  obtain ⟨h1, h2, ⟨p, h3, h4, h5, h6⟩, h7⟩ := hI m im
  have hid := h2.metaId _ _ h3
  refine will_sweep (fun m i => ⟨(hI m i).1, (hI m i).2.1, (hI m i).2.2.2⟩) hid h5 h6 _ (List.mem_filter.mpr ⟨?_, by rw [h4]; rfl⟩) _
  exact (MemStore.mem_packs_iff h2 p).mpr (by rw [hid]; exact h3)

/-! ### What a stopped janitor does not do -/

/-- The task makes no calls. -/
def NoCalls : Prog → Prop
  | .done _ => True
  | .panic => True
  | .act f k => ∀ m, (∃ es, (f m).events = m.events ++ es ∧ ∀ c, .called c ∉ es) ∧ NoCalls (k m)
  | .route _ k => ∀ a, NoCalls (k a)
  | .choose k => ∀ b, NoCalls (k b)
  | .fresh k => ∀ s, NoCalls (k s)
  | .spawn t k => NoCalls t ∧ NoCalls k
  | .wait _ k => NoCalls k

theorem noCalls_walks : Walks (fun n m => ∃ es, m.events = n.events ++ es ∧ ∀ c, .called c ∉ es) (fun _ => True) NoCalls NoCalls where
  aside _ _ es _ _ he hs := ⟨es, he, fun _ h => hs _ h⟩
  deliver n e b room := by
    unfold Node.deliver
    split
    · exact ⟨[], by simp, by simp⟩
    · exact ⟨[_], rfl, by simp⟩
  pop n e := by
    unfold Node.popAgent
    split
    · exact ⟨[], by simp, by simp⟩
    · split
      · exact ⟨[], by simp, by simp⟩
      · exact ⟨[_], rfl, by simp⟩
  act h m := h m trivial
  choose h := h
  fresh h := h
  spawn h h' := ⟨h, h'⟩
  wait h := h
  route bp k h := h

theorem noCalls_step {n n' : Node} {p : Prog} {ps : List Prog} (h : TaskStep n p n' ps) (hp : NoCalls p) :
    (∃ es, n'.events = n.events ++ es ∧ ∀ c, .called c ∉ es) ∧ ∀ q ∈ ps, NoCalls q := by
  cases h with
  | done | panic => exact ⟨⟨[], by simp, by simp⟩, by simp⟩
  | act f k => exact ⟨(hp n).1, by simpa using (hp n).2⟩
  | route bp k a => exact ⟨⟨[_], rfl, by simp⟩, by simpa using hp a⟩
  | choose k b => exact ⟨⟨[], by simp, by simp⟩, by simpa using hp b⟩
  | fresh k b => exact ⟨⟨[], by simp, by simp⟩, by simpa using hp b⟩
  | spawn t k => exact ⟨⟨[], by simp, by simp⟩, by simpa using ⟨hp.2, hp.1⟩⟩
  | wait c k hc => exact ⟨⟨[], by simp, by simp⟩, by simp only [List.mem_singleton, forall_eq]; exact hp⟩

theorem noCalls_call (c : Call) : NoCalls c.prog := noCalls_walks.call (fun _ => trivial) trivial c

/-- Tasks of calls make no calls. -/
def Setup.Plain (su : Setup) : Prop := ∀ c, NoCalls (su.task c)

theorem plain_mem (pc : PeerCfg) : (Setup.mem pc).Plain := noCalls_call

theorem noCalls_cron (hc : su.Plain) {s t : Sys} (st : Step su s t) (h : ∀ p ∈ s.phase.own ++ s.others, NoCalls p) :
    ∀ p ∈ t.phase.own ++ t.others, NoCalls p := by
  have sub : ∀ {n n' : Node} {p : Prog} {ps l r : List Prog}, TaskStep n p n' ps → (∀ q ∈ l ++ p :: r, NoCalls q) → ∀ q ∈ l ++ ps ++ r, NoCalls q := by
    intro n n' p ps l r st h q hq
    simp only [List.mem_append] at hq
    rcases hq with (hq | hq) | hq
    · exact h q (by simp [hq])
    · exact (noCalls_step st (h p (by simp))).2 q hq
    · exact h q (by simp [hq])
  rcases st with st | st
  · cases st with
    | tick n others =>
      intro q hq
      rcases List.mem_append.mp hq with hq | hq
      · rw [List.mem_singleton.mp hq]; exact hc .janitor
      · exact h q hq
    | main n n' p k new started others st =>
      have := sub (l := []) (r := started ++ others) st (by simpa [Phase.own] using h)
      simpa [Phase.own] using this
    | returned n ok started others => exact fun q hq => h q (by simp only [Phase.own] at hq ⊢; simp at hq ⊢; exact .inr hq)
    | panicked n started others => exact fun q hq => h q (by simp only [Phase.own] at hq ⊢; simp at hq ⊢; exact .inr hq)
    | started n n' main l r p ps others st =>
      have := sub (l := main.toList ++ l) (r := r ++ others) st (by simpa [Phase.own] using h)
      simpa [Phase.own] using this
    | ended n others => exact h
  · cases st with
    | task n n' ph l r p ps st =>
      have := sub (l := ph.own ++ l) (r := r) st (by simpa using h)
      simpa using this
    | call n ph others c _ =>
      intro q hq
      simp only [List.mem_append, List.mem_singleton] at hq
      rcases hq with hq | hq | rfl
      · exact h q (by simp [hq])
      · exact h q (by simp [hq])
      · exact hc c
    | change n n' ph others _ => exact h

theorem noCalls_reaches (hc : su.Plain) {s t : Sys} (h : Reaches su s t) (h0 : ∀ p ∈ s.phase.own ++ s.others, NoCalls p) :
    ∀ p ∈ t.phase.own ++ t.others, NoCalls p := by
  induction h with
  | refl => exact h0
  | step _ st ih => exact noCalls_cron hc st ih

/-- A janitor that has stopped never runs again. -/
theorem stopped_step {s t : Sys} (st : Step su s t) (hs : s.phase = .stopped) (h : ∀ p ∈ s.others, NoCalls p) :
    t.phase = .stopped ∧ ∃ es, t.node.events = s.node.events ++ es ∧ .called .janitor ∉ es := by
  rcases st with st | st
  · cases st <;> cases hs
  · refine ⟨by rw [other_phase st, hs], ?_⟩
    cases st with
    | task n n' ph l r p ps st =>
      obtain ⟨⟨es, h1, h2⟩, -⟩ := noCalls_step st (h p (by simp))
      exact ⟨es, h1, h2 _⟩
    | call n ph others c hc => exact ⟨[.called c], rfl, by simpa using fun h => hc h.symm⟩
    | change n n' ph others hc => exact ⟨[], by cases hc <;> simp, by simp⟩

/-- Only the timer calls the janitor. -/
theorem calls_janitor {s t : Sys} (h : ∀ p ∈ s.phase.own ++ s.others, NoCalls p) (st : Step su s t)
    (new : .called .janitor ∈ newEvents s.node t.node) : ∃ n others, s = ⟨n, .waiting, others⟩ ∧
      t = ⟨(dropPeers su.peers n).log (.called .janitor), .round (some (su.task .janitor)) [], others⟩ := by
  have no : ∀ {n m : Node} {es : List Event}, m.events = n.events ++ es → .called .janitor ∈ newEvents n m → .called .janitor ∉ es → False :=
    fun h1 h2 h3 => h3 (by rwa [newEvents_eq h1] at h2)
  rcases st with st | st
  · cases st with
    | tick n others => exact ⟨n, others, rfl, rfl⟩
    | main n n' p k ns started others st =>
      obtain ⟨⟨es, h1, h2⟩, -⟩ := noCalls_step st (h p (by simp [Phase.own]))
      exact (no h1 new (h2 _)).elim
    | returned n ok started others => exact (no (es := []) (by simp) new (by simp)).elim
    | panicked n started others => exact (no (es := []) (by simp) new (by simp)).elim
    | started n n' main l r p ps others st =>
      obtain ⟨⟨es, h1, h2⟩, -⟩ := noCalls_step st (h p (by simp [Phase.own]))
      exact (no h1 new (h2 _)).elim
    | ended n others => exact (no (es := []) (by simp) new (by simp)).elim
  · cases st with
    | task n n' ph l r p ps st =>
      obtain ⟨⟨es, h1, h2⟩, -⟩ := noCalls_step st (h p (by simp))
      exact (no h1 new (h2 _)).elim
    | call n ph others c hc => exact (no (es := [.called c]) rfl new (by simpa using fun h => hc h.symm)).elim
    | change n n' ph others hc => exact (no (es := []) (by cases hc <;> simp) new (by simp)).elim

end Dtn.Cron
