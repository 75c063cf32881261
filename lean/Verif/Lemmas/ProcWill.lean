import Verif.Lemmas.ProcWalks
import Verif.Lemmas.ProcRemoved
import Verif.Spec.Carried
/-! A logic for what must happen: a task owes something, whatever the other tasks do. -/

namespace Dtn.Proc
open Routing (Notification Answer)
open Spec

attribute [local irreducible] RG

/-- As long as `I` holds, the task with all tasks it starts makes `D` true before it ends, whatever the others do. -/
def Will (I D : Node → Prop) : Prog → Node → Prop
  | .done _, n => ∀ m, Base n m → I m → D m
  | .panic, n => ∀ m, Base n m → I m → D m
  | .act f k, n => ∀ m, Base n m → I m → Base m (f m) → I (f m) → D (f m) ∨ Will I D (k m) (f m)
  | .route bp k, n => ∀ m, Base n m → I m → ∀ a, D (m.log (.asked bp a)) ∨ Will I D (k a) (m.log (.asked bp a))
  | .choose k, n => ∀ b, Will I D (k b) n
  | .fresh k, n => ∀ s, Will I D (k s) n
  | .spawn t k, n => Will I D t n ∨ Will I D k n
  | .wait _ k, n => Will I D k n

variable {I D : Node → Prop} {n m : Node}

theorem Will.mono {p : Prog} : ∀ {n m : Node}, Will I D p n → Base n m → Will I D p m := by
  induction p with
  | done | panic => intro n m h b m' b' i; exact h m' (b.trans b') i
  | act f k ih => intro n m h b m' b' i; exact h m' (b.trans b') i
  | route bp k ih => intro n m h b m' b' i; exact h m' (b.trans b') i
  | choose k ih => intro n m h b x; exact ih x (h x) b
  | fresh k ih => intro n m h b x; exact ih x (h x) b
  | spawn t k iht ihk => intro n m h b; exact h.imp (iht · b) (ihk · b)
  | wait c k ih => intro n m h b; exact ih h b

/-- One step of a task that owes something. -/
theorem Will.step {p : Prog} {ps : List Prog} (h : Will I D p n) (s : TaskStep n p m ps) (b : Base n m) (i : I n) (i' : I m) :
    D m ∨ ∃ q ∈ ps, Will I D q m := by
  cases s with
  | done | panic => exact .inl (h _ b i)
  | act f k => exact (h n (.refl _) i b i').imp id fun h => ⟨_, List.mem_singleton.mpr rfl, h⟩
  | route bp k a => exact (h n (.refl _) i a).imp id fun h => ⟨_, List.mem_singleton.mpr rfl, h⟩
  | choose k x => exact .inr ⟨_, List.mem_singleton.mpr rfl, h x⟩
  | fresh k x => exact .inr ⟨_, List.mem_singleton.mpr rfl, h x⟩
  | spawn t k => exact .inr (h.elim (fun h => ⟨t, by simp, h⟩) fun h => ⟨k, by simp, h⟩)
  | wait c k => exact .inr ⟨_, List.mem_singleton.mpr rfl, h⟩

/-- All programs in the pool of a system that has run from the start follow the rules. -/
theorem any_good {cfg : Config} {clock : Nat} {s t : Sys} (before : Reaches .any ⟨Node.start cfg clock, []⟩ s)
    (run : Reaches .any s t) : Base s.node t.node ∧ Good t.node ∧ ∀ p ∈ t.pool, RG Good Base p (fun _ _ => True) t.node := by
  have hc : ∀ c, World.any.call c → ∀ n, Good n → (Base n (n.log (.called c)) ∧ Good (n.log (.called c))) ∧
      RG Good Base c.prog (fun _ _ => True) (n.log (.called c)) := fun c _ n i => ⟨⟨.log _ _, Good.acts.called n c i⟩, rg_call Good.acts c⟩
  have ho : ∀ n m, World.any.change n m → Good n → Base n m ∧ Good m := fun n m o i => ⟨.outside o, .outside o i⟩
  obtain ⟨-, g, p⟩ := RG.reaches Base.refl (fun _ _ _ => Base.trans) hc ho before (.start _ _) (by simp)
  exact RG.reaches Base.refl (fun _ _ _ => Base.trans) hc ho run g p

theorem _root_.Dtn.Spec.Throughout.reaches {w : World} {s t : Sys} (h : Throughout w I s t) : Reaches w s t := by
  induction h with
  | refl => exact .refl _
  | step _ hs _ ih => exact ih.step hs

theorem _root_.Dtn.Spec.Throughout.last {w : World} {s t : Sys} (h : Throughout w I s t) : I t.node := by
  cases h <;> assumption

theorem _root_.Dtn.Spec.Throughout.head {w : World} {s t : Sys} (h : Throughout w I s t) : I s.node := by
  induction h with
  | refl => assumption
  | step _ _ _ ih => exact ih

theorem _root_.Dtn.Spec.Throughout.weaken {w : World} {J : Node → Prop} {s t : Sys} (h : Throughout w I s t) (hw : ∀ m, I m → J m) :
    Throughout w J s t := by
  induction h with
  | refl h => exact .refl (hw _ h)
  | step _ hs hi ih => exact ih.step hs (hw _ hi)

/-- Invariants of what is reached, added to the condition. -/
theorem _root_.Dtn.Spec.Throughout.add {w : World} {J : Node → Prop} {s t : Sys} (h : Throughout w I s t)
    (hw : ∀ u, Reaches w s u → I u.node → J u.node) : Throughout w J s t := by
  induction h with
  | refl h => exact .refl (hw _ (.refl _) h)
  | step h hs hi ih => exact ih.step hs (hw _ (h.reaches.step hs) hi)

/-- What is owed is done in the end. -/
theorem Will.ended {cfg : Config} {clock : Nat} {s t : Sys} (hD : ∀ n m, Base n m → D n → D m)
    (before : Reaches .any ⟨Node.start cfg clock, []⟩ s) (run : Throughout .any I s t)
    (h : D s.node ∨ ∃ p ∈ s.pool, Will I D p s.node) : D t.node ∨ ∃ p ∈ t.pool, Will I D p t.node := by
  induction run with
  | refl => exact h
  | @step t u hr hs hi ih =>
    have b : Base t.node u.node := (any_good (before.join hr.reaches) (.step (.refl _) hs)).1
    rcases ih with hd | ⟨p, hp, hw⟩
    · exact .inl (hD _ _ b hd)
    · cases hs with
      | task l r q n n' ps ht =>
        simp only [List.mem_append, List.mem_cons] at hp
        have keep : p ∈ l ++ r → D n' ∨ ∃ p ∈ l ++ ps ++ r, Will I D p n' := fun hp =>
          .inr ⟨p, by rcases List.mem_append.mp hp with h | h <;> simp [h], hw.mono b⟩
        rcases hp with hp | rfl | hp
        · exact keep (by simp [hp])
        · exact (hw.step ht b hr.last hi).imp id fun ⟨q, hq, h⟩ => ⟨q, by simp [hq], h⟩
        · exact keep (by simp [hp])
      | call n pool c hc => exact .inr ⟨p, by simp [hp], hw.mono b⟩
      | change n n' pool hc => exact .inr ⟨p, hp, hw.mono b⟩

/-! ### Rules -/

theorem will_read {k : Node → Prog} (h : ∀ m, Base n m → I m → Will I D (k m) m) : Will I D (.read k) n :=
  fun m b i _ _ => .inr (h m b i)

theorem will_act {f : Node → Node} {k : Node → Prog}
    (h : ∀ m, Base n m → I m → Base n (f m) → I (f m) → D (f m) ∨ Will I D (k m) (f m)) : Will I D (.act f k) n :=
  fun m b i b' i' => h m b i (b.trans b') i'

theorem will_set {f : Node → Node} {k : Prog} (h : ∀ m, Base n m → I m → Base n (f m) → I (f m) → Will I D k (f m)) :
    Will I D (.set f k) n :=
  fun m b i b' i' => .inr (h m b i (b.trans b') i')

/-- Programs that owe what comes after them. -/
theorem will_walks (n0 : Node) : Walks (fun _ _ => True) (fun m => Base n0 m ∧ I m) (fun _ => True)
    (fun p => ∀ n, Base n0 n → Will I D p n) where
  aside _ _ _ _ _ _ _ := trivial
  deliver _ _ _ _ := trivial
  pop _ _ := trivial
  act h _ b := fun m b' i b2 _ => .inr ((h m ⟨b.trans b', i⟩).2 _ ((b.trans b').trans b2))
  choose h n b := fun x => h x n b
  fresh h n b := fun x => h x n b
  spawn _ h n b := .inr (h n b)
  wait h n b := h n b
  route _ _ h _ b := fun _ b' _ a => .inr (h a _ ((b.trans b').trans (.log _ _)))

/-! ### Questions to the router -/

/-- The acts ask nothing, and after each question to the router the program does what `forward` does. -/
def Routes : Prog → Prop
  | .done _ => True
  | .panic => True
  | .act f k => ∀ m, (∃ es, (f m).events = m.events ++ es ∧ ∀ bp a, .asked bp a ∉ es) ∧ Routes (k m)
  | .route bp k => (∃ k', k = answered bp k') ∧ ∀ a, Routes (k a)
  | .choose k => ∀ b, Routes (k b)
  | .fresh k => ∀ s, Routes (k s)
  | .spawn t k => Routes t ∧ Routes k
  | .wait _ k => Routes k

theorem routes_walks : Walks (fun n m => ∃ es, m.events = n.events ++ es ∧ ∀ bp a, .asked bp a ∉ es) (fun _ => True)
    Routes Routes where
  aside _ _ es _ _ he hs := ⟨es, he, fun _ _ h => hs _ h⟩
  deliver n e b room := by
    unfold Node.deliver
    split
    · exact ⟨[], by simp, by simp⟩
    · exact ⟨[_], rfl, by simp⟩
  pop n e := by
    unfold Node.popAgent
    split
    · exact ⟨[], by simp, by simp⟩
    · split
      · exact ⟨[], by simp, by simp⟩
      · exact ⟨[_], rfl, by simp⟩
  act h m := h m trivial
  choose h := h
  fresh h := h
  spawn h h' := ⟨h, h'⟩
  wait h := h
  route bp k h := ⟨⟨k, rfl⟩, h⟩

theorem routes_pool {w : World} {s t : Sys} (h : ∀ p ∈ s.pool, Routes p) (hs : Step w s t) : ∀ p ∈ t.pool, Routes p := by
  cases hs with
  | task l r p n n' ps ht =>
    intro q hq
    have hp := h p (by simp)
    simp only [List.append_assoc, List.mem_append] at hq
    rcases hq with hq | hq | hq
    · exact h q (by simp [hq])
    · cases ht with
      | done | panic => simp at hq
      | act f k => rw [List.mem_singleton.mp hq]; exact (hp n).2
      | route bp k a => rw [List.mem_singleton.mp hq]; exact hp.2 a
      | choose k b => rw [List.mem_singleton.mp hq]; exact hp b
      | fresh k b => rw [List.mem_singleton.mp hq]; exact hp b
      | spawn t k =>
        simp only [List.mem_cons, List.not_mem_nil, or_false] at hq
        rcases hq with rfl | rfl
        · exact hp.2
        · exact hp.1
      | wait c k => rw [List.mem_singleton.mp hq]; exact hp
    · exact h q (by simp [hq])
  | call n pool c hc' =>
    intro q hq
    rcases List.mem_append.mp hq with hq | hq
    · exact h q hq
    · rw [List.mem_singleton.mp hq]; exact routes_walks.call (fun _ => trivial) trivial c
  | change n n' pool h' => exact h

theorem routes_always {cfg : Config} {clock : Nat} {s : Sys} (run : Reaches .any ⟨Node.start cfg clock, []⟩ s) :
    ∀ p ∈ s.pool, Routes p := by
  generalize hs : (⟨Node.start cfg clock, []⟩ : Sys) = s0 at run
  induction run with
  | refl => subst hs; simp
  | @step t u hr hst ih => exact routes_pool ih hst

/-- A step in which the router answers. -/
theorem asked_step {s t : Sys} {bp : Pack} {a : Option Answer} (h : ∀ p ∈ s.pool, Routes p) (hs : Step .any s t)
    (he : .asked bp a ∈ newEvents s.node t.node) :
    t.node = s.node.log (.asked bp a) ∧ ∃ k, answered bp k a ∈ t.pool := by
  have no : ∀ {n m : Node}, (∃ es, m.events = n.events ++ es ∧ ∀ bp a, .asked bp a ∉ es) → .asked bp a ∉ newEvents n m := by
    rintro n m ⟨es, he, hn⟩ h
    rw [newEvents_eq he] at h
    exact hn _ _ h
  cases hs with
  | task l r p n n' ps ht =>
    have hp := h p (by simp)
    cases ht with
    | route bp' k a' =>
      obtain ⟨⟨k', rfl⟩, -⟩ := hp
      simp only at he
      rw [newEvents_eq (es := [.asked bp' a']) rfl, List.mem_singleton] at he
      cases he
      exact ⟨rfl, k', by simp⟩
    | act f k => exact absurd he (no (hp n).1)
    | done | panic | choose | fresh | spawn | wait => exact absurd he (no ⟨[], by simp, by simp⟩)
  | call n pool c hc => exact absurd he (no ⟨[.called c], rfl, by simp⟩)
  | change n n' pool hc => exact absurd he (no ⟨[], by cases hc <;> simp, by simp⟩)

/-- Every question is asked in some step. -/
theorem _root_.Dtn.Spec.Throughout.asked {cfg : Config} {clock : Nat} {s t : Sys} {bp : Pack} {a : Option Answer}
    (before : Reaches .any ⟨Node.start cfg clock, []⟩ s) (run : Throughout .any I s t) (he : .asked bp a ∈ newEvents s.node t.node) :
    ∃ u v, Throughout .any I s u ∧ Step .any u v ∧ Throughout .any I v t ∧
      v.node = u.node.log (.asked bp a) ∧ ∃ k, answered bp k a ∈ v.pool := by
  induction run with
  | refl => simp [newEvents] at he
  | @step t u hr hs hi ih =>
    have b0 := (any_good before hr.reaches).1
    have b1 := (any_good (before.join hr.reaches) (.step (.refl _) hs)).1
    have hsplit : newEvents s.node u.node = newEvents s.node t.node ++ newEvents t.node u.node := by
      obtain ⟨e1, h1⟩ := b0.past; obtain ⟨e2, h2⟩ := b1.past
      rw [newEvents_eq h1.symm, newEvents_eq h2.symm]
      exact newEvents_eq (by rw [← h2, ← h1, List.append_assoc])
    rw [hsplit] at he
    rcases List.mem_append.mp he with he | he
    · obtain ⟨x, y, h1, h2, h3, h4⟩ := ih he
      exact ⟨x, y, h1, h2, h3.step hs hi, h4⟩
    · obtain ⟨h1, h2⟩ := asked_step (routes_always (before.join hr.reaches)) hs he
      exact ⟨t, u, hr, hs, .refl hi, h1, h2⟩

end Dtn.Proc
