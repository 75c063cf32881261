import Verif.Model.Processing
import Verif.Lemmas.MemStore
/-! A logic for programs running concurrently: every task keeps an invariant `I` and only makes changes allowed by `G`,
assuming that the others do the same. -/

namespace Dtn.Proc
open Routing (Notification Answer)

/-- What a task may do, from state `n` on: all its actions keep `I` and are in `G`, whatever the other tasks do within
`G` in between, and it ends in a state that satisfies `Q`. -/
def RG (I : Node → Prop) (G : Node → Node → Prop) : Prog → (Option Bool → Node → Prop) → Node → Prop
  | .done ok, Q, n => ∀ m, G n m → I m → Q (some ok) m
  | .panic, Q, n => ∀ m, G n m → I m → Q none m
  | .act f k, Q, n => ∀ m, G n m → I m → (G m (f m) ∧ I (f m)) ∧ RG I G (k m) Q (f m)
  | .route bp k, Q, n => ∀ m, G n m → I m → ∀ a, (G m (m.log (.asked bp a)) ∧ I (m.log (.asked bp a))) ∧
      RG I G (k a) Q (m.log (.asked bp a))
  | .choose k, Q, n => ∀ b, RG I G (k b) Q n
  | .fresh k, Q, n => ∀ s, RG I G (k s) Q n
  | .spawn t k, Q, n => RG I G t (fun _ _ => True) n ∧ RG I G k Q n
  | .wait c k, Q, n => ∀ m, G n m → I m → c m = true → RG I G k Q m

variable {I : Node → Prop} {G : Node → Node → Prop}

theorem RG.mono (htrans : ∀ a b c, G a b → G b c → G a c) {p : Prog} :
    ∀ {Q : Option Bool → Node → Prop} {n m : Node}, RG I G p Q n → G n m → RG I G p Q m := by
  induction p with
  | done ok => intro Q n m h g m' g' i; exact h m' (htrans _ _ _ g g') i
  | panic => intro Q n m h g m' g' i; exact h m' (htrans _ _ _ g g') i
  | act f k ih => intro Q n m h g m' g' i; exact h m' (htrans _ _ _ g g') i
  | route bp k ih => intro Q n m h g m' g' i; exact h m' (htrans _ _ _ g g') i
  | choose k ih => intro Q n m h g b; exact ih b (h b) g
  | fresh k ih => intro Q n m h g b; exact ih b (h b) g
  | spawn t k iht ihk => intro Q n m h g; exact ⟨iht h.1 g, ihk h.2 g⟩
  | wait c k ih => intro Q n m h g m' g' i c; exact h m' (htrans _ _ _ g g') i c

theorem RG.weaken {p : Prog} : ∀ {Q Q' : Option Bool → Node → Prop} {n : Node}, RG I G p Q n →
    (∀ o m, I m → Q o m → Q' o m) → RG I G p Q' n := by
  induction p with
  | done ok => intro Q Q' n h w m g i; exact w _ _ i (h m g i)
  | panic => intro Q Q' n h w m g i; exact w _ _ i (h m g i)
  | act f k ih => intro Q Q' n h w m g i; exact ⟨(h m g i).1, ih m (h m g i).2 w⟩
  | route bp k ih => intro Q Q' n h w m g i a; exact ⟨(h m g i a).1, ih a (h m g i a).2 w⟩
  | choose k ih => intro Q Q' n h w b; exact ih b (h b) w
  | fresh k ih => intro Q Q' n h w b; exact ih b (h b) w
  | spawn t k iht ihk => intro Q Q' n h w; exact ⟨h.1, ihk h.2 w⟩
  | wait c k ih => intro Q Q' n h w m g i hc; exact ih (h m g i hc) w

/-- One step of a task that follows the rules. -/
theorem RG.taskStep (hrefl : ∀ a, G a a) {n n' : Node} {p : Prog} {ps : List Prog} (h : TaskStep n p n' ps) (i : I n)
    (hp : RG I G p (fun _ _ => True) n) : G n n' ∧ I n' ∧ ∀ q ∈ ps, RG I G q (fun _ _ => True) n' := by
  cases h with
  | done => exact ⟨hrefl _, i, by simp⟩
  | panic => exact ⟨hrefl _, i, by simp⟩
  | act f k =>
    obtain ⟨⟨h1, h2⟩, h3⟩ := hp n (hrefl _) i
    exact ⟨h1, h2, by simpa using h3⟩
  | route bp k a =>
    obtain ⟨⟨h1, h2⟩, h3⟩ := hp n (hrefl _) i a
    exact ⟨h1, h2, by simpa using h3⟩
  | choose k b => exact ⟨hrefl _, i, by simpa using hp b⟩
  | fresh k s => exact ⟨hrefl _, i, by simpa using hp s⟩
  | spawn t k =>
    refine ⟨hrefl _, i, ?_⟩
    intro q hq
    simp only [List.mem_cons, List.not_mem_nil, or_false] at hq
    rcases hq with rfl | rfl
    · exact hp.2
    · exact hp.1
  | wait c k hc => exact ⟨hrefl _, i, by simpa using hp n (hrefl _) i hc⟩

/-- The rules for the whole system: if all calls follow the rules and so does the outside world, `I` always holds. -/
theorem RG.reaches (hrefl : ∀ a, G a a) (htrans : ∀ a b c, G a b → G b c → G a c) {w : World}
    (hcall : ∀ c, w.call c → ∀ n, I n → (G n (n.log (.called c)) ∧ I (n.log (.called c))) ∧
      RG I G c.prog (fun _ _ => True) (n.log (.called c)))
    (hchange : ∀ n m, w.change n m → I n → G n m ∧ I m) {s t : Sys} (hr : Reaches w s t)
    (i : I s.node) (hpool : ∀ p ∈ s.pool, RG I G p (fun _ _ => True) s.node) :
    G s.node t.node ∧ I t.node ∧ ∀ p ∈ t.pool, RG I G p (fun _ _ => True) t.node := by
  induction hr with
  | refl => exact ⟨hrefl _, i, hpool⟩
  | @step t u _ hs ih =>
    obtain ⟨g, it, hp⟩ := ih
    cases hs with
    | task l r p n n' ps h =>
      obtain ⟨g', i', hps⟩ := RG.taskStep hrefl h it (hp p (by simp))
      refine ⟨htrans _ _ _ g g', i', ?_⟩
      intro q hq
      simp only [List.append_assoc, List.mem_append] at hq
      rcases hq with hq | hq | hq
      · exact (hp q (by simp [hq])).mono htrans g'
      · exact hps q hq
      · exact (hp q (by simp [hq])).mono htrans g'
    | call n pool c h =>
      obtain ⟨⟨g', i'⟩, hc⟩ := hcall _ h _ it
      refine ⟨htrans _ _ _ g g', i', ?_⟩
      intro q hq
      simp only [List.mem_append, List.mem_singleton] at hq
      rcases hq with hq | rfl
      · exact (hp q hq).mono htrans g'
      · exact hc
    | change n n' pool h =>
      obtain ⟨g', i'⟩ := hchange _ _ h it
      exact ⟨htrans _ _ _ g g', i', fun q hq => (hp q hq).mono htrans g'⟩

/-- The same for a main task with a postcondition: once it has ended, the postcondition holds. -/
theorem RG.main (hrefl : ∀ a, G a a) (htrans : ∀ a b c, G a b → G b c → G a c) {w : World}
    (hcall : ∀ c, w.call c → ∀ n, I n → (G n (n.log (.called c)) ∧ I (n.log (.called c))) ∧
      RG I G c.prog (fun _ _ => True) (n.log (.called c)))
    (hchange : ∀ n m, w.change n m → I n → G n m ∧ I m) {Q : Option Bool → Node → Prop}
    (hQ : ∀ o n m, G n m → I n → I m → Q o n → Q o m)
    {n : Node} {p : Prog} (i : I n) (hp : RG I G p Q n) {t : Sys} (hr : Reaches w ⟨n, [p]⟩ t) :
    G n t.node ∧ I t.node ∧
    ((∃ l q r, t.pool = l ++ q :: r ∧ RG I G q Q t.node ∧ ∀ x ∈ l ++ r, RG I G x (fun _ _ => True) t.node) ∨
     ((∃ o, Q o t.node) ∧ ∀ x ∈ t.pool, RG I G x (fun _ _ => True) t.node)) := by
  generalize hs : (⟨n, [p]⟩ : Sys) = s at hr
  induction hr with
  | refl => subst hs; exact ⟨hrefl _, i, .inl ⟨[], p, [], rfl, hp, by simp⟩⟩
  | @step t u _ hst ih =>
    obtain ⟨g, it, hmain⟩ := ih
    cases hst with
    | call n pool c h =>
      obtain ⟨⟨g', i'⟩, hc⟩ := hcall _ h _ it
      refine ⟨htrans _ _ _ g g', i', ?_⟩
      rcases hmain with ⟨l, q, r, hpool, hq, hrest⟩ | ⟨⟨o, hq⟩, hrest⟩
      · simp only at hpool
        refine .inl ⟨l, q, r ++ [c.prog], by simp [hpool], hq.mono htrans g', ?_⟩
        intro x hx
        rw [← List.append_assoc] at hx
        rcases List.mem_append.mp hx with hx | hx
        · exact (hrest x hx).mono htrans g'
        · rw [List.mem_singleton] at hx; subst hx; exact hc
      · refine .inr ⟨⟨o, hQ _ _ _ g' it i' hq⟩, ?_⟩
        intro x hx
        rcases List.mem_append.mp hx with hx | hx
        · exact (hrest x hx).mono htrans g'
        · rw [List.mem_singleton] at hx; subst hx; exact hc
    | change n n' pool h =>
      obtain ⟨g', i'⟩ := hchange _ _ h it
      refine ⟨htrans _ _ _ g g', i', ?_⟩
      rcases hmain with ⟨l, q, r, hpool, hq, hrest⟩ | ⟨⟨o, hq⟩, hrest⟩
      · exact .inl ⟨l, q, r, hpool, hq.mono htrans g', fun x hx => (hrest x hx).mono htrans g'⟩
      · exact .inr ⟨⟨o, hQ _ _ _ g' it i' hq⟩, fun x hx => (hrest x hx).mono htrans g'⟩
    | task l r p n n' ps h =>
      have other : RG I G p (fun _ _ => True) n → (G n n' ∧ I n' ∧ ∀ q ∈ ps, RG I G q (fun _ _ => True) n') :=
        fun hx => RG.taskStep hrefl h it hx
      rcases hmain with ⟨l', q, r', hpool, hq, hrest⟩ | ⟨⟨o, hq⟩, hrest⟩
      · simp only at hpool hq hrest
        rcases List.append_eq_append_iff.mp hpool with ⟨a, ha1, ha2⟩ | ⟨a, ha1, ha2⟩
        · cases a with
          | nil =>
            -- the main task moves
            simp only [List.append_nil, List.nil_append, List.cons.injEq] at ha1 ha2
            obtain ⟨rfl, rfl⟩ := ha2; subst ha1
            have hm := other (hq.weaken (fun _ _ _ _ => trivial))
            refine ⟨htrans _ _ _ g hm.1, hm.2.1, ?_⟩
            have hrest' : ∀ x ∈ l' ++ r, RG I G x (fun _ _ => True) n' :=
              fun x hx => (hrest x hx).mono htrans hm.1
            cases h with
            | done ok => exact .inr ⟨⟨_, hq n (hrefl _) it⟩, by simpa using hrest'⟩
            | panic => exact .inr ⟨⟨_, hq n (hrefl _) it⟩, by simpa using hrest'⟩
            | act f k =>
              exact .inl ⟨l', k n, r, by simp, (hq n (hrefl _) it).2, hrest'⟩
            | route bp k a =>
              exact .inl ⟨l', k a, r, by simp, (hq n (hrefl _) it a).2, hrest'⟩
            | choose k b => exact .inl ⟨l', k b, r, by simp, hq b, hrest'⟩
            | fresh k b => exact .inl ⟨l', k b, r, by simp, hq b, hrest'⟩
            | wait c k hc => exact .inl ⟨l', k, r, by simp, hq n (hrefl _) it hc, hrest'⟩
            | spawn t k =>
              refine .inl ⟨l', k, t :: r, by simp, hq.2, ?_⟩
              intro x hx
              simp only [List.mem_append, List.mem_cons] at hx
              rcases hx with hx | rfl | hx
              · exact hrest' x (by simp [hx])
              · exact hq.1
              · exact hrest' x (by simp [hx])
          | cons y a =>
            -- another task, left of the main task, moves
            simp only [List.cons_append, List.cons.injEq] at ha2
            obtain ⟨rfl, rfl⟩ := ha2
            subst ha1
            obtain ⟨g', i', hps⟩ := other (hrest p (by simp))
            refine ⟨htrans _ _ _ g g', i', .inl ⟨l ++ ps ++ a, q, r', by simp, hq.mono htrans g', ?_⟩⟩
            intro x hx
            simp only [List.append_assoc, List.mem_append] at hx
            rcases hx with hx | hx | hx | hx
            · exact (hrest x (by simp [hx])).mono htrans g'
            · exact hps x hx
            · exact (hrest x (by simp [hx])).mono htrans g'
            · exact (hrest x (by simp [hx])).mono htrans g'
        · cases a with
          | nil =>
            simp only [List.append_nil, List.nil_append, List.cons.injEq] at ha1 ha2
            obtain ⟨rfl, rfl⟩ := ha2; subst ha1
            have hm := other (hq.weaken (fun _ _ _ _ => trivial))
            refine ⟨htrans _ _ _ g hm.1, hm.2.1, ?_⟩
            have hrest' : ∀ x ∈ l ++ r', RG I G x (fun _ _ => True) n' :=
              fun x hx => (hrest x hx).mono htrans hm.1
            cases h with
            | done ok => exact .inr ⟨⟨_, hq n (hrefl _) it⟩, by simpa using hrest'⟩
            | panic => exact .inr ⟨⟨_, hq n (hrefl _) it⟩, by simpa using hrest'⟩
            | act f k =>
              exact .inl ⟨l, k n, r', by simp, (hq n (hrefl _) it).2, hrest'⟩
            | route bp k a =>
              exact .inl ⟨l, k a, r', by simp, (hq n (hrefl _) it a).2, hrest'⟩
            | choose k b => exact .inl ⟨l, k b, r', by simp, hq b, hrest'⟩
            | fresh k b => exact .inl ⟨l, k b, r', by simp, hq b, hrest'⟩
            | wait c k hc => exact .inl ⟨l, k, r', by simp, hq n (hrefl _) it hc, hrest'⟩
            | spawn t k =>
              refine .inl ⟨l, k, t :: r', by simp, hq.2, ?_⟩
              intro x hx
              simp only [List.mem_append, List.mem_cons] at hx
              rcases hx with hx | rfl | hx
              · exact hrest' x (by simp [hx])
              · exact hq.1
              · exact hrest' x (by simp [hx])
          | cons y a =>
            -- another task, right of the main task, moves
            simp only [List.cons_append, List.cons.injEq] at ha2
            obtain ⟨rfl, rfl⟩ := ha2
            subst ha1
            obtain ⟨g', i', hps⟩ := other (hrest p (by simp))
            refine ⟨htrans _ _ _ g g', i', .inl ⟨l', q, a ++ ps ++ r, by simp, hq.mono htrans g', ?_⟩⟩
            intro x hx
            simp only [List.append_assoc, List.mem_append] at hx
            rcases hx with hx | hx | hx | hx
            · exact (hrest x (by simp [hx])).mono htrans g'
            · exact (hrest x (by simp [hx])).mono htrans g'
            · exact hps x hx
            · exact (hrest x (by simp [hx])).mono htrans g'
      · obtain ⟨g', i', hps⟩ := other (hrest p (by simp))
        refine ⟨htrans _ _ _ g g', i', .inr ⟨⟨o, hQ _ _ _ g' it i' hq⟩, ?_⟩⟩
        intro x hx
        simp only [List.append_assoc, List.mem_append] at hx
        rcases hx with hx | hx | hx
        · exact (hrest x (by simp [hx])).mono htrans g'
        · exact hps x hx
        · exact (hrest x (by simp [hx])).mono htrans g'

/-- Nothing is left to run: the main task has ended. -/
theorem RG.main_ended (hrefl : ∀ a, G a a) (htrans : ∀ a b c, G a b → G b c → G a c) {w : World}
    (hcall : ∀ c, w.call c → ∀ n, I n → (G n (n.log (.called c)) ∧ I (n.log (.called c))) ∧
      RG I G c.prog (fun _ _ => True) (n.log (.called c)))
    (hchange : ∀ n m, w.change n m → I n → G n m ∧ I m) {Q : Option Bool → Node → Prop}
    (hQ : ∀ o n m, G n m → I n → I m → Q o n → Q o m)
    {n m : Node} {p : Prog} (i : I n) (hp : RG I G p Q n) (hr : Reaches w ⟨n, [p]⟩ ⟨m, []⟩) :
    G n m ∧ I m ∧ ∃ o, Q o m := by
  obtain ⟨g, im, h | h⟩ := RG.main hrefl htrans hcall hchange hQ i hp hr
  · obtain ⟨l, q, r, hpool, -⟩ := h; simp at hpool
  · exact ⟨g, im, h.1⟩

end Dtn.Proc
