import Verif.Lemmas.Waiting
import Verif.Lemmas.Foreign
import Verif.Lemmas.Cron
import Verif.Spec.Waiting
/-! Executions in which a bundle goes on waiting. -/

namespace Dtn.Proc
open Spec

variable {bid : String} {J : Node → Prop} {a : Prop} {cfg : Config} {clock : Nat}

theorem tended_throughout (hc : ∀ c n, J n → J (n.log (.called c)) → Tends bid J a c.prog false) {s t : Sys} (h : Tended bid J a s)
    (run : Throughout .any J s t) : Tended bid J a t := by
  induction run with
  | refl => exact h
  | step hu st j ih => exact ih.step (fun _ _ h => h) (fun c n _ => hc c n) hu.last j st

/-- What holds in all states, while bundles with the id may come in. -/
theorem place_open : Place bid cfg (fun m => Good m ∧ m.cfg = cfg ∧ KeptForOthers cfg bid m) True where
  inv _ j := j.1.inv
  host _ j := j.2.1
  remote _ b j hb := j.2.2 b hb
  report _ _ _ _ _ _ _ := trivial

/-- The condition that no bundle with the id comes in. -/
def Undoubled (cfg : Config) (bid : String) (n0 : Node) (m : Node) : Prop :=
  Good m ∧ m.cfg = cfg ∧ KeptForOthers cfg bid m ∧ n0.events <+: m.events ∧ NotBroughtAgain n0 bid m

theorem Undoubled.no {n0 n m : Node} {e : Event} (h : Undoubled cfg bid n0 n) (h' : Undoubled cfg bid n0 m) (he : m.events = n.events ++ [e]) : ¬ Brings bid e := by
  refine h'.2.2.2.2 e ?_
  obtain ⟨es, g⟩ := h.2.2.2.1
  rw [newEvents_eq (es := es ++ [e]) (by rw [he, ← g, List.append_assoc])]
  exact List.mem_append_right _ (List.mem_singleton.mpr rfl)

theorem place_closed (n0 : Node) : Place bid cfg (Undoubled cfg bid n0) False where
  inv _ j := j.1.inv
  host _ j := j.2.1
  remote _ b j hb := j.2.2.1 b hb
  report _ _ _ j j' he hr := (j.no j' he) hr

theorem calls_closed (n0 : Node) (c : Call) (n : Node) (j : Undoubled cfg bid n0 n) (j' : Undoubled cfg bid n0 (n.log (.called c))) :
    Tends bid (Undoubled cfg bid n0) False c.prog false := by
  refine tends_call (place_closed n0) c fun b hb hid => j.no j' rfl ?_
  rcases hb with rfl | rfl <;> exact hid

/-- A node that is at rest has left no bundle behind. -/
theorem settled_rest {n : Node} (run : Throughout .any (KeptForOthers cfg bid) ⟨Node.start cfg clock, []⟩ ⟨n, []⟩) : Settled bid n := by
  have run' : ∀ {t}, Throughout .any (KeptForOthers cfg bid) ⟨Node.start cfg clock, []⟩ t →
      Throughout .any (fun m => Good m ∧ m.cfg = cfg ∧ KeptForOthers cfg bid m) ⟨Node.start cfg clock, []⟩ t := by
    intro t h
    induction h with
    | refl h => exact .refl ⟨(good_always (.refl _)).1, (good_always (clock := clock) (.refl _)).2, h⟩
    | step hu st h ih => exact ih.step st ⟨(good_always (hu.reaches.step st)).1, (good_always (hu.reaches.step st)).2, h⟩
  have := tended_throughout (a := True) (fun c _ _ _ => tends_call place_open c fun _ _ _ => trivial) ⟨by simp, fun h => absurd (.inl rfl) h⟩ (run' run)
  exact Classical.byContradiction fun h => by
    obtain ⟨-, _, hp, -⟩ := this.2 h
    cases hp

/-- From a node at rest on, a bundle that does not come in again goes on waiting. -/
theorem settled_after {n : Node} (before : Reaches .any ⟨Node.start cfg clock, []⟩ ⟨n, []⟩) (h : Settled bid n) {t : Sys}
    (run : Throughout .any (fun m => KeptForOthers cfg bid m ∧ NotBroughtAgain n bid m) ⟨n, []⟩ t) : Settled bid t.node := by
  have run' : ∀ {t}, Throughout .any (fun m => KeptForOthers cfg bid m ∧ NotBroughtAgain n bid m) ⟨n, []⟩ t → Throughout .any (Undoubled cfg bid n) ⟨n, []⟩ t := by
    intro t h
    induction h with
    | refl h => exact .refl ⟨(good_always before).1, (good_always before).2, h.1, List.prefix_rfl, h.2⟩
    | step hu st h ih =>
      have g := good_always (before.join (hu.reaches.step st))
      exact ih.step st ⟨g.1, g.2, h.1, (base_between before (hu.reaches.step st)).past, h.2⟩
  have := tended_throughout (a := False) (calls_closed n) ⟨by simp, fun hn => absurd h hn⟩ (run' run)
  exact Classical.byContradiction fun h => (this.2 h).1

/-- A bundle that nothing takes up. -/
def Ignored (bid : String) (s : Sys) : Prop := Idle bid s.node ∧ ∀ p ∈ s.pool, Shuns bid (fun _ => True) p

theorem ignored_always {s t : Sys} (before : Reaches .any ⟨Node.start cfg clock, []⟩ s) (hs : Ignored bid s) (hc : ¬ Clash bid s.node)
    (run : Reaches .any s t) (alone : NotBroughtAgain s.node bid t.node) : Ignored bid t := by
  induction run with
  | refl => exact hs
  | @step u v hu hst ih =>
    have b := base_between before hu
    have bv := base_between (before.join hu) (Reaches.step (.refl _) hst)
    obtain ⟨hr, hp⟩ := ih fun e he => alone e (newEvents_right b.past bv.past he)
    have i := (good_always (before.join hu)).1.inv
    have noclash : ¬ Clash bid v.node := by
      rintro ⟨r, h1, h2⟩
      rw [newEvents_of_prefix (b.past.trans bv.past)] at h1
      rcases List.mem_append.mp h1 with h | h
      · exact hc ⟨r, h, h2⟩
      · exact alone _ h h2
    cases hst with
    | task l r p n n' ps ht =>
      rcases Shuns.step i hr trivial (hp p (by simp)) ht with h | ⟨h1, -, h3⟩
      · exact absurd h noclash
      · refine ⟨h1, ?_⟩
        intro q hq'
        simp only [List.append_assoc, List.mem_append] at hq'
        rcases hq' with h | h | h
        · exact hp q (by simp [h])
        · exact h3 q h
        · exact hp q (by simp [h])
    | call n pool c _ =>
      by_cases hb : Brings bid (.called c)
      · refine absurd hb (alone _ ?_)
        obtain ⟨es, g⟩ := b.past
        rw [newEvents_eq (es := es ++ [.called c]) (by show n.events ++ [_] = _; rw [← g, List.append_assoc])]
        exact List.mem_append_right _ (List.mem_singleton.mpr rfl)
      · refine ⟨(hr.log (by simp [TakenUp])).1, ?_⟩
        intro q hq
        rcases List.mem_append.mp hq with hq | hq
        · exact hp q hq
        · rw [List.mem_singleton.mp hq]; exact shuns_call c hb
    | change n n' pool h => exact ⟨(hr.outside h).1, hp⟩

end Dtn.Proc

namespace Dtn.Cron
open Proc Spec

variable {pc : PeerCfg} {J : Node → Prop}

/-- A step of the node with the janitor, as steps of the node. -/
theorem step_throughout (hJ : ∀ n ps, J n → J { n with peers := ps }) {s t : Sys} (h : Step (.mem pc) s t) {s0 : Proc.Sys} {pool : List Prog}
    (hr : Throughout .any J s0 ⟨s.node, pool⟩) (j : J t.node) (hp : (s.phase.own ++ s.others).Perm pool) :
    ∃ pool', Throughout .any J s0 ⟨t.node, pool'⟩ ∧ (t.phase.own ++ t.others).Perm pool' := by
  have one : ∀ {n' : Node} {q : List Prog}, Proc.Step .any ⟨s.node, s.phase.own ++ s.others⟩ ⟨n', q⟩ → J n' →
      ∃ pool', Throughout .any J s0 ⟨n', pool'⟩ ∧ q.Perm pool' := by
    intro n' q h j
    obtain ⟨r, h1, h2⟩ := step_perm h hp
    exact ⟨r, hr.step h1 j, h2⟩
  rcases h with h | h
  · cases h with
    | tick n others =>
      have s1 : Proc.Step .any ⟨n, pool⟩ ⟨dropPeers pc n, pool⟩ := .change _ _ _ (.peers _ _)
      have s2 : Proc.Step .any ⟨dropPeers pc n, pool⟩ ⟨(dropPeers pc n).log (.called .janitor), pool ++ [Call.janitor.prog]⟩ :=
        .call _ _ _ trivial
      refine ⟨_, (hr.step s1 (hJ _ _ hr.last)).step s2 j, ?_⟩
      exact (List.perm_append_comm (l₁ := [Call.janitor.prog])).trans (hp.append_right _)
    | main n n' p k new started others h =>
      have := one (Proc.Step.task (w := .any) [] (started ++ others) p n n' (k :: new) h) j
      simpa [Phase.own] using this
    | returned n ok started others =>
      have := one (Proc.Step.task (w := .any) [] (started ++ others) _ n n _ (.done n ok)) j
      simpa [Phase.own] using this
    | panicked n started others =>
      have := one (Proc.Step.task (w := .any) [] (started ++ others) _ n n _ (.panic n)) j
      simpa [Phase.own] using this
    | started n n' main l r p ps others h =>
      refine one (n' := n') ?_ j
      have := Proc.Step.task (w := .any) (main.toList ++ l) (r ++ others) p n n' ps h
      simpa [Phase.own] using this
    | ended n others => exact ⟨pool, hr, hp⟩
  · cases h with
    | task n n' ph l r p ps h =>
      refine one (n' := n') ?_ j
      have := Proc.Step.task (w := .any) (ph.own ++ l) r p n n' ps h
      simpa using this
    | call n ph others c h =>
      refine one ?_ j
      have := Proc.Step.call (w := .any) n (ph.own ++ others) c trivial
      simpa [Setup.mem] using this
    | change n n' ph others h => exact one (.change _ _ _ h) j

theorem run_throughout (hJ : ∀ n ps, J n → J { n with peers := ps }) {f : Nat → Sys} (run : JanitorRun (.mem pc) f) (i : Nat)
    (j : ∀ k, J (f (i + k)).node) (k : Nat) : ∃ pool', Throughout .any J ⟨(f i).node, (f i).phase.own ++ (f i).others⟩ ⟨(f (i + k)).node, pool'⟩ ∧
      ((f (i + k)).phase.own ++ (f (i + k)).others).Perm pool' := by
  induction k with
  | zero => exact ⟨_, .refl (j 0), .refl _⟩
  | succ k ih =>
    obtain ⟨pool, h1, h2⟩ := ih
    exact step_throughout hJ (run.steps (i + k)) h1 (j (k + 1)) h2

end Dtn.Cron
