import Verif.Lemmas.Network
import Verif.Lemmas.SledOrigin
import Verif.Model.MixedNetwork
/-! Every bundle in a network of nodes with and without a database comes from somewhere. -/

namespace Dtn.Net
open Proc Spec

variable {ι : Type} [DecidableEq ι] {pushed : Bundle → Prop} {disk : ι → Bool}

theorem Held.set {S : Bundle → Prop} {hosts : EID → Prop} {a : Network ι} (h : Held S hosts a) {i : ι} {s : Sys}
    (g : Onward (a i).node s.node) (hs : Sound (From S hosts) s.node) (ht : ∀ p ∈ s.pool, Honest (From S hosts) p s.node) :
    (∀ j, Onward (a j).node (a.set i s j).node) ∧ Held S hosts (a.set i s) := by
  refine ⟨fun j => ?_, fun j => ?_, fun j => ?_, fun j => ?_⟩ <;> by_cases hj : j = i
  · subst hj; rw [set_same]; exact g
  · rw [set_other _ _ hj]; exact .refl _
  · subst hj; rw [set_same]; exact hs
  · rw [set_other _ _ hj]; exact h.sound j
  · subst hj; rw [set_same]; exact ht
  · rw [set_other _ _ hj]; exact h.tasks j
  · subst hj; rw [set_same, g.2]; exact h.names j
  · rw [set_other _ _ hj]; exact h.names j

/-- The step of one node keeps what is known, whatever is a source in the end. -/
theorem Held.mixed {S : Bundle → Prop} {hosts : EID → Prop} {a b : Network ι} (h : Held S hosts a) (st : MixedStep disk pushed a b)
    (hp : ∀ b, pushed b → S b)
    (hS : ∀ i b, (Event.called (.send b) ∈ (a i).node.events ∨ ∃ r, Event.report r ∈ (a i).node.events ∧ r.report = b) → S b) :
    (∀ i, Onward (a i).node (b i).node) ∧ Held S hosts b := by
  cases st with
  | memory i s k hst => exact h.step (.node a i s hst) hp hS
  | forget i s k hst e => exact h.step (.restart a i s hst) hp hS
  | disk i s k hst harr =>
    obtain ⟨g, hs, ht⟩ := OnSled.origin_step (A := From S hosts) hst (by
        intro b hb
        rcases harr _ hb with hb | ⟨j, t, h1, rfl⟩
        · exact ⟨b, 0, hp b hb, .here⟩
        · obtain ⟨b0, k, h2, -, h3⟩ := sent_from (h.sound j) (hS j) (h.names j) h1
          exact ⟨b0, k + 1, h2, h3⟩) (h.sound i) (h.tasks i)
    exact h.set g hs ht
  | restart i clock k =>
    obtain ⟨g, hs⟩ := OnSled.origin_restart (h.sound i) clock
    exact h.set g hs (by simp)
  | cut i clock op w k hw =>
    obtain ⟨g, hs⟩ := OnSled.origin_cut (h.sound i) clock hw
    exact h.set g hs (by simp)

theorem mixed_any {hosts : EID → Prop} {a b : Network ι} (r : MixedRun disk pushed a b) (h : Held (fun _ => True) hosts a) :
    (∀ i, Onward (a i).node (b i).node) ∧ Held (fun _ => True) hosts b := by
  induction r with
  | refl => exact ⟨fun _ => .refl _, h⟩
  | step _ st ih =>
    obtain ⟨g, k⟩ := ih.2.mixed st (fun _ _ => trivial) (fun _ _ _ => trivial)
    exact ⟨fun i => (ih.1 i).trans (g i), k⟩

theorem mixed_run {S : Bundle → Prop} {hosts : EID → Prop} {a b : Network ι} (f : Fresh a)
    (hn : ∀ i, hosts (a i).node.cfg.hostEid) (r : MixedRun disk pushed a b) (hp : ∀ b, pushed b → S b)
    (hS : ∀ i x, (Event.called (.send x) ∈ (b i).node.events ∨ ∃ r, Event.report r ∈ (b i).node.events ∧ r.report = x) → S x) :
    Held S hosts b := by
  induction r with
  | refl => exact held_fresh f hn
  | @step b c r st ih =>
    have g := ((mixed_any r (held_fresh f hn)).2.mixed st (fun _ _ => trivial) (fun _ _ _ => trivial)).1
    have hS' : ∀ i x, (Event.called (.send x) ∈ (b i).node.events ∨
        ∃ r, Event.report r ∈ (b i).node.events ∧ r.report = x) → S x := by
      rintro i x (h | ⟨r, h, k⟩)
      · exact hS i x (.inl ((g i).mem h))
      · exact hS i x (.inr ⟨r, (g i).mem h, k⟩)
    exact ((ih hS').mixed st hp hS').2

/-- In a network that was started from nothing, all nodes hold what comes from a source. -/
theorem mixed_always {a b : Network ι} (f : Fresh a) (r : MixedRun disk pushed a b) : Held (Source pushed b) (hostsOf b) b := by
  have g := (mixed_any (hosts := hostsOf a) r (held_fresh f fun i => ⟨i, rfl⟩)).1
  refine mixed_run f (fun i => ⟨i, ?_⟩) r (fun _ h => .inl h) (fun i x h => .inr ⟨i, h⟩)
  exact (g i).2

/-- What a node with a database goes through in the network it may go through by itself. -/
theorem MixedRun.alone {a b : Network ι} (r : MixedRun disk pushed a b) {i : ι} (hi : disk i = true) : OnSled.Reaches (a i) (b i) := by
  induction r with
  | refl => exact .refl _
  | step _ st ih =>
    cases st with
    | memory j s k hst =>
      have hj : i ≠ j := by rintro rfl; rw [hi] at k; cases k
      rw [set_other _ _ hj]; exact ih
    | forget j s k hst e =>
      have hj : i ≠ j := by rintro rfl; rw [hi] at k; cases k
      rw [set_other _ _ hj]; exact ih
    | disk j s k hst harr =>
      by_cases hj : i = j
      · subst hj; rw [set_same]; exact ih.step hst
      · rw [set_other _ _ hj]; exact ih
    | restart j clock k =>
      by_cases hj : i = j
      · subst hj; rw [set_same]; exact ih.restart clock
      · rw [set_other _ _ hj]; exact ih
    | cut j clock op w k hw =>
      by_cases hj : i = j
      · subst hj; rw [set_same]; exact ih.cut clock op w hw
      · rw [set_other _ _ hj]; exact ih

theorem MixedRun.trans {a b c : Network ι} (h : MixedRun disk pushed a b) (k : MixedRun disk pushed b c) : MixedRun disk pushed a c := by
  induction k with
  | refl => exact h
  | step _ st ih => exact ih.step st

/-- A node with a database may do in the network what it may do alone, if what it receives may arrive. -/
theorem mixed_node {net : Network ι} {i : ι} {s : Sys} (hd : disk i = true) (hr : OnSled.Reaches (net i) s)
    (hs : Sound (fun _ => True) (net i).node) (ht : ∀ p ∈ (net i).pool, Honest (fun _ => True) p (net i).node)
    (ha : ∀ b, Event.called (.receive b) ∈ s.node.events → pushed b ∨ ∃ j t, Event.sending t ∈ (net j).node.events ∧ t.out = b) :
    MixedRun disk pushed net (net.set i s) ∧ (Onward (net i).node s.node ∧ Sound (fun _ => True) s.node ∧
      ∀ p ∈ s.pool, Honest (fun _ => True) p s.node) := by
  generalize he : net i = s0 at hr
  induction hr with
  | refl => subst he; rw [set_self]; exact ⟨.refl _, .refl _, hs, ht⟩
  | @step u v hr hst ih =>
    subst he
    have hv0 : Onward u.node v.node := by
      cases hst with
      | call n pool c => exact .log _ _
      | change n n' pool h => exact (Sound.outside h (OnSled.sled_any hr hs ht).2.1).1
      | task l r p n n' ps h =>
        exact (OnSled.origin_step (.task l r p n n' ps h) (fun _ _ => trivial) (OnSled.sled_any hr hs ht).2.1 (OnSled.sled_any hr hs ht).2.2).1
    obtain ⟨h1, g, hu, hut⟩ := ih (fun b hb => ha b (hv0.mem hb))
    obtain ⟨g', hv, hvt⟩ := OnSled.origin_step (A := fun _ => True) hst (fun _ _ => trivial) hu hut
    have h2 := MixedStep.disk (disk := disk) (pushed := pushed) (net.set i u) i v hd (by rw [set_same]; exact hst) (by
      intro c hc
      rw [set_same] at hc
      cases c with
      | receive b =>
        rcases ha b (by rw [hc]; simp) with h | ⟨j, t, h, k⟩
        · exact .inl h
        · refine .inr ⟨j, t, ?_, k⟩
          by_cases hj : j = i
          · subst hj; rw [set_same]; exact g.mem h
          · rw [set_other _ _ hj]; exact h
      | _ => trivial)
    rw [set_set] at h2
    exact ⟨h1.step h2, g.trans g', hv, hvt⟩
  | @restart n pool clock hr ih =>
    subst he
    obtain ⟨h1, g, hu, hut⟩ := ih ha
    obtain ⟨g', hv⟩ := OnSled.origin_restart hu clock
    have h2 := MixedStep.restart (disk := disk) (pushed := pushed) (net.set i ⟨n, pool⟩) i clock hd
    rw [set_set, set_same] at h2
    exact ⟨h1.step h2, g.trans g', hv, by simp⟩
  | @cut n pool clock op k hw hr ih =>
    subst he
    have hn := (OnSled.sled_any hr hs ht).2.1
    obtain ⟨g', hv⟩ := OnSled.origin_cut hn clock hw
    obtain ⟨h1, g, hu, hut⟩ := ih (fun b hb => ha b (g'.mem hb))
    have h2 := MixedStep.cut (disk := disk) (pushed := pushed) (net.set i ⟨n, pool⟩) i clock op k hd (by rw [set_same]; exact hw)
    rw [set_set, set_same] at h2
    exact ⟨h1.step h2, g.trans g', hv, by simp⟩

/-- The same for a node without. -/
theorem mixed_memory {net : Network ι} {i : ι} {s : Sys} (hd : disk i = false) (hr : Reaches .any (net i) s)
    (hs : Sound (fun _ => True) (net i).node) (ht : ∀ p ∈ (net i).pool, Honest (fun _ => True) p (net i).node)
    (ha : ∀ b, Event.called (.receive b) ∈ s.node.events → pushed b ∨ ∃ j t, Event.sending t ∈ (net j).node.events ∧ t.out = b) :
    MixedRun disk pushed net (net.set i s) := by
  generalize he : net i = s0 at hr
  induction hr with
  | refl => rw [← he, set_self]; exact .refl _
  | @step u v hr hst ih =>
    subst he
    have hu := sound_reaches (A := fun _ => True) (fun _ _ => trivial) (fun _ _ h => h) hr hs ht
    have hv := sound_reaches (A := fun _ => True) (w := .any) (fun _ _ => trivial) (fun _ _ h => h) (Reaches.one hst) hu.2.1 hu.2.2
    have h1 := ih (fun b hb => ha b (hv.1.mem hb))
    have h2 : Step (arrivals pushed (net.set i u)) ((net.set i u) i) v := by
      rw [set_same]
      cases hst with
      | task l r p n n' ps h => exact .task l r p n n' ps h
      | change n n' pool h => exact .change n n' pool h
      | call n pool c _ =>
        refine .call n pool c ?_
        cases c with
        | receive b =>
          rcases ha b (by simp [Node.log]) with h | ⟨j, t, h, k⟩
          · exact .inl h
          · refine .inr ⟨j, t, ?_, k⟩
            by_cases hj : j = i
            · subst hj; rw [set_same]; exact hu.1.mem h
            · rw [set_other _ _ hj]; exact h
        | _ => trivial
    have := h1.step (.memory _ i v hd h2)
    rwa [set_set] at this

end Dtn.Net
