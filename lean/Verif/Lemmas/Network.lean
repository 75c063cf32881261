import Verif.Lemmas.Origin
import Verif.Spec.Network
/-! Every bundle in a network comes from somewhere. -/

namespace Dtn.Net
open Proc Spec

variable {ι : Type} [DecidableEq ι] {pushed : Bundle → Prop}

theorem copied_hopUp {host : EID} {t : Transfer} (h : Copied host t) : HopUp t.out t.stored := by
  intro limit count one stored
  have hc := h.hopCount one
  rw [stored] at hc
  refine ⟨_, hc, ?_, fun h => Nat.mod_eq_of_lt (by omega)⟩
  have := h.hops
  have e : (raiseHop t.stored).2 = decide ((count + 1) % 256 > limit) := by
    unfold hopCount at stored
    unfold raiseHop firstBlock
    cases hf : t.stored.canonicals.find? (fun c => decide (c.btype = HOP_COUNT_BLOCK)) with
    | none => rw [hf] at stored; cases stored
    | some blk =>
      rw [hf] at stored
      simp only [Option.bind_some] at stored
      cases hd : blk.data with
      | hopCount l k => rw [hd] at stored; cases stored; simp only [hd]
      | _ => rw [hd] at stored; cases stored
  rw [e] at this
  simpa using this

/-- The bundles that may come from `S`. -/
def From (S : Bundle → Prop) (hosts : EID → Prop) (b : Bundle) : Prop := ∃ b0 k, S b0 ∧ Path hosts b0 k b

/-- All nodes are sound, with respect to the bundles that may come from `S`. -/
structure Held (S : Bundle → Prop) (hosts : EID → Prop) (net : Network ι) : Prop where
  sound : ∀ i, Sound (From S hosts) (net i).node
  tasks : ∀ i, ∀ p ∈ (net i).pool, Honest (From S hosts) p (net i).node
  names : ∀ i, hosts (net i).node.cfg.hostEid

theorem known_from {S : Bundle → Prop} {hosts : EID → Prop} {n : Node} {b : Bundle} (hs : Sound (From S hosts) n)
    (hS : ∀ b, (Event.called (.send b) ∈ n.events ∨ ∃ r, Event.report r ∈ n.events ∧ r.report = b) → S b)
    (h : Known n b) : From S hosts b := by
  rcases h with h | ⟨b0, h, k⟩ | h
  · exact ⟨b, 0, hS b (.inl h), .here⟩
  · obtain ⟨b1, j, h1, h2⟩ := hs.fine _ h
    exact ⟨b1, j, h1, h2.kept k⟩
  · exact ⟨b, 0, hS b (.inr h), .here⟩

theorem sent_from {S : Bundle → Prop} {hosts : EID → Prop} {n : Node} {t : Transfer} (hs : Sound (From S hosts) n)
    (hS : ∀ b, (Event.called (.send b) ∈ n.events ∨ ∃ r, Event.report r ∈ n.events ∧ r.report = b) → S b)
    (hh : hosts n.cfg.hostEid) (h : Event.sending t ∈ n.events) :
    ∃ b0 k, S b0 ∧ Path hosts b0 k t.stored ∧ Path hosts b0 (k + 1) t.out := by
  obtain ⟨h1, h2⟩ := hs.fine _ h
  obtain ⟨b0, k, h3, h4⟩ := known_from hs hS h1
  exact ⟨b0, k, h3, h4, h4.passed _ hh h2.passedOn (copied_hopUp h2)⟩

theorem Reaches.one {w : World} {s t : Sys} (h : Step w s t) : Reaches w s t := .step (.refl _) h

theorem restart_sound {A : Bundle → Prop} {n : Node} {s : Sys} (r : Restart n s) (h : Sound A n) :
    Onward n s.node ∧ Sound A s.node ∧ s.pool = [] := by
  cases r with
  | memory cfg agents clock hc he =>
    have := h.step (m := { cfg, store := .new, agents, clock, groups := n.groups, events := n.events }) none (by simp)
      MemStore.Inv.new hc (by intro bid b h; simp [MemStore.new, MemStore.getBundle] at h)
      (by intro a ha b hb; rw [he a ha] at hb; cases hb) (by simp)
    exact ⟨this.1, this.2, rfl⟩
  | disk cfg agents clock hc he =>
    have := h.step (m := { cfg, store := n.store, agents, clock, groups := n.groups, events := n.events }) none (by simp)
      h.inv hc (fun _ _ => .inl) (by intro a ha b hb; rw [he a ha] at hb; cases hb) (by simp)
    exact ⟨this.1, this.2, rfl⟩

theorem set_same (net : Network ι) (i : ι) (s : Sys) : net.set i s i = s := by simp [Network.set]
theorem set_other (net : Network ι) {i j : ι} (s : Sys) (h : j ≠ i) : net.set i s j = net j := by simp [Network.set, h]

/-- The step of one node keeps what is known, whatever is a source in the end. -/
theorem Held.step {S : Bundle → Prop} {hosts : EID → Prop} {a b : Network ι} (h : Held S hosts a) (st : NetStep pushed a b)
    (hp : ∀ b, pushed b → S b)
    (hS : ∀ i b, (Event.called (.send b) ∈ (a i).node.events ∨ ∃ r, Event.report r ∈ (a i).node.events ∧ r.report = b) → S b) :
    (∀ i, Onward (a i).node (b i).node) ∧ Held S hosts b := by
  have key : ∀ i s, Onward (a i).node s.node → Sound (From S hosts) s.node →
      (∀ p ∈ s.pool, Honest (From S hosts) p s.node) →
      (∀ j, Onward (a j).node (a.set i s j).node) ∧ Held S hosts (a.set i s) := by
    intro i s g hs ht
    refine ⟨fun j => ?_, fun j => ?_, fun j => ?_, fun j => ?_⟩ <;> by_cases hj : j = i
    · subst hj; rw [set_same]; exact g
    · rw [set_other _ _ hj]; exact .refl _
    · subst hj; rw [set_same]; exact hs
    · rw [set_other _ _ hj]; exact h.sound j
    · subst hj; rw [set_same]; exact ht
    · rw [set_other _ _ hj]; exact h.tasks j
    · subst hj; rw [set_same, g.2]; exact h.names j
    · rw [set_other _ _ hj]; exact h.names j
  cases st with
  | node i s hst =>
    obtain ⟨g, hs, ht⟩ := sound_reaches (A := From S hosts) (w := arrivals pushed a) (s := a i) (t := s)
      (by
        rintro b (hb | ⟨j, t, h1, rfl⟩)
        · exact ⟨b, 0, hp b hb, .here⟩
        · obtain ⟨b0, k, h2, -, h3⟩ := sent_from (h.sound j) (hS j) (h.names j) h1
          exact ⟨b0, k + 1, h2, h3⟩)
      (fun _ _ h => h) (Reaches.one hst) (h.sound i) (h.tasks i)
    exact key i s g hs ht
  | restart i s hst =>
    obtain ⟨g, hs, ht⟩ := restart_sound hst (h.sound i)
    exact key i s g hs (by rw [ht]; simp)

theorem held_any {hosts : EID → Prop} {a b : Network ι} (r : Run pushed a b) (h : Held (fun _ => True) hosts a) :
    (∀ i, Onward (a i).node (b i).node) ∧ Held (fun _ => True) hosts b := by
  induction r with
  | refl => exact ⟨fun _ => .refl _, h⟩
  | step _ st ih =>
    obtain ⟨g, k⟩ := ih.2.step st (fun _ _ => trivial) (fun _ _ _ => trivial)
    exact ⟨fun i => (ih.1 i).trans (g i), k⟩

omit [DecidableEq ι] in
theorem held_fresh {S : Bundle → Prop} {hosts : EID → Prop} {net : Network ι} (f : Fresh net)
    (hn : ∀ i, hosts (net i).node.cfg.hostEid) : Held S hosts net := by
  refine ⟨fun i => ?_, fun i => ?_, hn⟩
  · obtain ⟨cfg, clock, h⟩ := f i; rw [h]; exact Sound.start cfg clock
  · obtain ⟨cfg, clock, h⟩ := f i; rw [h]; simp

theorem held_run {S : Bundle → Prop} {hosts : EID → Prop} {a b : Network ι} (f : Fresh a)
    (hn : ∀ i, hosts (a i).node.cfg.hostEid) (r : Run pushed a b) (hp : ∀ b, pushed b → S b)
    (hS : ∀ i x, (Event.called (.send x) ∈ (b i).node.events ∨ ∃ r, Event.report r ∈ (b i).node.events ∧ r.report = x) → S x) :
    Held S hosts b := by
  induction r with
  | refl => exact held_fresh f hn
  | @step b c r st ih =>
    have g := ((held_any r (held_fresh f hn)).2.step st (fun _ _ => trivial) (fun _ _ _ => trivial)).1
    have hS' : ∀ i x, (Event.called (.send x) ∈ (b i).node.events ∨
        ∃ r, Event.report r ∈ (b i).node.events ∧ r.report = x) → S x := by
      rintro i x (h | ⟨r, h, k⟩)
      · exact hS i x (.inl ((g i).mem h))
      · exact hS i x (.inr ⟨r, (g i).mem h, k⟩)
    exact ((ih hS').step st hp hS').2

/-- In a network that was started from nothing, all nodes hold what comes from a source. -/
theorem held_always {a b : Network ι} (f : Fresh a) (r : Run pushed a b) : Held (Source pushed b) (hostsOf b) b := by
  have g := (held_any (hosts := hostsOf a) r (held_fresh f fun i => ⟨i, rfl⟩)).1
  refine held_run f (fun i => ⟨i, ?_⟩) r (fun _ h => .inl h) (fun i x h => .inr ⟨i, h⟩)
  exact (g i).2

/-! What a path does to a bundle. -/

theorem path_primary {hosts : EID → Prop} {b0 b : Bundle} {k : Nat} (p : Path hosts b0 k b) : b.primary = b0.primary := by
  induction p with
  | here => rfl
  | kept _ h ih => exact h.1.trans ih
  | passed _ _ _ h _ ih => exact h.1.trans ih

/-- The types of the blocks that change on the way. -/
abbrev changing : List Nat := [PREVIOUS_NODE_BLOCK, HOP_COUNT_BLOCK, BUNDLE_AGE_BLOCK]

theorem sameBut_filter {A : List Nat} (hA : ∀ x ∈ A, x ∈ changing) : ∀ {xs ys : List Block}, SameBut A xs ys →
    xs.filter (fun c => decide (c.btype ∉ changing)) = ys.filter (fun c => decide (c.btype ∉ changing))
  | [], [], _ => rfl
  | x :: xs, y :: ys, h => by
    have ih := sameBut_filter hA h.2
    rcases h.1 with rfl | ⟨h1, h2, -⟩
    · rw [List.filter_cons, List.filter_cons, ih]
    · have hx : x.btype ∈ changing := hA _ h1
      have hy : y.btype ∈ changing := h2 ▸ hx
      rw [List.filter_cons_of_neg (by simp only [decide_eq_true_eq, not_not]; exact hx), List.filter_cons_of_neg (by simp only [decide_eq_true_eq, not_not]; exact hy), ih]
  | [], _ :: _, h => h.elim
  | _ :: _, [], h => h.elim

theorem passed_fixed {host : EID} {b' b : Bundle} (h : PassedOn host b' b) : (fixedBlocks b').Perm (fixedBlocks b) := by
  unfold fixedBlocks
  rcases h.2 with ⟨-, h⟩ | ⟨-, blk, rest, hp, hs, ht, -⟩
  · rw [sameBut_filter (fun x h => h) h]
  · refine (hp.filter _).trans ?_
    rw [List.filter_cons_of_neg (by simp [ht]), sameBut_filter (fun x h => List.mem_cons_of_mem _ h) hs]

theorem kept_plain {b' b : Bundle} (h : KeptOf b' b) (hp : Plain b) : b'.canonicals = b.canonicals := by
  rcases h.2.2 (.inl hp) with h1 | h1
  · exact h1
  · rw [h1, keptBlocks_none hp]

theorem mem_fixed {b : Bundle} {c : Block} : c ∈ fixedBlocks b ↔ c ∈ b.canonicals ∧ c.btype ∉ changing := by
  unfold fixedBlocks; rw [List.mem_filter]; simp

/-- Nothing is made up on the way. -/
theorem path_nothing_new {hosts : EID → Prop} {b0 b : Bundle} {k : Nat} (p : Path hosts b0 k b) :
    ∀ c ∈ fixedBlocks b, c ∈ fixedBlocks b0 := by
  induction p with
  | here => exact fun c h => h
  | kept _ h ih =>
    intro c hc
    refine ih c ?_
    rw [mem_fixed] at hc ⊢
    exact ⟨h.2.1.subset hc.1, hc.2⟩
  | passed _ _ _ h _ ih => exact fun c hc => ih c ((passed_fixed h).subset hc)

theorem plain_of_fixed {b b0 : Bundle} (h : ∀ c ∈ fixedBlocks b, c ∈ fixedBlocks b0) (hp : Plain b0) : Plain b := by
  intro c hc hu
  refine hp c ?_ hu
  have : c ∈ fixedBlocks b := by
    rw [mem_fixed]
    refine ⟨hc, ?_⟩
    unfold UnknownBlock at hu
    unfold changing
    intro h
    simp only [PREVIOUS_NODE_BLOCK, HOP_COUNT_BLOCK, BUNDLE_AGE_BLOCK, List.mem_cons, List.not_mem_nil, or_false] at h
    omega
  exact (mem_fixed.mp (h c this)).1

/-- Nothing is lost on the way, unless a block asks for its removal. -/
theorem path_nothing_lost {hosts : EID → Prop} {b0 b : Bundle} {k : Nat} (p : Path hosts b0 k b) (hp : Plain b0) :
    (fixedBlocks b).Perm (fixedBlocks b0) := by
  induction p with
  | here => exact .refl _
  | kept p h ih =>
    have := kept_plain h (plain_of_fixed (path_nothing_new p) hp)
    unfold fixedBlocks at ih ⊢
    rw [this]; exact ih
  | passed _ _ _ h _ ih => exact (passed_fixed h).trans ih

/-- A hop count does not change its number of blocks on the way. -/
theorem passed_hops {host : EID} {b' b : Bundle} (h : PassedOn host b' b) :
    b'.canonicals.countP (fun c => decide (c.btype = HOP_COUNT_BLOCK)) = b.canonicals.countP fun c => decide (c.btype = HOP_COUNT_BLOCK) := by
  have key : ∀ {A : List Nat} {xs ys : List Block}, SameBut A xs ys →
      xs.countP (fun c => decide (c.btype = HOP_COUNT_BLOCK)) = ys.countP fun c => decide (c.btype = HOP_COUNT_BLOCK) := by
    intro A xs ys hs
    have := congrArg (List.countP fun t => decide (t = HOP_COUNT_BLOCK)) (SameBut.types hs)
    rw [List.countP_map, List.countP_map] at this
    exact this
  rcases h.2 with ⟨-, h⟩ | ⟨-, blk, rest, hp, hs, ht, -⟩
  · exact key h
  · rw [hp.countP_eq, List.countP_cons_of_neg (by rw [ht]; decide), key hs]

/-- A bundle cannot be passed on more often than its hop limit allows. -/
theorem path_hops {hosts : EID → Prop} {b0 b : Bundle} {k : Nat} (p : Path hosts b0 k b) (hp : Plain b0)
    (one : AtMostOne HOP_COUNT_BLOCK b0) {limit count : Nat} (hc : hopCount b0 = some (limit, count)) (hl : limit < 255)
    (hle : count ≤ limit) :
    AtMostOne HOP_COUNT_BLOCK b ∧ hopCount b = some (limit, count + k) ∧ count + k ≤ limit := by
  induction p with
  | here => exact ⟨one, hc, hle⟩
  | @kept k b b' p h ih =>
    have := kept_plain h (plain_of_fixed (path_nothing_new p) hp)
    unfold AtMostOne hopCount at ih ⊢
    rw [this]; exact ih
  | @passed k b b' p host _ h up ih =>
    obtain ⟨h1, h2, h3⟩ := ih
    obtain ⟨c', h4, h5, h6⟩ := up limit (count + k) h1 h2
    have := h6 (by omega)
    subst this
    refine ⟨?_, h4, h5⟩
    unfold AtMostOne at h1 ⊢
    rw [passed_hops h]; exact h1

/-! Executions of single nodes are executions of the network. -/

theorem set_set (net : Network ι) (i : ι) (s t : Sys) : (net.set i s).set i t = net.set i t := by
  funext j; unfold Network.set; split <;> rfl

theorem set_self (net : Network ι) (i : ι) : net.set i (net i) = net := by
  funext j; unfold Network.set; split
  · rename_i h; rw [h]
  · rfl

theorem Run.trans {a b c : Network ι} (h : Run pushed a b) (k : Run pushed b c) : Run pushed a c := by
  induction k with
  | refl => exact h
  | step _ st ih => exact ih.step st

/-- A node may do in the network what it may do alone, if what it receives may arrive. -/
theorem run_node {net : Network ι} {i : ι} {s : Sys} (hr : Reaches .any (net i) s) (hs : Sound (fun _ => True) (net i).node)
    (ht : ∀ p ∈ (net i).pool, Honest (fun _ => True) p (net i).node)
    (ha : ∀ b, Event.called (.receive b) ∈ s.node.events → pushed b ∨ ∃ j t, Event.sending t ∈ (net j).node.events ∧ t.out = b) :
    Run pushed net (net.set i s) := by
  generalize he : net i = s0 at hr
  induction hr with
  | refl => rw [← he, set_self]; exact .refl _
  | @step u v hr hst ih =>
    subst he
    have hu := sound_reaches (A := fun _ => True) (fun _ _ => trivial) (fun _ _ h => h) hr hs ht
    have hv := sound_reaches (A := fun _ => True) (w := .any) (fun _ _ => trivial) (fun _ _ h => h) (Reaches.one hst) hu.2.1 hu.2.2
    have h1 := ih (fun b hb => ha b (hv.1.mem hb))
    have h2 : Step (arrivals pushed (net.set i u)) ((net.set i u) i) v := by
      rw [set_same]
      cases hst with
      | task l r p n n' ps h => exact .task l r p n n' ps h
      | change n n' pool h => exact .change n n' pool h
      | call n pool c _ =>
        refine .call n pool c ?_
        cases c with
        | receive b =>
          rcases ha b (by simp [Node.log]) with h | ⟨j, t, h, k⟩
          · exact .inl h
          · refine .inr ⟨j, t, ?_, k⟩
            by_cases hj : j = i
            · subst hj; rw [set_same]; exact hu.1.mem h
            · rw [set_other _ _ hj]; exact h
        | _ => trivial
    have := h1.step (.node _ i v h2)
    rwa [set_set] at this

end Dtn.Net
