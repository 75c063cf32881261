import Verif.Model.SledCron
import Verif.Lemmas.Cron
import Verif.Lemmas.SledEnds
import Verif.Lemmas.SledResume
import Verif.Lemmas.SledGood
/-! Lemmas about the janitor with the persistent store. -/

namespace Dtn.Cron
open Proc Spec

variable {pc : PeerCfg} {cfg : Config} {clock : Nat}

theorem fair_sled (pc : PeerCfg) : (Setup.sled pc).Fair := OnSled.owes_task

/-! ### All tasks together -/

theorem sled_perm {n n' : Node} {p q q' : List Prog} (h : OnSled.Step ⟨n, p⟩ ⟨n', q⟩) (hp : p.Perm q') :
    ∃ r, OnSled.Step ⟨n, q'⟩ ⟨n', r⟩ ∧ q.Perm r := by
  cases h with
  | task l r x _ _ ps h =>
    obtain ⟨l', r', rfl⟩ := List.append_of_mem (hp.subset (by simp : x ∈ l ++ x :: r))
    refine ⟨_, .task l' r' x n n' ps h, ?_⟩
    have h1 : (l ++ r).Perm (l' ++ r') := List.Perm.cons_inv ((List.perm_middle.symm.trans hp).trans List.perm_middle)
    have m : ∀ a b : List Prog, (a ++ ps ++ b).Perm (ps ++ (a ++ b)) := fun a b => by
      rw [← List.append_assoc]; exact List.Perm.append_right b List.perm_append_comm
    exact (m l r).trans ((List.Perm.append_left ps h1).trans (m l' r').symm)
  | call _ _ c => exact ⟨_, .call n q' c, hp.append_right _⟩
  | change _ _ _ h => exact ⟨_, .change n n' q' h, hp⟩

/-- Every step is a step of the node, without regard to which task belongs to whom. -/
theorem sled_flat {s t : Sys} (h : Step (.sled pc) s t) {pool : List Prog} (hp : (s.phase.own ++ s.others).Perm pool) :
    ∃ pool', (t.phase.own ++ t.others).Perm pool' ∧ OnSled.Reaches ⟨s.node, pool⟩ ⟨t.node, pool'⟩ := by
  have one : ∀ {n' : Node} {q : List Prog}, OnSled.Step ⟨s.node, s.phase.own ++ s.others⟩ ⟨n', q⟩ →
      ∃ pool', q.Perm pool' ∧ OnSled.Reaches ⟨s.node, pool⟩ ⟨n', pool'⟩ := by
    intro n' q h
    obtain ⟨r, h1, h2⟩ := sled_perm h hp
    exact ⟨r, h2, .step (.refl _) h1⟩
  rcases h with h | h
  · cases h with
    | tick n others =>
      have s1 : OnSled.Step ⟨n, pool⟩ ⟨dropPeers pc n, pool⟩ := .change _ _ _ (.peers _ _)
      have s2 : OnSled.Step ⟨dropPeers pc n, pool⟩ ⟨(dropPeers pc n).log (.called .janitor), pool ++ [OnSled.task .janitor]⟩ :=
        .call _ _ _
      refine ⟨_, ?_, (OnSled.Reaches.refl _ |>.step s1).step s2⟩
      exact (List.perm_append_comm (l₁ := [OnSled.task .janitor])).trans (hp.append_right _)
    | main n n' p k new started others h =>
      have := one (OnSled.Step.task [] (started ++ others) p n n' (k :: new) h)
      simpa [Phase.own] using this
    | returned n ok started others =>
      have := one (OnSled.Step.task [] (started ++ others) _ n n _ (.done n ok))
      simpa [Phase.own] using this
    | panicked n started others =>
      have := one (OnSled.Step.task [] (started ++ others) _ n n _ (.panic n))
      simpa [Phase.own] using this
    | started n n' main l r p ps others h =>
      refine one (n' := n') ?_
      have := OnSled.Step.task (main.toList ++ l) (r ++ others) p n n' ps h
      simpa [Phase.own] using this
    | ended n others => exact ⟨pool, hp, .refl _⟩
  · cases h with
    | task n n' ph l r p ps h =>
      refine one (n' := n') ?_
      have := OnSled.Step.task (ph.own ++ l) r p n n' ps h
      simpa using this
    | call n ph others c h =>
      refine one ?_
      have := OnSled.Step.call n (ph.own ++ others) c
      simpa [Setup.sled] using this
    | change n n' ph others h => exact one (.change _ _ _ h)

/-- The tasks of the node, in some order. -/
theorem History.flat {s : Sys} (h : History pc cfg clock s) :
    ∃ pool, OnSled.Reaches ⟨Node.start cfg clock, []⟩ ⟨s.node, pool⟩ ∧ (s.phase.own ++ s.others).Perm pool := by
  induction h with
  | start => exact ⟨[], .refl _, .refl _⟩
  | step _ st ih =>
    obtain ⟨pool, h1, h2⟩ := ih
    obtain ⟨pool', k1, k2⟩ := sled_flat st h2
    exact ⟨pool', h1.join k2, k1⟩
  | restart now _ ih =>
    obtain ⟨pool, h1, -⟩ := ih
    exact ⟨[], h1.restart now, .refl _⟩
  | cut now op k hw _ ih =>
    obtain ⟨pool, h1, -⟩ := ih
    exact ⟨[], h1.cut now op k hw, .refl _⟩

theorem History.good {s : Sys} (h : History pc cfg clock s) : Good s.node ∧ s.node.cfg = cfg := by
  obtain ⟨pool, h1, -⟩ := h.flat
  exact OnSled.sled_good h1

theorem History.base {s t : Sys} (h : History pc cfg clock s) (st : Step (.sled pc) s t) : Base s.node t.node := by
  obtain ⟨pool, h1, h2⟩ := h.flat
  obtain ⟨pool', -, k⟩ := sled_flat st h2
  exact (OnSled.between h1 k).2.1.base

theorem History.join {s t : Sys} (h : History pc cfg clock s) (r : Reaches (.sled pc) s t) : History pc cfg clock t := by
  induction r with
  | refl => exact h
  | step _ st ih => exact ih.step st

theorem History.held {s : Sys} (h : History pc cfg clock s) : Held s := by
  have dead : ∀ {s : Sys}, Held s → ∃ dead, Served ⟨s.node, dead, [], []⟩ := by
    rintro s ⟨d, h⟩
    obtain ⟨O, O', da, dm, db, h1, h2, h3, h4, h5, h6, h7, h8⟩ := served_leave h
    cases h4
    dsimp only at *
    refine ⟨d ++ (s.phase.own ++ s.others), fun _ => False, O', da + db, 0, 0, fun _ h _ => h, fun g h => h2 g (.inr (h.resolve_left id)), h3.append h5, .nil, .nil,
      fun g => ?_, fun g h => absurd rfl h, fun g h => ?_⟩
    · have := h6 g; simpa using this
    · rcases h with h | h
      · simp only [Pi.add_apply] at h
        exact h8 g (by omega)
      · exact absurd rfl h
  induction h with
  | start => exact held_start _ _
  | step _ st ih => exact held_step (fair_sled _) st ih
  | restart now _ ih =>
    obtain ⟨d, h⟩ := dead ih
    exact ⟨d, OnSled.served_groups rfl h⟩
  | cut now op k hw _ ih =>
    obtain ⟨d, h⟩ := dead ih
    exact ⟨d, OnSled.served_groups rfl h⟩

/-! ### Calls -/

theorem noCalls_calm : OnSled.Calm (fun n m => ∃ es, m.events = n.events ++ es ∧ ∀ c, .called c ∉ es) NoCalls NoCalls where
  aside n m es _ ha hc he hs := noCalls_walks.aside n m es ha hc he hs
  deliver := noCalls_walks.deliver
  pop := noCalls_walks.pop
  panic := trivial
  act h m := h m
  choose h := h
  fresh h := h
  spawn h h' := ⟨h, h'⟩
  sends _ _ _ _ _ _ _ _ hk _ := ⟨⟨[], by simp [Node.newGroup], by simp⟩,
    noCalls_walks.spawnTransfers (fun _ _ => noCalls_walks.transferTask (fun _ => trivial) trivial) _ (hk _)⟩
  route _ _ h := h

theorem plain_sled (pc : PeerCfg) : (Setup.sled pc).Plain := noCalls_calm.task fun _ => trivial

theorem History.noCalls {s : Sys} (h : History pc cfg clock s) : ∀ p ∈ s.phase.own ++ s.others, NoCalls p := by
  induction h with
  | start => intro p hp; cases hp
  | step _ st ih => exact noCalls_cron (plain_sled _) st ih
  | restart => intro p hp; cases hp
  | cut => intro p hp; cases hp

/-! ### The task of the janitor does not panic -/

/-- In states with `I`, the task does not panic, whatever the others do and the tasks that it starts. -/
def Goes (I : Node → Prop) : Prog → Node → Prop
  | .done _, _ => True
  | .panic, _ => False
  | .act f k, n => ∀ m, Base n m → I m → Base m (f m) → Goes I (k m) (f m)
  | .route bp k, n => ∀ m a, Base n m → I m → Goes I (k a) (m.log (.asked bp a))
  | .choose k, n => ∀ b, Goes I (k b) n
  | .fresh k, n => ∀ s, Goes I (k s) n
  | .spawn _ k, n => Goes I k n
  | .wait _ k, n => Goes I k n

variable {I : Node → Prop} {n m : Node}

theorem Goes.mono {p : Prog} : ∀ {n m : Node}, Goes I p n → Base n m → Goes I p m := by
  induction p with
  | done => intro _ _ h _; exact h
  | panic => intro _ _ h _; exact h
  | act f k ih => intro n m h b m' b' i; exact h m' (b.trans b') i
  | route bp k ih => intro n m h b m' a b' i; exact h m' a (b.trans b') i
  | choose k ih => intro n m h b x; exact ih x (h x) b
  | fresh k ih => intro n m h b x; exact ih x (h x) b
  | spawn t k iht ihk => intro n m h b; exact ihk h b
  | wait c k ih => intro n m h b; exact ih h b

theorem Goes.step {p k : Prog} {new : List Prog} (h : Goes I p n) (i : I n) (b : Base n m) (st : TaskStep n p m (k :: new)) : Goes I k m := by
  cases st with
  | act f k => exact h n (.refl _) i b
  | route bp k a => exact h n a (.refl _) i
  | choose k x => exact h x
  | fresh k s => exact h s
  | spawn t k => exact h
  | wait c k hc => exact h

theorem goes_read {k : Node → Prog} (h : ∀ m, Base n m → I m → Goes I (k m) m) : Goes I (.read k) n := fun m b i _ => h m b i

theorem goes_sweep {k : Prog} (ms : List Pack) : ∀ n, (∀ p ∈ ms, n.store.getMetadata p.id ≠ none) → (∀ n', Base n n' → Goes I k n') →
    Goes I (OnSled.sweep ms k) n := by
  induction ms with
  | nil => intro n _ hk; exact hk n (.refl n)
  | cons p ms ih =>
    intro n hp hk
    unfold OnSled.sweep
    refine goes_read fun m bm _ => ?_
    split
    · unfold OnSled.remove
      intro m2 b2 i2 bf
      have b2' := bm.trans b2
      rcases OnSled.remove_cases m2 p.id fun _ => OnSled.sweep ms k with ⟨-, h⟩ | ⟨h, -⟩
      · exact absurd h (b2'.known _ (hp p (by simp)))
      · dsimp only
        rw [h]
        have bf' := b2'.trans bf
        exact ih _ (fun q hq => bf'.known _ (hp q (by simp [hq]))) fun n' b' => hk n' (bf'.trans b')
    · exact ih m (fun q hq => bm.known _ (hp q (by simp [hq]))) fun n' b' => hk n' (bm.trans b')

theorem goes_collect {k : List Pack → Prog} (hk : ∀ n packs, Goes I (k packs) n) (bids : List String) :
    ∀ acc n, (∀ x ∈ bids, n.store.getMetadata x ≠ none) → Goes I (OnSled.collect bids acc k) n := by
  induction bids with
  | nil => intro acc n _; exact hk n acc
  | cons x bids ih =>
    intro acc n hx
    unfold OnSled.collect OnSled.getMetadata
    refine goes_read fun m bm im => ?_
    have hall : ∀ y ∈ bids, m.store.getMetadata y ≠ none := fun y hy => bm.known _ (hx y (by simp [hy]))
    have hmx := bm.known _ (hx x (by simp))
    unfold MemStore.getMetadata at hmx
    unfold SledStore.getMetadata OnSled.db
    dsimp only
    cases hq : AList.get? m.store.metadata x with
    | none => exact absurd hq hmx
    | some q => exact ih _ _ hall

/-- With parallel processing, the janitor itself never panics. -/
theorem goes_janitor (hI : ∀ m, I m → m.store.Inv ∧ m.cfg.parallel = true) (n : Node) : Goes I OnSled.processBundles n := by
  unfold OnSled.processBundles
  refine goes_read fun m1 _ i1 => ?_
  refine goes_sweep _ m1 ?_ fun n1 b1 => ?_
  · intro p hp
    have hp' : p ∈ m1.store.packs := (List.mem_filter.mp hp).1
    rw [(MemStore.mem_packs_iff (hI m1 i1).1 p).mp hp']; simp
  refine goes_read fun m2 _ i2 => ?_
  split
  · trivial
  refine goes_read fun m3 _ i3 => ?_
  have hf : (OnSled.db m3).forwarding = m3.store.forwarding := rfl
  rw [hf]
  refine goes_collect ?_ _ _ _ ?_
  · intro n4 packs
    refine goes_read fun m5 _ i5 => ?_
    rw [(hI m5 i5).2]
    generalize packs.mergeSort _ = l
    induction l with
    | nil => trivial
    | cons bp bps ih =>
      unfold OnSled.forwardAll
      rw [if_pos rfl]
      exact ih
  · intro x hx
    obtain ⟨p, h, -⟩ := (mem_forwarding_iff (hI m3 i3).1 _).mp hx
    rw [h]; simp

/-- The janitor has not stopped and is not about to. -/
def On (I : Node → Prop) (s : Sys) : Prop :=
  match s.phase with
  | .waiting => True
  | .round main _ => ∀ p, main = some p → Goes I p s.node
  | .stopped => False

theorem on_step (hj : ∀ n, Goes I (OnSled.task .janitor) n) {s t : Sys} (st : Step (.sled pc) s t) (b : Base s.node t.node) (i : I s.node) (h : On I s) :
    On I t := by
  rcases st with st | st
  · cases st with
    | tick n others => rintro p ⟨⟩; exact hj _
    | main n n' p k new started others st => rintro _ ⟨⟩; exact (h p rfl).step i b st
    | returned n ok started others => rintro _ ⟨⟩
    | panicked n started others => exact (h _ rfl).elim
    | started n n' main l r p ps others st => exact fun q hq => (h q hq).mono b
    | ended n others => trivial
  · cases st with
    | task n n' ph l r p ps st =>
      cases ph with
      | waiting => trivial
      | stopped => exact h
      | round main started => exact fun q hq => (h q hq).mono b
    | call n ph others c hc =>
      cases ph with
      | waiting => trivial
      | stopped => exact h
      | round main started => exact fun q hq => (h q hq).mono b
    | change n n' ph others hc =>
      cases ph with
      | waiting => trivial
      | stopped => exact h
      | round main started => exact fun q hq => (h q hq).mono b

theorem History.on (parallel : cfg.parallel = true) {s : Sys} (h : History pc cfg clock s) :
    On (fun m => m.store.Inv ∧ m.cfg.parallel = true) s := by
  induction h with
  | start => trivial
  | step hs st ih =>
    exact on_step (goes_janitor fun _ i => i) st (hs.base st) ⟨hs.good.1.inv, by rw [hs.good.2]; exact parallel⟩ ih
  | restart => trivial
  | cut => trivial

/-! ### Expired bundles -/

theorem sled_will_sweep {D : Node → Prop} {bid : String} {T : Nat}
    (hI : ∀ m, I m → m.store.getBundle bid ≠ none ∧ m.store.Inv ∧ T ≤ m.dtnNow)
    {p : Pack} (hid : p.id = bid) (hp : p.creationTime + p.lifetime < 2 ^ 64) (hx : Expired T p) {k : Prog} :
    ∀ (ms : List Pack), p ∈ ms → ∀ n, (∀ q ∈ ms, n.store.getMetadata q.id ≠ none) → Will I D (OnSled.sweep ms k) n := by
  intro ms
  induction ms with
  | nil => intro h; cases h
  | cons q ms ih =>
    intro h n hk
    unfold OnSled.sweep
    refine will_read fun m bm im => ?_
    by_cases hq : q.hasExpired m.dtnNow = true
    · rw [if_pos hq]
      unfold OnSled.remove
      refine will_act fun m2 b2 i2 bf i2' => .inr ?_
      have bf' := bm.trans bf
      rcases OnSled.remove_cases m2 q.id fun _ => OnSled.sweep ms k with ⟨-, hn⟩ | ⟨he, -⟩
      · exact absurd hn ((bm.trans b2).known _ (hk q (by simp)))
      rw [he]
      rcases List.mem_cons.mp h with rfl | h
      · exfalso
        refine (hI _ i2').1 ?_
        rw [OnSled.remove_eq (hI m2 i2).2.1]
        have : (m2.store.remove p.id).1.getBundle bid = none := by rw [MemStore.getBundle_remove (hI m2 i2).2.1, hid]; simp
        unfold Node.remove
        split <;> exact this
      · exact ih h _ fun q hq => bf'.known _ (hk q (by simp [hq]))
    · rw [if_neg hq]
      rcases List.mem_cons.mp h with rfl | h
      · exfalso
        refine hq ?_
        unfold Pack.hasExpired
        rw [if_neg hx.1, Nat.mod_eq_of_lt (show _ < u64 from hp)]
        have := (hI m im).2.2
        have := hx.2
        simp only [decide_eq_true_eq]
        omega
      · exact ih h _ fun q hq => bm.known _ (hk q (by simp [hq]))

/-- A run of the janitor leaves no bundle in the store that was overdue all the time. -/
theorem sled_will_expired {D : Node → Prop} {bid : String} {T : Nat}
    (hI : ∀ m, I m → m.store.getBundle bid ≠ none ∧ m.store.Inv ∧ Overdue bid T m) (n : Node) : Will I D (OnSled.task .janitor) n := by
  refine will_read fun m _ im => ?_
  obtain ⟨h1, h2, ⟨p, h3, h4, h5, h6⟩, h7⟩ := hI m im
  have hid := h2.metaId _ _ h3
  refine sled_will_sweep (fun m i => ⟨(hI m i).1, (hI m i).2.1, (hI m i).2.2.2⟩) hid h5 h6 _ (List.mem_filter.mpr ⟨?_, by rw [h4]; rfl⟩) _ ?_
  · exact (MemStore.mem_packs_iff h2 p).mpr (by rw [hid]; exact h3)
  · intro q hq
    have hq' : q ∈ m.store.packs := (List.mem_filter.mp hq).1
    rw [(MemStore.mem_packs_iff h2 q).mp hq']; simp

end Dtn.Cron
