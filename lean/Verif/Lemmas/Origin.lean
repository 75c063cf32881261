import Verif.Lemmas.ProcCalls
import Verif.Lemmas.ProcSent
import Verif.Spec.Origin
/-! Every bundle at a node was given to it. -/

namespace Dtn.Proc
open Routing (Notification Answer)
open Spec

/-- Nothing that happened is forgotten. -/
def Onward (n m : Node) : Prop := n.events <+: m.events ∧ m.cfg.hostEid = n.cfg.hostEid

theorem Onward.refl (n : Node) : Onward n n := ⟨List.prefix_rfl, rfl⟩
theorem Onward.trans {a b c : Node} (h : Onward a b) (k : Onward b c) : Onward a c :=
  ⟨h.1.trans k.1, k.2.trans h.2⟩
theorem Onward.mem {n m : Node} (h : Onward n m) {e : Event} (he : e ∈ n.events) : e ∈ m.events := h.1.subset he
theorem Onward.log (n : Node) (e : Event) : Onward n (n.log e) := ⟨List.prefix_append _ _, rfl⟩

theorem known_mono {n m : Node} {b : Bundle} (h : Known n b) (g : Onward n m) : Known m b := by
  rcases h with h | ⟨b0, h, k⟩ | ⟨r, h, k⟩
  · exact .inl (g.mem h)
  · exact .inr (.inl ⟨b0, g.mem h, k⟩)
  · exact .inr (.inr ⟨r, g.mem h, k⟩)

theorem meant_mono {n m : Node} {e : EID} {b : Bundle} (h : MeantFor n e b) (g : Onward n m) : MeantFor m e b := by
  obtain ⟨h, b', h1, h2⟩ := h
  exact ⟨known_mono h g, b', known_mono h1 g, h2⟩

theorem keptOf_refl (b : Bundle) : KeptOf b b := ⟨rfl, List.Sublist.refl _, fun _ => .inl rfl⟩

variable {A : Bundle → Prop}

/-- What is known about an event, if received bundles have the property `A`. -/
def Fine (A : Bundle → Prop) (n : Node) : Event → Prop
  | .delivered e b _ => MeantFor n e b
  | .popped e b => MeantFor n e b
  | .sending t => Known n t.stored ∧ Copied n.cfg.hostEid t
  | .called (.receive b) => A b
  | .note (.incomingBundle b) => Known n b
  | _ => True

theorem fine_mono {n m : Node} {e : Event} (h : Fine A n e) (g : Onward n m) : Fine A m e := by
  cases e with
  | delivered => exact meant_mono h g
  | popped => exact meant_mono h g
  | sending => exact ⟨known_mono h.1 g, g.2 ▸ h.2⟩
  | called c => cases c <;> exact h
  | note x => cases x <;> first | exact known_mono h g | trivial
  | _ => trivial

/-- Every bundle at the node was given to it. -/
structure Sound (A : Bundle → Prop) (n : Node) : Prop where
  inv : n.store.Inv
  stored : ∀ bid b, n.store.getBundle bid = some b → b.id = bid ∧ Known n b
  queues : ∀ a ∈ n.agents, ∀ b ∈ a.queue, MeantFor n a.eid b
  fine : ∀ e ∈ n.events, Fine A n e

theorem Sound.start (cfg : Config) (clock : Nat) : Sound A (Node.start cfg clock) := by
  refine ⟨MemStore.Inv.new, ?_, ?_, ?_⟩
  · intro bid b h; simp [Node.start, MemStore.new, MemStore.getBundle] at h
  · intro a h; simp [Node.start] at h
  · intro e h; simp [Node.start] at h

theorem Sound.step {n m : Node} (h : Sound A n) (o : Option Event) (he : m.events = n.events ++ o.toList) (inv : m.store.Inv)
    (hc : m.cfg.hostEid = n.cfg.hostEid)
    (hs : ∀ bid b, m.store.getBundle bid = some b → n.store.getBundle bid = some b ∨ (b.id = bid ∧ Known m b))
    (hq : ∀ a ∈ m.agents, ∀ b ∈ a.queue, (∃ a' ∈ n.agents, a'.eid = a.eid ∧ b ∈ a'.queue) ∨ MeantFor m a.eid b)
    (ho : ∀ e, o = some e → Fine A m e) : Onward n m ∧ Sound A m := by
  have g : Onward n m := by refine ⟨?_, hc⟩; rw [he]; exact List.prefix_append _ _
  refine ⟨g, inv, ?_, ?_, ?_⟩
  · intro bid b hb
    rcases hs bid b hb with h1 | h1
    · exact ⟨(h.stored bid b h1).1, known_mono (h.stored bid b h1).2 g⟩
    · exact h1
  · intro a ha b hb
    rcases hq a ha b hb with ⟨a', h1, h2, h3⟩ | h1
    · rw [← h2]; exact meant_mono (h.queues a' h1 b h3) g
    · exact h1
  · intro e h1
    rw [he, List.mem_append] at h1
    rcases h1 with h1 | h1
    · exact fine_mono (h.fine e h1) g
    · exact ho e (by simpa using h1)

theorem Sound.same {n m : Node} (h : Sound A n) (he : m.events = n.events) (inv : m.store.Inv) (hc : m.cfg.hostEid = n.cfg.hostEid)
    (hs : ∀ bid b, m.store.getBundle bid = some b → n.store.getBundle bid = some b)
    (hq : m.agents = n.agents) : Onward n m ∧ Sound A m :=
  h.step none (by simpa using he) inv hc (fun bid b hb => .inl (hs bid b hb))
    (fun a ha b hb => .inl ⟨a, hq ▸ ha, rfl, hb⟩) (by simp)

theorem Sound.log {n : Node} (h : Sound A n) (e : Event) (hf : Fine A (n.log e) e) : Onward n (n.log e) ∧ Sound A (n.log e) :=
  h.step (some e) rfl h.inv rfl (fun _ _ => .inl) (fun a ha b hb => .inl ⟨a, ha, rfl, hb⟩) (by rintro _ ⟨⟩; exact hf)

theorem Sound.push {n : Node} (h : Sound A n) (b : Bundle) (hb : Known n b) : Onward n (n.push b) ∧ Sound A (n.push b) := by
  refine h.step none (by simp [Node.push]) (h.inv.push _ _) rfl ?_ (fun a ha b hb => .inl ⟨a, ha, rfl, hb⟩) (by simp)
  intro bid b' h1
  simp only [Node.push, MemStore.getBundle_push] at h1
  split at h1
  · rename_i hid
    cases h1
    exact .inr ⟨hid.symm, hb⟩
  · exact .inl h1

theorem Sound.accept {n : Node} (h : Sound A n) (b : Bundle) (hb : Known n b) :
    Onward n (n.addIfUnknown b) ∧ Sound A (n.addIfUnknown b) := by
  by_cases hi : n.store.hasItem b.id = true
  · have hn : n.addIfUnknown b = n.log (.duplicate b) := by simp [Node.addIfUnknown, MemStore.addIfUnknown, hi]
    rw [hn]
    exact h.log _ trivial
  · have hn : n.addIfUnknown b = (n.push b).log (.accepted b) := by
      simp [Node.addIfUnknown, MemStore.addIfUnknown, hi, Node.push]
    rw [hn]
    obtain ⟨g, k⟩ := h.push b hb
    obtain ⟨g', k'⟩ := k.log (.accepted b) trivial
    exact ⟨g.trans g', k'⟩

theorem Sound.remove {n : Node} (h : Sound A n) (bid : String) (c : Cause) : Onward n (n.remove bid c) ∧ Sound A (n.remove bid c) := by
  have hs : ∀ j b, (n.store.remove bid).1.getBundle j = some b → n.store.getBundle j = some b := by
    intro j b hb
    rw [MemStore.getBundle_remove h.inv] at hb
    split at hb
    · cases hb
    · exact hb
  obtain ⟨g, k⟩ := h.same (m := { n with store := (n.store.remove bid).1 }) rfl (h.inv.remove _) rfl hs rfl
  unfold Node.remove
  split
  · obtain ⟨g', k'⟩ := k.log (.removed bid c) trivial
    exact ⟨g.trans g', k'⟩
  · exact ⟨g, k⟩

theorem Sound.sync {n : Node} (h : Sound A n) (bp : Pack) (c : Cause) : Onward n (n.sync bp c) ∧ Sound A (n.sync bp c) := by
  unfold Node.sync
  split
  · exact h.remove _ _
  · exact h.same rfl (h.inv.update _) rfl (by simp [MemStore.getBundle_update]) rfl

theorem mem_modify {f : AppAgent → AppAgent} {eid : EID} {r : Registry} {a : AppAgent} (h : a ∈ Registry.modify f eid r) :
    a ∈ r ∨ ∃ a' ∈ r, a'.eid = eid ∧ a = f a' := by
  induction r with
  | nil => simp [Registry.modify] at h
  | cons x r ih =>
    unfold Registry.modify at h
    split at h
    · rename_i hx
      rcases List.mem_cons.mp h with rfl | h
      · exact .inr ⟨x, by simp, hx.symm, rfl⟩
      · exact .inl (by simp [h])
    · rcases List.mem_cons.mp h with rfl | h
      · exact .inl (by simp)
      · rcases ih h with h | ⟨a', h1, h2⟩
        · exact .inl (by simp [h])
        · exact .inr ⟨a', by simp [h1], h2⟩

theorem Sound.deliver {n : Node} (h : Sound A n) (e : EID) (b : Bundle) (room : Bool) (hb : MeantFor n e b) :
    Onward n (n.deliver e b room) ∧ Sound A (n.deliver e b room) := by
  unfold Node.deliver
  split
  · exact ⟨.refl _, h⟩
  · rename_i a ha
    have hb' : ∀ m : Node, Onward n m → MeantFor m e b := fun m g => meant_mono hb g
    refine h.step (some (.delivered e b (a.push b room).2)) rfl h.inv rfl (fun _ _ => .inl) ?_ ?_
    · intro x hx b' hb'
      rcases mem_modify (by simpa [Node.log] using hx) with hx | ⟨a', h1, h2, rfl⟩
      · exact .inl ⟨x, hx, rfl, hb'⟩
      · have hid : (a'.push b room).1.eid = a'.eid := by
          unfold AppAgent.push; split
          · split <;> rfl
          · rfl
        rw [hid]
        have : b' ∈ a'.queue ∨ b' = b := by
          unfold AppAgent.push at hb'
          split at hb'
          · split at hb'
            · simpa using hb'
            · exact .inl hb'
          · simpa using hb'
        rcases this with h3 | rfl
        · exact .inl ⟨a', h1, rfl, h3⟩
        · right; rw [h2]; exact meant_mono hb ⟨List.prefix_append _ _, rfl⟩
    · rintro _ ⟨⟩
      exact meant_mono hb ⟨List.prefix_append _ _, rfl⟩

theorem find_mem {r : Registry} {e : EID} {a : AppAgent} (h : r.find e = some a) : a ∈ r ∧ a.eid = e := by
  unfold Registry.find at h
  exact ⟨List.mem_of_find?_eq_some h, by simpa [eq_comm] using List.find?_some h⟩

theorem pop_queue {a : AppAgent} : a.pop.1.eid = a.eid ∧ (∀ b ∈ a.pop.1.queue, b ∈ a.queue) ∧ ∀ b, a.pop.2 = some b → b ∈ a.queue := by
  unfold AppAgent.pop
  split
  · simp
  · rename_i b bs hq
    refine ⟨rfl, ?_, ?_⟩
    · intro x hx; rw [hq]; simp [show x ∈ bs from hx]
    · rintro x ⟨⟩; rw [hq]; simp

theorem Sound.pop {n : Node} (h : Sound A n) (e : EID) : Onward n (n.popAgent e) ∧ Sound A (n.popAgent e) := by
  unfold Node.popAgent
  split
  · exact ⟨.refl _, h⟩
  · rename_i a ha
    obtain ⟨hm, he⟩ := find_mem ha
    split
    · exact ⟨.refl _, h⟩
    · rename_i b hp
      refine h.step (some (.popped e b)) rfl h.inv rfl (fun _ _ => .inl) ?_ ?_
      · intro x hx b' hb'
        rcases mem_modify (by simpa [Node.log] using hx) with hx | ⟨a', h1, h2, rfl⟩
        · exact .inl ⟨x, hx, rfl, hb'⟩
        · exact .inl ⟨a', h1, pop_queue.1.symm, pop_queue.2.1 _ hb'⟩
      · rintro _ ⟨⟩
        rw [← he]
        exact meant_mono (h.queues a hm b (pop_queue.2.2 b hp)) ⟨List.prefix_append _ _, rfl⟩

theorem Sound.outside {n m : Node} (o : Outside n m) (h : Sound A n) : Onward n m ∧ Sound A m := by
  cases o with
  | clock | peers | cla => exact h.same rfl h.inv rfl (fun _ _ h => h) rfl
  | register eid =>
    refine h.step none (by simp) h.inv rfl (fun _ _ => .inl) ?_ (by simp)
    intro a ha b hb
    unfold Registry.register at ha
    split at ha
    · exact .inl ⟨a, ha, rfl, hb⟩
    · rcases List.mem_append.mp ha with ha | ha
      · exact .inl ⟨a, ha, rfl, hb⟩
      · simp only [List.mem_singleton] at ha; subst ha; simp [AppAgent.with] at hb
  | unregister eid =>
    refine h.step none (by simp) h.inv rfl (fun _ _ => .inl) ?_ (by simp)
    intro a ha b hb
    exact .inl ⟨a, List.mem_of_mem_eraseP ha, rfl, hb⟩
  | subscribe eid ch =>
    refine h.step none (by simp) h.inv rfl (fun _ _ => .inl) ?_ (by simp)
    intro a ha b hb
    rcases mem_modify ha with ha | ⟨a', h1, h2, rfl⟩
    · exact .inl ⟨a, ha, rfl, hb⟩
    · exact .inl ⟨a', h1, rfl, hb⟩
  | unsubscribe eid =>
    refine h.step none (by simp) h.inv rfl (fun _ _ => .inl) ?_ (by simp)
    intro a ha b hb
    rcases mem_modify ha with ha | ⟨a', h1, h2, rfl⟩
    · exact .inl ⟨a, ha, rfl, hb⟩
    · exact .inl ⟨a', h1, rfl, hb⟩

/-- The task handles only bundles that were given to the node. -/
def Honest (A : Bundle → Prop) (p : Prog) (n : Node) : Prop := RG (Sound A) Onward p (fun _ _ => True) n

variable {n : Node}

theorem Honest.mono {p : Prog} {m : Node} (h : Honest A p n) (g : Onward n m) : Honest A p m :=
  RG.mono (G := Onward) (fun _ _ _ => Onward.trans) h g

theorem ho_read {k : Node → Prog} (h : ∀ m, Onward n m → Sound A m → Honest A (k m) m) : Honest A (.read k) n :=
  fun m g i => ⟨⟨.refl _, i⟩, h m g i⟩

theorem ho_act {f : Node → Node} {k : Node → Prog} (h : ∀ m, Onward n m → Sound A m → Onward m (f m) ∧ Sound A (f m))
    (hk : ∀ m, Onward n m → Sound A m → Onward n (f m) → Honest A (k m) (f m)) : Honest A (.act f k) n :=
  fun m g i => ⟨h m g i, hk m g i (g.trans (h m g i).1)⟩

theorem ho_set {f : Node → Node} {k : Prog} (h : ∀ m, Onward n m → Sound A m → Onward m (f m) ∧ Sound A (f m))
    (hk : Honest A k n) : Honest A (.set f k) n :=
  ho_act h fun _ _ _ g => hk.mono g

theorem ho_done {ok : Bool} : Honest A (.done ok) n := fun _ _ _ => trivial
theorem ho_panic : Honest A .panic n := fun _ _ _ => trivial

theorem ho_route {bp : Pack} {k : Option Answer → Prog} (hk : ∀ a, Honest A (k a) n) : Honest A (.route bp k) n :=
  fun _ g i a => ⟨i.log _ trivial, (hk a).mono (g.trans (.log _ _))⟩

attribute [local irreducible] Honest

theorem ho_choose {k : Bool → Prog} (h : ∀ b, Honest A (k b) n) : Honest A (.choose k) n := by
  unfold Honest at *; exact h
theorem ho_fresh {k : String → Prog} (h : ∀ b, Honest A (k b) n) : Honest A (.fresh k) n := by
  unfold Honest at *; exact h
theorem ho_spawn {t k : Prog} (ht : Honest A t n) (h : Honest A k n) : Honest A (.spawn t k) n := by
  unfold Honest at *; exact ⟨ht, h⟩
theorem ho_wait {c : Node → Bool} {k : Prog} (h : Honest A k n) : Honest A (.wait c k) n := by
  unfold Honest at *; exact fun m g _ _ => RG.mono (G := Onward) (fun _ _ _ => Onward.trans) h g

theorem ho_stats {f : Node → Node} {k : Prog} (he : ∀ m, (f m).events = m.events) (hcfg : ∀ m, (f m).cfg = m.cfg) (hst : ∀ m, (f m).store = m.store)
    (hq : ∀ m, (f m).agents = m.agents) (hk : Honest A k n) : Honest A (.set f k) n :=
  ho_set (fun m _ i => i.same (he m) (by rw [hst]; exact i.inv) (by rw [hcfg]) (by intro _ _ h; rwa [hst] at h) (hq m)) hk

theorem ho_sendReport {bp : Pack} {cause : Bundle} {pos : Pos} {reason : Reason} {k : Prog} (hk : Honest A k n) :
    Honest A (sendReport bp cause pos reason k) n := by
  unfold sendReport
  split
  · exact hk
  · refine ho_read fun m g _ => ?_
    split
    · exact hk.mono g
    · refine ho_read fun m2 g2 _ => ?_
      split
      · exact hk.mono (g.trans g2)
      · refine ho_fresh fun bid => ho_act ?_ ?_
        · intro m3 _ i3
          refine i3.step (some _) (by simp only [Node.log, Node.push]; rfl) (i3.inv.push _ _) rfl ?_
            (fun a ha b hb => .inl ⟨a, ha, rfl, hb⟩) (by rintro _ ⟨⟩; trivial)
          intro j b hb
          simp only [Node.log, Node.push, MemStore.getBundle_push] at hb
          split at hb
          · rename_i hid
            cases hb
            exact .inr ⟨hid.symm, .inr (.inr ⟨_, by simp only [Node.log]; exact List.mem_append_right _ (List.mem_singleton.mpr rfl), rfl⟩)⟩
          · exact .inl hb
        · intro m3 _ _ g3
          exact ho_set (fun m4 _ i4 => i4.sync _ _) (hk.mono ((g.trans g2).trans g3))

theorem ho_reportIf {asked : Bool} {bp : Pack} {b : Bundle} {pos : Pos} {reason : Reason} {k : Prog} (hk : Honest A k n) :
    Honest A (reportIf asked bp b pos reason k) n := by
  unfold reportIf
  refine ho_read fun m g _ => ?_
  split
  · exact ho_sendReport (hk.mono g)
  · exact hk.mono g

theorem ho_delete {bp : Pack} {reason : Reason} {cause : Cause} {k : Bool → Prog} (hk : ∀ ok, Honest A (k ok) n) :
    Honest A (delete bp reason cause k) n := by
  unfold delete
  refine ho_read fun m g _ => ?_
  split
  · exact (hk _).mono g
  · exact ho_reportIf (ho_act (fun m _ i => i.sync _ _) fun m' _ _ g' => (hk _).mono (g.trans g'))

theorem ho_inspectReport {b : Bundle} {r : AdminRecord} {k : Prog} (hk : Honest A k n) : Honest A (inspectReport b r k) n := by
  unfold inspectReport
  split
  · split
    · exact hk
    · refine ho_read fun m g _ => ?_
      split
      · exact hk.mono g
      · split
        · exact hk.mono g
        · exact ho_set (fun m _ i => i.remove _ _) (hk.mono g)
  · exact hk

theorem ho_adminValid {b : Bundle} {k : Bool → Prog} (hk : ∀ ok, Honest A (k ok) n) : Honest A (adminValid b k) n := by
  unfold adminValid
  split
  · exact hk _
  · split
    · exact hk _
    · split
      · refine ho_read fun m g _ => ?_
        split
        · exact ho_inspectReport ((hk _).mono g)
        · exact (hk _).mono g
      · exact hk _

theorem ho_contraindicated {bp : Pack} {k : Bool → Prog} (hk : ∀ ok, Honest A (k ok) n) : Honest A (contraindicated bp k) n := by
  unfold contraindicated
  exact ho_act (fun m _ i => i.sync _ _) fun m _ _ g => (hk _).mono g

theorem Sound.removeIfSingleton {n : Node} (h : Sound A n) (b : Bundle) :
    Onward n (n.removeIfSingleton b) ∧ Sound A (n.removeIfSingleton b) := by
  unfold Node.removeIfSingleton
  split
  · exact h.remove _ _
  · exact ⟨.refl _, h⟩

theorem ho_giveToAgent {e : EID} {b : Bundle} {k : Bool → Prog} (hb : MeantFor n e b) (hk : ∀ ok, Honest A (k ok) n) :
    Honest A (giveToAgent e b k) n := by
  unfold giveToAgent
  refine ho_choose fun room => ho_act (fun m g i => i.deliver e b room (meant_mono hb g)) fun m g _ g' => ?_
  split
  · exact (hk _).mono g'
  · dsimp only
    split
    · exact ho_set (fun m _ i => i.removeIfSingleton b)
        (ho_stats (fun _ => rfl) (fun _ => rfl) (fun _ => rfl) (fun _ => rfl) ((hk _).mono g'))
    · exact ho_stats (fun _ => rfl) (fun _ => rfl) (fun _ => rfl) (fun _ => rfl) ((hk _).mono g')

theorem ho_finishDelivery {bp : Pack} {b : Bundle} {k : Bool → Prog} (hb : MeantFor n bp.destination b)
    (hk : ∀ ok, Honest A (k ok) n) : Honest A (finishDelivery bp b k) n := by
  unfold finishDelivery
  refine ho_act (fun m _ i => i.sync _ _) fun m g _ g' => ?_
  split
  · exact (hk _).mono g'
  · exact ho_giveToAgent (meant_mono hb g') fun ok => (hk ok).mono g'

theorem ho_deliverBundle {bp : Pack} {b : Bundle} {k : Bool → Prog} (hb : MeantFor n bp.destination b)
    (hk : ∀ ok, Honest A (k ok) n) : Honest A (deliverBundle bp b k) n := by
  unfold deliverBundle
  refine ho_act (fun m _ i => i.sync _ _) fun m g _ g' => ?_
  split
  · exact (hk _).mono g'
  · refine ho_read fun m2 g2 _ => ?_
    have g3 := g'.trans g2
    split
    · exact ho_reportIf (ho_finishDelivery (meant_mono hb g3) fun ok => (hk ok).mono g3)
    · exact ho_finishDelivery (meant_mono hb g3) fun ok => (hk ok).mono g3

/-- A bundle with this id and this destination was given to the node. -/
def Named (n : Node) (bp : Pack) : Prop := ∃ b', Known n b' ∧ b'.id = bp.id ∧ b'.primary.destination = bp.destination

theorem Named.mono {m : Node} {bp : Pack} (h : Named n bp) (g : Onward n m) : Named m bp := by
  obtain ⟨b', h, k⟩ := h; exact ⟨b', known_mono h g, k⟩

theorem Named.meant {bp : Pack} {b : Bundle} (h : Named n bp) (i : Sound A n) (hb : n.store.getBundle bp.id = some b) :
    MeantFor n bp.destination b := by
  obtain ⟨b', h1, h2, h3⟩ := h
  obtain ⟨h4, h5⟩ := i.stored _ _ hb
  exact ⟨h5, b', h1, h2.trans h4.symm, h3⟩

theorem ho_localDelivery {bp : Pack} {k : Bool → Prog} (hp : Named n bp) (hk : ∀ ok, Honest A (k ok) n) :
    Honest A (localDelivery bp k) n := by
  unfold localDelivery
  refine ho_read fun m g i => ?_
  split
  · exact (hk _).mono g
  · rename_i b hb
    have hm := (hp.mono g).meant i hb
    split
    · refine ho_adminValid fun ok => ?_
      split
      · exact ho_delete fun _ => (hk _).mono g
      · exact ho_deliverBundle hm fun ok => (hk ok).mono g
    · exact ho_deliverBundle hm fun ok => (hk ok).mono g

theorem ho_transferTask {bid : String} {t : Transfer} (h : Known n t.stored ∧ Copied n.cfg.hostEid t) : Honest A (transferTask bid t) n := by
  unfold transferTask
  refine ho_set (fun m g i => i.log _ ⟨known_mono h.1 (g.trans (.log _ _)), g.2 ▸ h.2⟩) <| ho_choose fun ok =>
    ho_set (fun m _ i => i.log _ trivial) ?_
  split
  · refine ho_stats (fun _ => rfl) (fun _ => rfl) (fun _ => rfl) (fun _ => rfl) ?_
    split
    · exact ho_stats (fun _ => rfl) (fun _ => rfl) (fun _ => rfl) (fun _ => rfl) ho_panic
    · exact ho_set (fun m _ i => i.log _ trivial) <|
        ho_act (fun m _ i => i.same rfl i.inv rfl (fun _ _ h => h) rfl) fun m _ _ _ =>
        ho_stats (fun _ => rfl) (fun _ => rfl) (fun _ => rfl) (fun _ => rfl) <|
        ho_stats (fun _ => rfl) (fun _ => rfl) (fun _ => rfl) (fun _ => rfl) ho_done
  · refine ho_stats (fun _ => rfl) (fun _ => rfl) (fun _ => rfl) (fun _ => rfl) <|
      ho_stats (fun _ => rfl) (fun _ => rfl) (fun _ => rfl) (fun _ => rfl) ?_
    split
    · exact ho_stats (fun _ => rfl) (fun _ => rfl) (fun _ => rfl) (fun _ => rfl) ho_panic
    · exact ho_set (fun m _ i => i.log _ trivial) <|
        ho_stats (fun _ => rfl) (fun _ => rfl) (fun _ => rfl) (fun _ => rfl) ho_done

theorem ho_spawnTransfers {bid : String} {mk : Sender → Transfer} {k : Prog} (ss : List Sender)
    (h : ∀ s, Known n (mk s).stored ∧ Copied n.cfg.hostEid (mk s)) (hk : Honest A k n) : Honest A (spawnTransfers bid mk ss k) n := by
  induction ss with
  | nil => exact hk
  | cons s ss ih => exact ho_spawn (ho_transferTask (h s)) ih

theorem ho_afterTransfers {bp : Pack} {b : Bundle} {a : Answer} {g : Nat} {k : Bool → Prog} (hk : ∀ ok, Honest A (k ok) n) :
    Honest A (afterTransfers bp b a g k) n := by
  unfold afterTransfers
  refine ho_read fun m g _ => ?_
  split
  · refine ho_reportIf ?_
    split
    · exact ho_act (fun m _ i => i.remove _ _) fun m _ _ g' => (hk _).mono (g.trans g')
    · split
      · exact ho_adminValid fun _ => ho_contraindicated fun ok => (hk ok).mono g
      · exact (hk _).mono g
  · exact (hk _).mono g

theorem ho_sendAll {bp : Pack} {b out : Bundle} {a : Answer} {c d : Nat} {r : Option Nat} {k : Bool → Prog} (hb : Known n b)
    (hc : ∀ g s, Copied n.cfg.hostEid ⟨g, b, out, s, c, d, r⟩) (hk : ∀ ok, Honest A (k ok) n) : Honest A (sendAll bp b out a c d r k) n := by
  unfold sendAll
  refine ho_act (fun m _ i => i.same rfl i.inv rfl (fun _ _ h => h) rfl) fun m _ _ g => ?_
  exact ho_spawnTransfers _ (fun _ => ⟨known_mono hb g, g.2 ▸ hc _ _⟩) (ho_wait (ho_afterTransfers fun ok => (hk ok).mono g))

theorem ho_prepare {bp : Pack} {a : Answer} {k : Bool → Prog} (hk : ∀ ok, Honest A (k ok) n) : Honest A (prepare bp a k) n := by
  unfold prepare
  refine ho_read fun m g i => ?_
  split
  · exact (hk _).mono g
  · rename_i b hb
    have hb := (i.stored _ _ hb).2
    refine ho_read fun m2 g1 _ => ?_
    have g2 := g.trans g1
    split
    · exact ho_read fun m3 g3 _ => ho_delete fun _ => (hk _).mono (g2.trans g3)
    · rename_i hl
      dsimp only
      split
      · exact ho_read fun m3 g3 _ => ho_delete fun _ => (hk _).mono (g2.trans g3)
      · rename_i hh
        refine ho_read fun m3 g3 _ => ?_
        split
        · exact ho_panic
        · rename_i b2 hb2
          refine ho_read fun m4 g4' _ => ?_
          have g4 := (g2.trans g3).trans g4'
          split
          · exact ho_read fun m5 g5 _ => ho_delete fun _ => (hk _).mono (g4.trans g5)
          · rename_i ho
            refine ho_sendAll (known_mono hb (g1.trans (g3.trans g4'))) (fun g s => ⟨eq_false_of_ne_true hl, by simpa using hh, b2, ?_, rfl,
              by simpa using ho⟩) fun ok => (hk ok).mono g4
            rw [g4'.2]; exact hb2

theorem ho_forward {bp : Pack} {k : Bool → Prog} (hk : ∀ ok, Honest A (k ok) n) : Honest A (forward bp k) n := by
  unfold forward
  refine ho_act (fun m _ i => i.sync _ _) fun m _ _ g => ?_
  split
  · exact (hk _).mono g
  · refine ho_route fun a => ?_
    split
    · exact (hk _).mono g
    · split
      · split
        · exact ho_act (fun m _ i => i.remove _ _) fun m _ _ g' => (hk _).mono (g.trans g')
        · exact (hk _).mono g
      · exact ho_prepare fun ok => (hk ok).mono g

theorem ho_dispatchRemote {bp : Pack} {k : Bool → Prog} (hk : ∀ ok, Honest A (k ok) n) : Honest A (dispatchRemote bp k) n := by
  unfold dispatchRemote
  refine ho_read fun m g _ => ?_
  split
  · exact ho_spawn (ho_forward fun _ => ho_done) ((hk _).mono g)
  · exact (hk _).mono g

theorem ho_dispatch {bp : Pack} {k : Bool → Prog} (hp : Named n bp) (hk : ∀ ok, Honest A (k ok) n) : Honest A (dispatch bp k) n := by
  unfold dispatch
  refine ho_read fun m g i => ?_
  split
  · exact ho_panic
  · rename_i b hb
    have hb := (i.stored _ _ hb).2
    refine ho_set (fun m2 g2 i2 => i2.log _ (known_mono hb (g2.trans (.log _ _)))) <| ho_read fun m2 g2 _ => ?_
    have g2 := g.trans g2
    split
    · refine ho_localDelivery (hp.mono g2) fun ok => ?_
      split
      · exact (hk _).mono g2
      · exact ho_dispatchRemote fun ok => (hk ok).mono g2
    · exact ho_dispatchRemote fun ok => (hk ok).mono g2

theorem named_add {bp : Pack} {c : Constraint} (h : Named n bp) : Named n (bp.add c) := h

theorem ho_transmit {bp : Pack} {k : Bool → Prog} (hp : Named n bp) (hk : ∀ ok, Honest A (k ok) n) : Honest A (transmit bp k) n := by
  unfold transmit
  refine ho_act (fun m _ i => i.sync _ _) fun m _ _ g => ?_
  split
  · exact (hk _).mono g
  · refine ho_read fun m2 g2 _ => ?_
    have g2 := g.trans g2
    split
    · exact ho_delete fun ok => (hk ok).mono g2
    · exact ho_dispatch ((named_add hp).mono g2) fun ok => (hk ok).mono g2

theorem named_ofBundle {b : Bundle} {t : Nat} (h : Known n b) : Named n (Pack.ofBundle t b) := ⟨b, h, rfl, rfl⟩

theorem ho_sendBundle {b : Bundle} (h : Known n b) : Honest A (sendBundle b) n := by
  unfold sendBundle
  exact ho_set (fun m g i => i.push b (known_mono h g)) <| ho_read fun m g _ =>
    ho_transmit (named_ofBundle (known_mono h g)) fun _ => ho_done

theorem removeBlocks_sublist : ∀ {is : List Nat} {cs ds : List Block}, removeBlocks is cs = some ds → ds.Sublist cs
  | [], cs, ds, h => by simp only [removeBlocks, Option.some.injEq] at h; subst h; exact List.Sublist.refl _
  | i :: is, cs, ds, h => by
    unfold removeBlocks at h
    split at h
    · exact (removeBlocks_sublist h).trans (List.eraseIdx_sublist _ _)
    · cases h

theorem ho_finishReceive {b : Bundle} {bp : Pack} {k : Bool → Prog} (hb : Event.called (.receive b) ∈ n.events)
    (hp : Named n bp) (hk : ∀ ok, Honest A (k ok) n) : Honest A (finishReceive b bp (marks b.canonicals 0 []) k) n := by
  unfold finishReceive
  split
  · exact ho_panic
  · rename_i cs hcs
    refine ho_set (fun m g i => i.push _ (.inr (.inl ⟨b, g.mem hb, rfl, removeBlocks_sublist hcs, ?_⟩))) <|
      ho_dispatch hp fun _ => hk _
    intro hf
    rw [removeBlocks_simple hf] at hcs
    exact .inr (Option.some.inj hcs).symm

theorem ho_scanBlocks {b : Bundle} {bp : Pack} {k : Bool → Prog} (hk : ∀ ok, Honest A (k ok) n) (cs : List Block) :
    ∀ (index : Nat) (marked : List Nat), Honest A (finishReceive b bp (marks cs index marked) k) n →
      Honest A (scanBlocks b bp k cs index marked) n := by
  induction cs with
  | nil => intro i m h; exact h
  | cons c cs ih =>
    intro i m h
    unfold marks at h
    unfold scanBlocks
    split
    · rename_i hc
      rw [if_pos hc] at h
      exact ih _ _ h
    · rename_i hc
      rw [if_neg hc] at h
      have hn := ih _ _ h
      dsimp only
      have hcont : Honest A (if c.flags.deleteBundle = true then delete bp .blockUnintelligible (.block b c) k else
          scanBlocks b bp k cs (i + 1) (if c.flags.remove = true then m ++ [i] else m)) n := by
        split
        · exact ho_delete hk
        · exact hn
      split
      · refine ho_read fun m' g _ => ?_
        split
        · exact ho_sendReport (hcont.mono g)
        · exact hcont.mono g
      · exact hcont

theorem ho_receive {b : Bundle} {k : Bool → Prog} (hb : Event.called (.receive b) ∈ n.events) (hk : ∀ ok, Honest A (k ok) n) :
    Honest A (Proc.receive b k) n := by
  have known : ∀ m, Onward n m → Known m b := fun m g => .inr (.inl ⟨b, g.mem hb, keptOf_refl b⟩)
  unfold Proc.receive
  refine ho_act (fun m g i => i.accept b (known m g)) fun m _ _ g => ?_
  split
  · refine ho_stats (fun _ => rfl) (fun _ => rfl) (fun _ => rfl) (fun _ => rfl) <| ho_read fun m2 g2 _ => ?_
    have g2 := g.trans g2
    refine ho_act (fun m _ i => i.sync _ _) fun m3 _ _ g3 => ?_
    have g3 := g2.trans g3
    split
    · exact (hk _).mono g3
    · refine ho_reportIf (ho_scanBlocks (fun ok => (hk ok).mono g3) _ _ _ ?_)
      exact ho_finishReceive (g3.mem hb) (named_add (named_ofBundle (known _ g3))) fun ok => (hk ok).mono g3
  · exact ho_stats (fun _ => rfl) (fun _ => rfl) (fun _ => rfl) (fun _ => rfl) ((hk _).mono g)

theorem ho_sweep {k : Prog} (ms : List Pack) : ∀ {n : Node}, Honest A k n → Honest A (sweep ms k) n := by
  induction ms with
  | nil => intro n h; exact h
  | cons m ms ih =>
    intro n h
    unfold sweep
    refine ho_read fun m' g _ => ?_
    split
    · exact ho_set (fun m _ i => i.remove _ _) (ih (h.mono g))
    · exact ih (h.mono g)

theorem ho_collect {k : List Pack → Prog} (ids : List String) : ∀ {n : Node} (acc : List Pack), (∀ ps, Honest A (k ps) n) →
    Honest A (collect ids acc k) n := by
  induction ids with
  | nil => intro n acc h; exact h _
  | cons i ids ih =>
    intro n acc h
    unfold collect
    refine ho_read fun m g _ => ?_
    split
    · exact ih _ fun ps => (h ps).mono g
    · exact ih _ fun ps => (h ps).mono g

theorem ho_forwardAll {par : Bool} (bps : List Pack) : ∀ {n : Node}, Honest A (forwardAll par bps) n := by
  induction bps with
  | nil => intro n; exact ho_done
  | cons bp bps ih =>
    intro n
    unfold forwardAll
    split
    · exact ho_spawn (ho_forward fun _ => ho_done) ih
    · exact ho_forward fun _ => ih

theorem ho_call (c : Call) (h : Event.called c ∈ n.events) : Honest A c.prog n := by
  cases c with
  | receive b => exact ho_receive h fun _ => ho_done
  | send b => exact ho_sendBundle (.inl h)
  | remove bid => exact ho_set (fun m _ i => i.remove _ _) ho_done
  | pop eid =>
    unfold Call.prog popBundle
    refine ho_act (fun m _ i => i.pop eid) fun m _ _ _ => ?_
    split
    · exact ho_done
    · split
      · exact ho_done
      · exact ho_set (fun m _ i => i.removeIfSingleton _) ho_done
  | janitor =>
    unfold Call.prog processBundles
    refine ho_read fun m _ _ => ho_sweep _ <| ho_read fun m _ _ => ?_
    split
    · exact ho_done
    · exact ho_read fun m _ _ => ho_collect _ _ fun ps => ho_read fun m _ _ => ho_forwardAll _

/-- Every state of a node that receives only bundles with the property `A` is sound. -/
theorem sound_reaches {w : World} {s t : Sys} (hc : ∀ b, w.call (.receive b) → A b) (ho : ∀ n m, w.change n m → Outside n m)
    (hr : Reaches w s t) (hs : Sound A s.node) (hp : ∀ p ∈ s.pool, Honest A p s.node) :
    Onward s.node t.node ∧ Sound A t.node ∧ ∀ p ∈ t.pool, Honest A p t.node := by
  have := RG.reaches (I := Sound A) (G := Onward) (w := w) Onward.refl (fun _ _ _ => Onward.trans) ?_ ?_ hr hs (by
    intro p h; have := hp p h; unfold Honest at this; exact this)
  · refine ⟨this.1, this.2.1, fun p h => ?_⟩
    unfold Honest
    exact this.2.2 p h
  · intro c h n i
    have hf : Fine A (n.log (.called c)) (.called c) := by
      cases c with
      | receive b => exact hc b h
      | _ => trivial
    refine ⟨i.log _ hf, ?_⟩
    have := ho_call (A := A) (n := n.log (.called c)) c (by simp [Node.log])
    unfold Honest at this
    exact this
  · intro n m o i; exact Sound.outside (ho _ _ o) i

/-- Every reachable state is sound. -/
theorem sound_always {cfg : Config} {clock : Nat} {t : Sys} (hr : Reaches .any ⟨Node.start cfg clock, []⟩ t) :
    Sound (fun _ => True) t.node ∧ t.node.cfg.hostEid = cfg.hostEid :=
  let h := sound_reaches (A := fun _ => True) (fun _ _ => trivial) (fun _ _ h => h) hr (Sound.start cfg clock) (by simp)
  ⟨h.2.1, h.1.2⟩

end Dtn.Proc
