import Verif.Lemmas.SledHistory
import Verif.Lemmas.Carried
/-! What a node with the persistent store owes to the bundles in its database. -/

namespace Dtn.OnSled
open Proc Spec
open Routing (Notification Answer)

attribute [local irreducible] RG

variable {I D : Node → Prop} {n m n0 : Node} {b : Bundle} {host : EID}

theorem _root_.Dtn.Spec.SledThroughout.reaches {s t : Sys} (h : SledThroughout I s t) : Reaches s t := by
  induction h with
  | refl => exact .refl _
  | step _ hs _ ih => exact ih.step hs

theorem _root_.Dtn.Spec.SledThroughout.last {s t : Sys} (h : SledThroughout I s t) : I t.node := by
  cases h <;> assumption

theorem _root_.Dtn.Spec.SledThroughout.head {s t : Sys} (h : SledThroughout I s t) : I s.node := by
  induction h with
  | refl => assumption
  | step _ _ _ ih => exact ih

theorem _root_.Dtn.Spec.SledThroughout.add {J : Node → Prop} {s t : Sys} (h : SledThroughout I s t)
    (hw : ∀ u, Reaches s u → I u.node → J u.node) : SledThroughout J s t := by
  induction h with
  | refl h => exact .refl (hw _ (.refl _) h)
  | step h hs hi ih => exact ih.step hs (hw _ (h.reaches.step hs) hi)

/-- What is owed is done in the end. -/
theorem ended {cfg : Config} {clock : Nat} {s t : Sys} (hD : ∀ n m, Base n m → D n → D m)
    (before : Reaches ⟨Node.start cfg clock, []⟩ s) (run : SledThroughout I s t)
    (h : D s.node ∨ ∃ p ∈ s.pool, Will I D p s.node) : D t.node ∨ ∃ p ∈ t.pool, Will I D p t.node := by
  induction run with
  | refl => exact h
  | @step t u hr hs hi ih =>
    have b : Base t.node u.node := (between (before.join hr.reaches) (.step (.refl _) hs)).2.1.base
    rcases ih with hd | ⟨p, hp, hw⟩
    · exact .inl (hD _ _ b hd)
    · cases hs with
      | task l r q n n' ps ht =>
        simp only [List.mem_append, List.mem_cons] at hp
        have keep : p ∈ l ++ r → D n' ∨ ∃ p ∈ l ++ ps ++ r, Will I D p n' := fun hp =>
          .inr ⟨p, by rcases List.mem_append.mp hp with h | h <;> simp [h], hw.mono b⟩
        rcases hp with hp | rfl | hp
        · exact keep (by simp [hp])
        · exact (hw.step ht b hr.last hi).imp id fun ⟨q, hq, h⟩ => ⟨q, by simp [hq], h⟩
        · exact keep (by simp [hp])
      | call n pool c => exact .inr ⟨p, by simp [hp], hw.mono b⟩
      | change n n' pool hc => exact .inr ⟨p, hp, hw.mono b⟩

/-! ### Questions to the router -/

/-- The step asks nothing. -/
def AsksNot (n m : Node) : Prop := ∃ es, m.events = n.events ++ es ∧ ∀ bp a, .asked bp a ∉ es

theorem keeps_asksNot : Keeps Sound Never (fun _ => True) (fun _ => True) AsksNot where
  inv _ h := h.inv
  got _ _ _ _ _ _ := trivial
  id _ _ := trivial
  new _ _ _ _ := trivial
  waiting _ _ _ _ := trivial
  called _ _ _ := .inl trivial
  aside n m es h hb hs _ he hp := ⟨es, he, fun _ _ hx => hp _ hx⟩
  sending n t h _ := ⟨[_], rfl, by simp⟩
  update n bp h _ := ⟨[], by simp, by simp⟩
  remove n bid c h := by
    unfold Node.remove
    split
    · exact ⟨[_], rfl, by simp⟩
    · exact ⟨[], by simp, by simp⟩
  push n b h _ hg := ⟨[], by simp [Node.push], by simp⟩
  report n r h hg := ⟨⟨[_], rfl, by simp⟩, .inl trivial⟩
  accept n b h hk := ⟨[_], rfl, by simp⟩
  deliver n e b room h _ := by
    unfold Node.deliver
    split
    · exact ⟨[], by simp, by simp⟩
    · exact ⟨[_], rfl, by simp⟩
  pop n e h := by
    unfold Node.popAgent
    split
    · exact ⟨[], by simp, by simp⟩
    · split
      · exact ⟨[], by simp, by simp⟩
      · exact ⟨[_], rfl, by simp⟩

theorem asksNot_always {cfg : Config} {clock : Nat} {s : Sys} (before : Reaches ⟨Node.start cfg clock, []⟩ s) :
    ∀ p ∈ s.pool, Onl Sound Never AsksNot p := by
  induction before with
  | refl => simp
  | step hr hs ih => exact (keeps_asksNot.tasks (between hr (.refl _)).1 ih hs).resolve_left id
  | restart => simp
  | cut => simp

theorem not_asked {bp : Pack} {a : Option Answer} (h : AsksNot n m) : .asked bp a ∉ newEvents n m := by
  obtain ⟨es, he, hs⟩ := h
  rw [newEvents_eq he]; exact hs bp a

/-- A step that asks the router. -/
theorem asked_step {s t : Sys} {bp : Pack} {a : Option Answer} (j : Sound s.node) (hp : ∀ p ∈ s.pool, Onl Sound Never AsksNot p) (hs : Step s t)
    (he : .asked bp a ∈ newEvents s.node t.node) : t.node = s.node.log (.asked bp a) ∧ ∃ k, answered bp k a ∈ t.pool := by
  have hsame : ∀ n : Node, Event.asked bp a ∉ newEvents n n := fun n => not_asked ⟨[], by simp, by simp⟩
  cases hs with
  | task l r p n n' ps ht =>
    have hq := hp p (by simp)
    cases ht with
    | done | panic | choose | fresh | spawn | wait => exact absurd he (hsame _)
    | act f k => exact absurd he (not_asked (hq n j).1)
    | route bp' k a' =>
      obtain ⟨⟨k', rfl⟩, -⟩ := hq
      dsimp only at he
      rw [newEvents_eq (es := [.asked bp' a']) rfl] at he
      simp only [List.mem_singleton, Event.asked.injEq] at he
      obtain ⟨rfl, rfl⟩ := he
      exact ⟨rfl, k', by simp⟩
  | call n pool c =>
    dsimp only at he
    rw [newEvents_eq (es := [.called c]) rfl] at he
    simp at he
  | change n n' pool ho =>
    cases ho <;> exact absurd he (not_asked ⟨[], by simp, by simp⟩)

/-- Every question is asked in some step. -/
theorem _root_.Dtn.Spec.SledThroughout.asked {cfg : Config} {clock : Nat} {s t : Sys} {bp : Pack} {a : Option Answer}
    (before : Reaches ⟨Node.start cfg clock, []⟩ s) (run : SledThroughout I s t) (he : .asked bp a ∈ newEvents s.node t.node) :
    ∃ u v, SledThroughout I s u ∧ Step u v ∧ SledThroughout I v t ∧
      v.node = u.node.log (.asked bp a) ∧ ∃ k, answered bp k a ∈ v.pool := by
  induction run with
  | refl => simp [newEvents] at he
  | @step t u hr hs hi ih =>
    have b0 := (between before hr.reaches).2.1.base
    have b1 := (between (before.join hr.reaches) (.step (.refl _) hs)).2.1.base
    have hsplit : newEvents s.node u.node = newEvents s.node t.node ++ newEvents t.node u.node := by
      obtain ⟨e1, h1⟩ := b0.past; obtain ⟨e2, h2⟩ := b1.past
      rw [newEvents_eq h1.symm, newEvents_eq h2.symm]
      exact newEvents_eq (by rw [← h2, ← h1, List.append_assoc])
    rw [hsplit] at he
    rcases List.mem_append.mp he with he | he
    · obtain ⟨x, y, h1, h2, h3, h4⟩ := ih he
      exact ⟨x, y, h1, h2, h3.step hs hi, h4⟩
    · have bt := before.join hr.reaches
      obtain ⟨h1, h2⟩ := asked_step (between bt (.refl _)).1 (asksNot_always bt) hs he
      exact ⟨t, u, hr, hs, .refl hi, h1, h2⟩

/-! ### Transfers -/

theorem sled_get {bid : String} {b : Bundle} {k : Option Bundle → Prog} (hb : ∀ m, I m → m.store.getBundle bid = some b)
    (hk : ∀ m, Will I D (k (some b)) m) : Will I D (getBundle bid k) n := by
  unfold getBundle
  refine will_read fun m _ i => ?_
  have h := hb m i
  unfold MemStore.getBundle at h
  unfold SledStore.getBundle db
  dsimp only
  rw [h]
  exact hk m

/-- Once the router has named a neighbour, a copy is owed to it. -/
theorem will_answered {bp : Pack} {a : Answer} {s : Sender} {k : Bool → Prog} (hI : ∀ m, I m → Leaving n0 host b m)
    (hknown : ∀ m, I m → m.store.getMetadata b.id ≠ none)
    (leave : CanLeave b) (hid : bp.id = b.id) (hs : s ∈ a.clas) : Will I (Sent n0 host b s) (answered bp k (some a)) n := by
  unfold answered
  dsimp only
  have hne : a.clas.isEmpty = false := by
    cases h : a.clas with
    | nil => rw [h] at hs; cases hs
    | cons => rfl
  rw [hne]
  simp only [Bool.false_eq_true, if_false]
  unfold prepare
  refine sled_get (b := b) (fun m i => by rw [hid]; exact (hI m i).stored) fun m1 => ?_
  dsimp only
  refine will_read fun m2 _ i2 => ?_
  have hal : ∀ m, I m → lifetimeExceeded m.dtnNow b.primary = false := by
    intro m i
    have := (hI m i).alive.1
    unfold lifetimeExceeded
    split
    · rfl
    · rename_i hc
      rw [decide_eq_false_iff_not, Nat.mod_eq_of_lt (by unfold u64; exact leave.lifetime)]
      have := this hc
      omega
  rw [hal m2 i2]
  have hops : (raiseHop b).2 = false := room_hops leave.hops
  simp only [Bool.false_eq_true, if_false, hops]
  refine will_read fun m3 _ i3 => ?_
  rw [(hI m3 i3).cfg]
  cases hb2 : setPrevious host (raiseHop b).1 with
  | none => exact absurd hb2 (readable_set leave.previous host)
  | some b2 =>
    dsimp only
    refine will_read fun m4 _ i4 => ?_
    have hp : b2.primary = b.primary := (setPrevious_primary hb2).trans (raiseHop_primary b)
    have hage : bundleAge b2 = bundleAge b := by
      apply bundleAge_congr
      rw [setPrevious_first hb2 age_ne_prev (by rw [raiseHop_howMany]; exact leave.age), raiseHop_first hop_ne_age.symm]
    have young : tooOld (raiseAge m4.clock ((m4.store.getMetadata b.id).map Pack.receivedTime) b2).1
        (raiseAge m4.clock ((m4.store.getMetadata b.id).map Pack.receivedTime) b2).2 = false := by
      cases hm : m4.store.getMetadata b.id with
      | none => unfold raiseAge; simp [tooOld]
      | some p =>
        obtain ⟨h1, h2⟩ := (hI m4 i4).alive.2 p hm
        exact inTime_young (n := { m4 with clock := p.receivedTime }) (m := m4)
          ⟨(hI m4 i4).alive.1, leave.lifetime, h2⟩ hp hage (Nat.le_refl _) h1 (Nat.le_refl _)
    have hk := hknown m4 i4
    unfold MemStore.getMetadata at young hk
    unfold SledStore.getMetadata db
    dsimp only
    cases hm : AList.get? m4.store.metadata b.id with
    | none => exact absurd hm hk
    | some p =>
      rw [hm] at young
      rw [if_neg (by simp)]
      simp only [Option.map_some] at young ⊢
      rw [young]
      simp only [Bool.false_eq_true, if_false]
      unfold sendAll
      refine will_act fun m5 _ i5 _ _ => .inr ?_
      dsimp only
      refine will_spawnTransfers (fun m i => (hI m i).past) ?_ ?_ ?_ hs
      · rfl
      · rfl
      exact ⟨hal m2 i2, hops, b2, hb2, rfl, young⟩

/-! ### The janitor -/

theorem will_forward {bid : String} {bp : Pack} {k : Bool → Prog} (hI : ∀ m, I m → n0.events <+: m.events)
    (hD : ∀ m, AskedFor n0 bid m → D m) (hid : bp.id = bid) (hknown : n.store.getMetadata bid ≠ none) :
    Will I D (forward bp k) n := by
  unfold forward
  have hp : (bp.add .forwardPending).del .dispatchPending = fwdPack bp := rfl
  rw [hp]
  dsimp only
  unfold sync
  rw [hasAny_of (fwdPack_has bp)]
  simp only [Bool.not_true, Bool.false_eq_true, if_false]
  refine will_act fun m bm im _ _ => .inr ?_
  obtain ⟨ok, h1, h2⟩ := update_cases m (fwdPack bp) fun ok => if (!ok) = true then k false else .route (fwdPack bp) (answered (fwdPack bp) k)
  rw [h1, h2 (by rw [fwdPack_id, hid]; exact bm.known _ hknown)]
  simp only [Bool.not_true, Bool.false_eq_true, if_false]
  refine fun m2 _ i2 a => .inl (hD _ ⟨(hI m2 i2).trans (List.prefix_append _ _), fwdPack bp, a, hid, ?_⟩)
  exact newEvents_left (hI m2 i2) (List.prefix_append _ _) (by rw [newEvents_eq (es := [_]) rfl]; simp)

/-- What holds while a bundle waits for the janitor. -/
structure Pending (n0 : Node) (bid : String) (m : Node) : Prop where
  inv : m.store.Inv
  past : n0.events <+: m.events
  active : m.claActive = true
  waits : ∃ p, m.store.getMetadata bid = some p ∧ p.has .forwardPending = true ∧ p.has .deleted = false
  parallel : m.cfg.parallel = true

theorem will_sweep {k : Prog} (ms : List Pack) : ∀ n, (∀ p ∈ ms, n.store.getMetadata p.id ≠ none) → (∀ n', Base n n' → Will I D k n') →
    Will I D (sweep ms k) n := by
  induction ms with
  | nil => intro n _ hk; exact hk n (.refl n)
  | cons p ms ih =>
    intro n hp hk
    unfold sweep
    refine will_read fun m bm _ => ?_
    split
    · unfold remove
      refine will_act fun m2 b2 i2 bf _ => .inr ?_
      rcases remove_cases m2 p.id fun _ => sweep ms k with ⟨-, h⟩ | ⟨h, -⟩
      · exact absurd h (b2.known _ (bm.known _ (hp p (by simp))))
      · rw [h]
        have bf' : Base n _ := bm.trans bf
        exact ih _ (fun q hq => bf'.known _ (hp q (by simp [hq]))) fun n' b' => hk n' (bf'.trans b')
    · exact ih m (fun q hq => bm.known _ (hp q (by simp [hq]))) fun n' b' => hk n' (bm.trans b')

theorem will_collect {bid : String} (hI : ∀ m, I m → Pending n0 bid m) {k : List Pack → Prog}
    (hk : ∀ n packs, (∃ p ∈ packs, p.id = bid) → Will I D (k packs) n) (bids : List String) :
    ∀ acc n, (∀ x ∈ bids, n.store.getMetadata x ≠ none) → (bid ∈ bids ∨ ∃ p ∈ acc, p.id = bid) → Will I D (collect bids acc k) n := by
  induction bids with
  | nil => intro acc n _ h; exact hk n acc (by simpa using h)
  | cons x bids ih =>
    intro acc n hx h
    unfold collect getMetadata
    refine will_read fun m bm im => ?_
    have hall : ∀ y ∈ bids, m.store.getMetadata y ≠ none := fun y hy => bm.known _ (hx y (by simp [hy]))
    have hmx := bm.known _ (hx x (by simp))
    unfold MemStore.getMetadata at hmx
    unfold SledStore.getMetadata db
    dsimp only
    cases hq : AList.get? m.store.metadata x with
    | none => exact absurd hq hmx
    | some q =>
      dsimp only
      obtain ⟨p, h1, h2, h3⟩ := (hI m im).waits
      by_cases hxb : x = bid
      · subst hxb
        unfold MemStore.getMetadata at h1
        rw [hq] at h1
        cases h1
        rw [h3]
        simp only [Bool.false_eq_true, if_false]
        exact ih _ _ hall (.inr ⟨q, by simp, (hI m im).inv.metaId _ _ hq⟩)
      · have h' : bid ∈ bids ∨ ∃ p ∈ acc, p.id = bid := by
          rcases h with h | h
          · rcases List.mem_cons.mp h with h | h
            · exact absurd h.symm hxb
            · exact .inl h
          · exact .inr h
        refine ih _ _ hall (h'.imp id ?_)
        rintro ⟨p, hp, hid⟩
        refine ⟨p, ?_, hid⟩
        split
        · exact hp
        · simp [hp]

theorem will_forwardAll {bid : String} (hI : ∀ m, I m → Pending n0 bid m) (hD : ∀ m, AskedFor n0 bid m → D m) (bps : List Pack) :
    ∀ n, n.store.getMetadata bid ≠ none → (∃ p ∈ bps, p.id = bid) → Will I D (forwardAll true bps) n := by
  induction bps with
  | nil => rintro n _ ⟨p, hp, -⟩; cases hp
  | cons bp bps ih =>
    rintro n hknown ⟨p, hp, hid⟩
    unfold forwardAll
    rw [if_pos rfl]
    by_cases hb : bp.id = bid
    · exact .inl (will_forward (fun m i => (hI m i).past) hD hb hknown)
    · refine .inr (ih n hknown ?_)
      rcases List.mem_cons.mp hp with rfl | hp
      · exact absurd hid hb
      · exact ⟨p, hp, hid⟩

/-- Every bundle that waits to be forwarded is taken to the router. -/
theorem will_janitor {bid : String} (hI : ∀ m, I m → Pending n0 bid m) (hD : ∀ m, AskedFor n0 bid m → D m) :
    Will I D processBundles n := by
  unfold processBundles
  refine will_read fun m1 _ i1 => ?_
  refine will_sweep _ m1 ?_ fun n1 b1 => ?_
  · intro p hp
    have hp' : p ∈ m1.store.packs := (List.mem_filter.mp hp).1
    rw [(MemStore.mem_packs_iff (hI m1 i1).inv p).mp hp']; simp
  refine will_read fun m2 _ i2 => ?_
  rw [(hI m2 i2).active]
  simp only [Bool.not_true, Bool.false_eq_true, if_false]
  refine will_read fun m3 _ i3 => ?_
  have hf : (db m3).forwarding = m3.store.forwarding := rfl
  rw [hf]
  refine will_collect hI ?_ _ _ _ ?_ (.inl ?_)
  · intro n4 packs hp
    refine will_read fun m5 _ i5 => ?_
    rw [(hI m5 i5).parallel]
    refine will_forwardAll hI hD _ _ ?_ ?_
    · obtain ⟨p, h, -⟩ := (hI m5 i5).waits
      rw [h]; simp
    · obtain ⟨p, hp, hid⟩ := hp
      exact ⟨p, (List.mergeSort_perm _ _).mem_iff.mpr hp, hid⟩
  · intro x hx
    obtain ⟨p, h, -⟩ := (mem_forwarding_iff (hI m3 i3).inv _).mp hx
    rw [h]; simp
  · obtain ⟨p, h1, h2, -⟩ := (hI m3 i3).waits
    exact (mem_forwarding_iff (hI m3 i3).inv _).mpr ⟨p, h1, h2⟩

end Dtn.OnSled
