import Verif.Lemmas.SledNode
import Verif.Spec.SledNode
/-! What holds in all histories of a node with the persistent store. -/

namespace Dtn.OnSled
open Proc Spec
open Routing (Notification Answer)

/-- The books and the store agree. -/
structure Sound (n : Node) : Prop where
  inv : n.store.Inv
  known : ∀ b, .accepted b ∈ n.events → n.store.getMetadata b.id ≠ none
  once : ∀ bid, (n.events.filter (takenAsNew bid)).length ≤ 1
  gone : ∀ bid c, .removed bid c ∈ n.events → Gone bid n

/-- What never comes to pass. -/
abbrev Never (_ : Node) : Prop := False

/-- What every step guarantees. -/
structure Lasts (n m : Node) : Prop where
  base : Base n m
  sound : Sound m
  gone : ∀ bid, Gone bid n → Gone bid m

variable {n m : Node}

theorem Sound.same (h : Sound n) (hb : Base n m) (hs : m.store = n.store) {es : List Event} (he : m.events = n.events ++ es)
    (h1 : ∀ b, .accepted b ∉ es) (h2 : ∀ bid c, .removed bid c ∉ es) : Lasts n m := by
  refine ⟨hb, ⟨by rw [hs]; exact h.inv, ?_, ?_, ?_⟩, fun bid hg => by unfold Gone; rw [hs]; exact hg⟩
  · intro b hb
    rw [he, List.mem_append] at hb
    rw [hs]
    exact h.known b (hb.resolve_right (h1 b))
  · intro bid
    rw [he, List.filter_append]
    have : es.filter (takenAsNew bid) = [] := by
      rw [List.filter_eq_nil_iff]
      intro e hx
      cases e <;> simp [takenAsNew]
      rename_i b
      exact absurd hx (h1 b)
    rw [this, List.append_nil]
    exact h.once bid
  · intro bid c hc
    rw [he, List.mem_append] at hc
    unfold Gone
    rw [hs]
    exact h.gone bid c (hc.resolve_right (h2 bid c))

/-- A change of the store without any event. -/
theorem Sound.store {s : MemStore} (h : Sound n) (hb : Base n { n with store := s }) (inv : s.Inv)
    (hg : ∀ bid, Gone bid n → s.getBundle bid = none) : Lasts n { n with store := s } := by
  have hgone : ∀ bid, Gone bid n → Gone bid { n with store := s } := fun bid g => ⟨hb.known bid g.1, hg bid g⟩
  exact ⟨hb, ⟨inv, fun b hx => hb.known _ (h.known b hx), h.once, fun bid c hx => hgone _ (h.gone bid c hx)⟩, hgone⟩

theorem Lasts.trans {k : Node} (h : Lasts n m) (h' : Lasts m k) : Lasts n k :=
  ⟨h.base.trans h'.base, h'.sound, fun _ g => h'.gone _ (h.gone _ g)⟩

theorem Sound.push {b : Bundle} (h : Sound n) (hg : ¬ Gone b.id n) : Lasts n (n.push b) := by
  refine h.store (Base.push n b) (h.inv.push _ _) ?_
  intro bid g
  rw [MemStore.getBundle_push, if_neg ?_]
  · exact g.2
  · rintro rfl; exact hg g

theorem Sound.remove {bid : String} {c : Cause} (h : Sound n) : Lasts n (n.remove bid c) := by
  have hb := Base.remove n h.inv bid c
  have hst : (n.remove bid c).store = (n.store.remove bid).1 := by unfold Node.remove; split <;> rfl
  have hgone : ∀ j, Gone j n → Gone j (n.remove bid c) := by
    intro j g
    refine ⟨hb.known j g.1, ?_⟩
    rw [hst, MemStore.getBundle_remove h.inv]
    split
    · rfl
    · exact g.2
  refine ⟨hb, ⟨by rw [hst]; exact h.inv.remove _, ?_, ?_, ?_⟩, hgone⟩
  · intro b hx
    refine hb.known _ (h.known b ?_)
    unfold Node.remove at hx
    split at hx
    · simpa [Node.log] using hx
    · exact hx
  · intro j
    unfold Node.remove
    split
    · simp only [Node.log, List.filter_append]
      have : [Event.removed bid c].filter (takenAsNew j) = [] := rfl
      rw [this, List.append_nil]; exact h.once j
    · exact h.once j
  · intro j c' hx
    by_cases hin : .removed j c' ∈ n.events
    · exact hgone _ (h.gone _ _ hin)
    · unfold Node.remove at hx
      split at hx
      · rename_i hok
        simp only [Node.log, List.mem_append, List.mem_singleton, Event.removed.injEq] at hx
        obtain ⟨rfl, -⟩ := hx.resolve_left hin
        have hst' := (MemStore.remove_ok h.inv j).mp hok
        refine ⟨hb.known j ?_, by rw [hst, MemStore.getBundle_remove h.inv, if_pos rfl]⟩
        cases hb' : n.store.getBundle j with
        | none => exact absurd hb' hst'
        | some b => obtain ⟨p, hp⟩ := h.inv.hasMeta _ _ hb'; rw [hp]; simp
      · exact absurd hx hin

theorem Sound.accept {b : Bundle} (h : Sound n) (hk : n.store.getMetadata b.id = none) : Lasts n ((n.push b).log (.accepted b)) := by
  have h1 := h.push (b := b) fun g => g.1 hk
  have hb := h1.base.trans (Base.log (n.push b) (.accepted b))
  have hm : (n.store.push n.clock b).getMetadata b.id ≠ none := by
    have hi := (h.inv.push n.clock b).hasMeta b.id b (by rw [MemStore.getBundle_push, if_pos rfl])
    obtain ⟨p, hp⟩ := hi
    rw [hp]; simp
  refine ⟨hb, ⟨h1.sound.inv, ?_, ?_, ?_⟩, h1.gone⟩
  · intro b' hx
    simp only [Node.log, List.mem_append, List.mem_singleton, Event.accepted.injEq] at hx
    rcases hx with hx | rfl
    · exact hb.known _ (h.known _ hx)
    · exact hm
  · intro bid
    simp only [Node.log, List.filter_append, List.length_append]
    by_cases hid : b.id = bid
    · have : (n.events.filter (takenAsNew bid)) = [] := by
        rw [List.filter_eq_nil_iff]
        intro e he
        cases e <;> simp [takenAsNew]
        rename_i b'
        intro hid'
        exact h.known _ he (by rw [hid', ← hid]; exact hk)
      rw [show (n.push b).events = n.events from rfl, this]
      simp [takenAsNew, hid]
    · have : [Event.accepted b].filter (takenAsNew bid) = [] := by simp [takenAsNew, hid]
      rw [this, List.length_nil, Nat.add_zero]
      exact h.once bid
  · intro j c hx
    simp only [Node.log, List.mem_append, List.mem_singleton] at hx
    exact h1.gone _ (h.gone _ _ (hx.resolve_right (by simp)))

theorem sound_deliver (h : Sound n) (e b room) : Lasts n (n.deliver e b room) := by
  have hb := Base.deliver n e b room
  unfold Node.deliver at hb ⊢
  cases hf : n.agents.find e with
  | none => exact h.same (.refl _) rfl (es := []) (by simp) (by simp) (by simp)
  | some a =>
    simp only [hf] at hb
    exact h.same hb rfl (es := [_]) rfl (by simp) (by simp)

theorem sound_pop (h : Sound n) (e) : Lasts n (n.popAgent e) := by
  have hb := Base.popAgent n e
  unfold Node.popAgent at hb ⊢
  cases hf : n.agents.find e with
  | none => exact h.same (.refl _) rfl (es := []) (by simp) (by simp) (by simp)
  | some a =>
    simp only [hf] at hb ⊢
    cases hp : a.pop.2 with
    | none => exact h.same (.refl _) rfl (es := []) (by simp) (by simp) (by simp)
    | some b =>
      simp only [hp] at hb ⊢
      exact h.same hb rfl (es := [_]) rfl (by simp) (by simp)

theorem keeps_sound : Keeps Sound Never (fun _ => True) (fun _ => True) Lasts where
  inv _ h := h.inv
  got _ _ _ _ _ _ := trivial
  id _ _ := trivial
  new _ _ _ _ := trivial
  waiting _ _ _ _ := trivial
  called _ _ _ := .inl trivial
  aside n m es h hb hs _ he hp := h.same hb hs he (fun _ hx => hp _ hx) (fun _ _ hx => hp _ hx)
  sending n t h _ := h.same (.log _ _) rfl (es := [_]) rfl (by simp) (by simp)
  update n bp h _ := h.store (.update n bp) (h.inv.update bp) fun bid g => by rw [MemStore.getBundle_update]; exact g.2
  remove n bid c h := h.remove
  push n b h _ hg := h.push hg
  report n r h hg := ⟨(h.push hg).trans ((h.push hg).sound.same (.log _ _) rfl (es := [_]) rfl (by simp) (by simp)), .inl trivial⟩
  accept n b h hk := h.accept hk
  deliver n e b room h _ := sound_deliver h e b room
  pop n e h := sound_pop h e

theorem Sound.asked (n : Node) (bp : Pack) (a : Option Answer) (h : Sound n) : Lasts n (n.log (.asked bp a)) :=
  h.same (.log _ _) rfl (es := [_]) rfl (by simp) (by simp)

theorem Sound.outside (h : Sound n) (o : Outside n m) : Lasts n m := by
  have hb := Base.outside o
  cases o <;> exact h.same hb rfl (es := []) (by simp) (by simp) (by simp)

theorem Sound.start (cfg : Config) (clock : Nat) : Sound (Node.start cfg clock) :=
  ⟨MemStore.Inv.new, by simp [Node.start], by simp [Node.start], by simp [Node.start]⟩

theorem base_restart (n : Node) (clock : Nat) : Base n (restarted n clock) :=
  ⟨rfl, List.prefix_rfl, fun _ h => h, fun _ h => .inl h, fun _ x hx => ⟨x, hx, rfl, rfl, rfl, id⟩⟩

/-- What a call of the store leaves that was cut short: at most one entry of the metadata was written. -/
theorem cut_cases {op : SledStore.Op} {k : Nat} (h : ∀ ws, (db n).writes op = .ok ws → k < ws.length) :
    setDb n ((db n).crashStep op k) = n ∨ ∃ p : Pack, p.has .forwardPending = false ∧
      setDb n ((db n).crashStep op k) = { n with store := { n.store with metadata := AList.insert n.store.metadata p.id p } } := by
  have same : setDb n (db n) = n := rfl
  unfold SledStore.crashStep
  cases hw : (db n).writes op with
  | err => exact .inl same
  | panic => exact .inl same
  | ok ws =>
    have hk := h ws hw
    dsimp only
    cases k with
    | zero => exact .inl same
    | succ k =>
      cases op with
      | push now b =>
        unfold SledStore.writes SledStore.pushW at hw
        dsimp only at hw
        split at hw
        · cases hw; simp at hk
        · split at hw
          · cases hw
          · cases hw
            have : k = 0 := by simp at hk; omega
            subst this
            exact .inr ⟨Pack.ofBundle now b, rfl, rfl⟩
      | update bp =>
        unfold SledStore.writes SledStore.updateW at hw
        dsimp only at hw
        split at hw
        · cases hw; simp at hk
        · cases hw
      | remove bid =>
        unfold SledStore.writes SledStore.removeW SledStore.getMetadata db at hw
        dsimp only at hw
        cases hm : AList.get? n.store.metadata bid with
        | none => rw [hm] at hw; cases hw
        | some q =>
          rw [hm] at hw
          cases hw
          have : k = 0 := by simp at hk; omega
          subst this
          exact .inr ⟨q.clear.add .deleted, by simp [Pack.has_add, Pack.has_clear], rfl⟩

theorem getMetadata_insert (s : MemStore) (p : Pack) (bid : String) :
    MemStore.getMetadata { s with metadata := AList.insert s.metadata p.id p } bid = if bid = p.id then some p else s.getMetadata bid := by
  unfold MemStore.getMetadata; simp [AList.get?_insert]

theorem Sound.entry (h : Sound n) (p : Pack) : Lasts n { n with store := { n.store with metadata := AList.insert n.store.metadata p.id p } } := by
  have hk : ∀ bid, n.store.getMetadata bid ≠ none →
      MemStore.getMetadata { n.store with metadata := AList.insert n.store.metadata p.id p } bid ≠ none := by
    intro bid hb
    rw [getMetadata_insert]
    split
    · simp
    · exact hb
  refine h.store (.store _ _ hk fun _ h => h) ⟨h.inv.wfB, h.inv.wfM.insert _ _, ?_, h.inv.bundleId, ?_⟩ fun _ g => g.2
  · intro bid q hq
    rw [getMetadata_insert] at hq
    split at hq
    · rename_i hid; cases hq; exact hid.symm
    · exact h.inv.metaId _ _ hq
  · intro bid b hb
    obtain ⟨q, hq⟩ := h.inv.hasMeta _ _ hb
    have := hk bid (by rw [hq]; simp)
    exact Option.ne_none_iff_exists'.mp this

theorem Sound.restart (h : Sound n) (clock : Nat) : Lasts n (restarted n clock) :=
  h.same (base_restart _ _) rfl (es := []) (by simp [restarted]) (by simp) (by simp)

theorem Sound.cut {op : SledStore.Op} {k : Nat} (h : Sound n) (clock : Nat) (hw : ∀ ws, (db n).writes op = .ok ws → k < ws.length) :
    Lasts n (restarted (setDb n ((db n).crashStep op k)) clock) := by
  rcases cut_cases hw with e | ⟨p, -, e⟩
  · rw [e]; exact h.restart _
  · rw [e]; exact (h.entry p).trans ((h.entry p).sound.restart _)

/-- All that is reached from a sound state. -/
theorem reaches_sound {s t : Sys} (hr : Reaches s t) (h : Sound s.node) (hp : ∀ p ∈ s.pool, Onl Sound Never Lasts p) :
    Lasts s.node t.node ∧ ∀ p ∈ t.pool, Onl Sound Never Lasts p := by
  induction hr with
  | refl => exact ⟨h.same (.refl _) rfl (es := []) (by simp) (by simp) (by simp), hp⟩
  | step _ hs ih =>
    obtain ⟨l, hq⟩ := ih
    obtain ⟨l', hq'⟩ := keeps_sound.live Sound.asked (fun _ _ => Sound.outside) l.sound hq hs
    exact ⟨l.trans l', hq'.resolve_left id⟩
  | restart clock _ ih =>
    obtain ⟨l, hq⟩ := ih
    exact ⟨l.trans (l.sound.restart clock), by simp⟩
  | cut clock op k hw _ ih =>
    obtain ⟨l, hq⟩ := ih
    exact ⟨l.trans (l.sound.cut clock hw), by simp⟩

theorem Reaches.join {s t u : Sys} (h : Reaches s t) (h' : Reaches t u) : Reaches s u := by
  induction h' with
  | refl => exact h
  | step _ hs ih => exact ih.step hs
  | restart clock _ ih => exact ih.restart clock
  | cut clock op k hw _ ih => exact ih.cut clock op k hw

/-- Between two states of a history that begins with an empty database. -/
theorem between {cfg : Config} {clock : Nat} {s t : Sys} (before : Reaches ⟨Node.start cfg clock, []⟩ s) (run : Reaches s t) :
    Sound s.node ∧ Lasts s.node t.node ∧ ∀ p ∈ t.pool, Onl Sound Never Lasts p := by
  obtain ⟨l, hp⟩ := reaches_sound before (.start _ _) (by simp)
  exact ⟨l.sound, reaches_sound run l.sound hp⟩

/-! ### Bundles that were removed before a restart -/

/-- Nothing is left of the bundle but its metadata. -/
structure Buried (bid : String) (n : Node) : Prop extends Sound n where
  over : Gone bid n
  queues : ∀ a ∈ n.agents, ∀ b ∈ a.queue, b.id ≠ bid

/-- A step that leaves the bundle alone. -/
structure Still (bid : String) (n m : Node) : Prop where
  lasts : Lasts n m
  queues : ∀ a ∈ m.agents, ∀ b ∈ a.queue, b.id ≠ bid
  silent : ∃ es, m.events = n.events ++ es ∧ ∀ e ∈ es, handled bid e = false

theorem Still.buried {bid : String} (h : Still bid n m) (g : Gone bid n) : Buried bid m := ⟨h.lasts.sound, h.lasts.gone _ g, h.queues⟩

theorem Buried.still {bid : String} (h : Buried bid n) (l : Lasts n m) (ha : m.agents = n.agents) {es : List Event}
    (he : m.events = n.events ++ es) (hs : ∀ e ∈ es, handled bid e = false) : Still bid n m :=
  ⟨l, by rw [ha]; exact h.queues, es, he, hs⟩

theorem Registry.mem_modify {f : AppAgent → AppAgent} {eid : EID} {r : Registry} {x : AppAgent} (h : x ∈ Registry.modify f eid r) :
    x ∈ r ∨ ∃ a, r.find eid = some a ∧ x = f a := by
  induction r with
  | nil => cases h
  | cons a r ih =>
    unfold Registry.modify at h
    unfold Registry.find at ih ⊢
    by_cases he : eid = a.eid
    · rw [if_pos he] at h
      rcases List.mem_cons.mp h with rfl | h
      · exact .inr ⟨a, by simp [he], rfl⟩
      · exact .inl (List.mem_cons_of_mem _ h)
    · rw [if_neg he] at h
      rcases List.mem_cons.mp h with rfl | h
      · exact .inl (List.mem_cons_self ..)
      · rcases ih h with h | ⟨a', h1, h2⟩
        · exact .inl (List.mem_cons_of_mem _ h)
        · exact .inr ⟨a', by simp [he, h1], h2⟩

theorem find_mem {r : Registry} {eid : EID} {a : AppAgent} (h : r.find eid = some a) : a ∈ r := List.mem_of_find?_eq_some h

theorem keeps_buried (bid : String) : Keeps (Buried bid) Never (fun b => b.id ≠ bid) (fun _ => True) (Still bid) where
  inv _ h := h.inv
  id _ _ := trivial
  new _ _ _ _ := trivial
  waiting _ _ _ _ := trivial
  called _ _ _ := .inl trivial
  got n i b h _ hb hid := by
    have := h.inv.bundleId _ _ hb
    rw [hid] at this
    subst this
    rw [h.over.2] at hb; cases hb
  aside n m es h hb hs ha he hp := by
    refine h.still (keeps_sound.aside n m es h.toSound hb hs ha he hp) ha he fun e hx => ?_
    have := hp e hx
    cases e <;> first | rfl | exact this.elim
  sending n t h ht := h.still (keeps_sound.sending n t h.toSound trivial) rfl (es := [_]) rfl (by simp [handled, ht])
  update n bp h _ := h.still (keeps_sound.update n bp h.toSound trivial) rfl (es := []) (by simp) (by simp)
  remove n i c h := by
    have l := keeps_sound.remove n i c h.toSound
    unfold Node.remove at l ⊢
    split
    · rename_i hh
      rw [if_pos hh] at l
      exact h.still l rfl (es := [_]) rfl (by simp [handled])
    · rename_i hh
      rw [if_neg hh] at l
      exact h.still l rfl (es := []) (by simp) (by simp)
  push n b h _ hg := h.still (keeps_sound.push n b h.toSound trivial hg) rfl (es := []) (by simp [Node.push]) (by simp)
  report n r h hg := ⟨h.still (keeps_sound.report n r h.toSound hg).1 rfl (es := [_]) rfl (by simp [handled]), .inl trivial⟩
  accept n b h hk := by
    refine h.still (keeps_sound.accept n b h.toSound hk) rfl (es := [_]) rfl ?_
    have : b.id ≠ bid := by rintro rfl; exact h.over.1 hk
    simp [handled, this]
  deliver n e b room h hb := by
    have l := keeps_sound.deliver n e b room h.toSound trivial
    unfold Node.deliver at l ⊢
    cases hf : n.agents.find e with
    | none => exact h.still (by simpa [hf] using l) rfl (es := []) (by simp) (by simp)
    | some a =>
      simp only [hf] at l
      refine ⟨l, ?_, [_], rfl, by simp [handled, hb]⟩
      intro x hx b' hb'
      rcases Registry.mem_modify (show x ∈ Registry.modify _ e n.agents from hx) with hx | ⟨a', ha', rfl⟩
      · exact h.queues x hx b' hb'
      · have hq := h.queues a' (find_mem ha')
        unfold AppAgent.push at hb'
        split at hb'
        · split at hb'
          · rcases List.mem_append.mp hb' with hb' | hb'
            · exact hq _ hb'
            · rw [List.mem_singleton.mp hb']; exact hb
          · exact hq _ hb'
        · rcases List.mem_append.mp hb' with hb' | hb'
          · exact hq _ hb'
          · rw [List.mem_singleton.mp hb']; exact hb
  pop n e h := by
    have l := keeps_sound.pop n e h.toSound
    unfold Node.popAgent at l ⊢
    cases hf : n.agents.find e with
    | none => exact h.still (by simpa [hf] using l) rfl (es := []) (by simp) (by simp)
    | some a =>
      simp only [hf] at l ⊢
      cases hp : a.pop.2 with
      | none => exact h.still (by simpa [hp] using l) rfl (es := []) (by simp) (by simp)
      | some b =>
        simp only [hp] at l ⊢
        have hq := h.queues a (find_mem hf)
        have hb : b.id ≠ bid := by
          unfold AppAgent.pop at hp
          split at hp
          · cases hp
          · rename_i b0 bs hqq
            cases hp
            exact hq b (by rw [hqq]; simp)
        refine ⟨l, ?_, [_], rfl, by simp [handled, hb]⟩
        intro x hx b' hb'
        rcases Registry.mem_modify (show x ∈ Registry.modify _ e n.agents from hx) with hx | ⟨a', ha', rfl⟩
        · exact h.queues x hx b' hb'
        · have hq' := h.queues a' (find_mem ha')
          unfold AppAgent.pop at hb'
          split at hb'
          · exact hq' _ hb'
          · rename_i b0 bs hqq
            exact hq' b' (by rw [hqq]; simp [hb'])

theorem Buried.asked {bid : String} (n : Node) (bp : Pack) (a : Option Answer) (h : Buried bid n) : Still bid n (n.log (.asked bp a)) :=
  h.still (Sound.asked n bp a h.toSound) rfl (es := [_]) rfl (by simp [handled])

theorem Buried.outside {bid : String} (h : Buried bid n) (o : Outside n m) : Still bid n m := by
  have l := h.toSound.outside o
  cases o with
  | clock | peers | cla => exact h.still l rfl (es := []) (by simp) (by simp)
  | register eid =>
    refine ⟨l, ?_, [], by simp, by simp⟩
    intro a ha
    unfold Registry.register at ha
    dsimp only at ha
    split at ha
    · exact h.queues a ha
    · rcases List.mem_append.mp ha with ha | ha
      · exact h.queues a ha
      · rw [List.mem_singleton.mp ha]; simp [AppAgent.with]
  | unregister eid =>
    exact ⟨l, fun a ha => h.queues a (List.mem_of_mem_eraseP ha), [], by simp, by simp⟩
  | subscribe eid ch =>
    refine ⟨l, ?_, [], by simp, by simp⟩
    intro x hx
    rcases Registry.mem_modify (show x ∈ Registry.modify _ eid n.agents from hx) with hx | ⟨a', ha', rfl⟩
    · exact h.queues x hx
    · exact h.queues a' (find_mem ha')
  | unsubscribe eid =>
    refine ⟨l, ?_, [], by simp, by simp⟩
    intro x hx
    rcases Registry.mem_modify (show x ∈ Registry.modify _ eid n.agents from hx) with hx | ⟨a', ha', rfl⟩
    · exact h.queues x hx
    · exact h.queues a' (find_mem ha')

theorem Still.trans {bid : String} {k : Node} (h : Still bid n m) (h' : Still bid m k) : Still bid n k := by
  obtain ⟨es, he, hs⟩ := h.silent
  obtain ⟨es', he', hs'⟩ := h'.silent
  refine ⟨h.lasts.trans h'.lasts, h'.queues, es ++ es', by rw [he', he, List.append_assoc], ?_⟩
  intro e hx
  rcases List.mem_append.mp hx with hx | hx
  · exact hs e hx
  · exact hs' e hx

theorem reaches_buried {bid : String} {s t : Sys} (hr : Reaches s t) (h : Buried bid s.node) (hp : ∀ p ∈ s.pool, Onl (Buried bid) Never (Still bid) p) :
    Still bid s.node t.node ∧ ∀ p ∈ t.pool, Onl (Buried bid) Never (Still bid) p := by
  have W := keeps_buried bid
  induction hr with
  | refl => exact ⟨W.refl h, hp⟩
  | step _ hs ih =>
    obtain ⟨l, hq⟩ := ih
    obtain ⟨l', hq'⟩ := W.live Buried.asked (fun _ _ => Buried.outside) (l.buried h.over) hq hs
    exact ⟨l.trans l', hq'.resolve_left id⟩
  | @restart n' pool clock _ ih =>
    obtain ⟨l, hq⟩ := ih
    have b := l.buried h.over
    refine ⟨l.trans ⟨?_, by simp [restarted], [], by simp [restarted], by simp⟩, by simp⟩
    exact b.toSound.restart clock
  | @cut n' pool clock op k hw _ ih =>
    obtain ⟨l, hq⟩ := ih
    have b := l.buried h.over
    have he : (restarted (setDb n' ((db n').crashStep op k)) clock).events = n'.events := rfl
    exact ⟨l.trans ⟨b.toSound.cut clock hw, by simp [restarted], [], by simp [he], by simp⟩, by simp⟩

end Dtn.OnSled
