import Verif.Lemmas.SledHistory
/-! Bundles that are in the database but not marked as waiting to be forwarded. -/

namespace Dtn.OnSled
open Proc Spec
open Routing (Notification Answer)

variable {n m n0 : Node} {bid : String}

/-- The bundle is known, and nothing will take it up. -/
structure Stranded (n0 : Node) (bid : String) (n : Node) : Prop extends Sound n where
  past : n0.events <+: n.events
  present : n.store.getMetadata bid ≠ none
  mark : ∀ p, n.store.getMetadata bid = some p → p.has .forwardPending = false
  queues : ∀ a ∈ n.agents, ∀ b ∈ a.queue, b.id ≠ bid

/-- A step that does nothing for it. -/
structure Leaves (n0 : Node) (bid : String) (n m : Node) : Prop where
  lasts : Lasts n m
  stranded : Stranded n0 bid m
  silent : ∃ es, m.events = n.events ++ es ∧ ∀ e ∈ es, handled bid e = false

/-- A bundle with this id was brought in anew. -/
def Anew (n0 : Node) (bid : String) (m : Node) : Prop := ∃ e ∈ newEvents n0 m, originated bid e = true

theorem Stranded.leaves (h : Stranded n0 bid n) (l : Lasts n m)
    (hm : ∀ p, m.store.getMetadata bid = some p → p.has .forwardPending = false)
    (hq : ∀ a ∈ m.agents, ∀ b ∈ a.queue, b.id ≠ bid) {es : List Event}
    (he : m.events = n.events ++ es) (hs : ∀ e ∈ es, handled bid e = false) : Leaves n0 bid n m :=
  ⟨l, ⟨l.sound, h.past.trans l.base.past, l.base.known _ h.present, hm, hq⟩, es, he, hs⟩

theorem Anew.log {e : Event} (h : n0.events <+: n.events) (he : originated bid e = true) : Anew n0 bid (n.log e) := by
  obtain ⟨es, hes⟩ := h
  refine ⟨e, ?_, he⟩
  rw [newEvents_eq (es := es ++ [e]) (by simp [Node.log, ← hes])]
  simp

theorem Stranded.push {b : Bundle} (h : Stranded n0 bid n) (hg : ¬ Gone b.id n) :
    ∀ p, (n.push b).store.getMetadata bid = some p → p.has .forwardPending = false := by
  intro p hp
  change (n.store.push n.clock b).getMetadata bid = some p at hp
  rw [MemStore.getMetadata_push] at hp
  split at hp
  · rename_i hh
    exact absurd ⟨hh.1 ▸ h.present, hh.2⟩ hg
  · exact h.mark p hp

theorem queues_deliver {e : EID} {b : Bundle} {room : Bool} (hq : ∀ a ∈ n.agents, ∀ b ∈ a.queue, b.id ≠ bid) (hb : b.id ≠ bid) :
    ∀ a ∈ (n.deliver e b room).agents, ∀ b ∈ a.queue, b.id ≠ bid := by
  unfold Node.deliver
  split
  · exact hq
  · intro x hx b' hb'
    rcases Registry.mem_modify (show x ∈ Registry.modify _ e n.agents from hx) with hx | ⟨a', ha', rfl⟩
    · exact hq x hx b' hb'
    · have hq := hq a' (find_mem ha')
      unfold AppAgent.push at hb'
      split at hb'
      · split at hb'
        · rcases List.mem_append.mp hb' with hb' | hb'
          · exact hq _ hb'
          · rw [List.mem_singleton.mp hb']; exact hb
        · exact hq _ hb'
      · rcases List.mem_append.mp hb' with hb' | hb'
        · exact hq _ hb'
        · rw [List.mem_singleton.mp hb']; exact hb

theorem queues_pop {e : EID} (hq : ∀ a ∈ n.agents, ∀ b ∈ a.queue, b.id ≠ bid) :
    (∀ a ∈ (n.popAgent e).agents, ∀ b ∈ a.queue, b.id ≠ bid) ∧
    ∃ es, (n.popAgent e).events = n.events ++ es ∧ ∀ e ∈ es, handled bid e = false := by
  unfold Node.popAgent
  cases hf : n.agents.find e with
  | none => exact ⟨hq, [], by simp, by simp⟩
  | some a =>
    dsimp only
    cases hp : a.pop.2 with
    | none => exact ⟨hq, [], by simp, by simp⟩
    | some b =>
      dsimp only
      have hqa := hq a (find_mem hf)
      have hb : b.id ≠ bid := by
        unfold AppAgent.pop at hp
        split at hp
        · cases hp
        · rename_i b0 bs hqq
          cases hp
          exact hqa b (by rw [hqq]; simp)
      refine ⟨?_, [_], rfl, by simp [handled, hb]⟩
      intro x hx b' hb'
      rcases Registry.mem_modify (show x ∈ Registry.modify _ e n.agents from hx) with hx | ⟨a', ha', rfl⟩
      · exact hq x hx b' hb'
      · have hq' := hq a' (find_mem ha')
        unfold AppAgent.pop at hb'
        split at hb'
        · exact hq' _ hb'
        · rename_i b0 bs hqq
          exact hq' b' (by rw [hqq]; simp [hb'])

theorem keeps_stranded (n0 : Node) (bid : String) :
    Keeps (Stranded n0 bid) (Anew n0 bid) (fun b => b.id ≠ bid) (fun i => i ≠ bid) (Leaves n0 bid) where
  inv _ h := h.inv
  got n i b h hi hb := by rw [h.inv.bundleId _ _ hb]; exact hi
  id b h := h
  new n i h hi := by rintro rfl; exact h.present hi
  waiting n i h hi := by
    rintro rfl
    obtain ⟨p, h1, h2⟩ := (mem_forwarding_iff h.inv _).mp hi
    rw [h.mark p h1] at h2; cases h2
  called n b h := by
    by_cases hb : b.id = bid
    · exact .inr (.log h.past (by simp [originated, hb]))
    · exact .inl hb
  aside n m es h hb hs ha he hp := by
    refine h.leaves (keeps_sound.aside n m es h.toSound hb hs ha he hp) (by rw [hs]; exact h.mark) (by rw [ha]; exact h.queues) he fun e hx => ?_
    have := hp e hx
    cases e <;> first | rfl | exact this.elim
  sending n t h ht := h.leaves (keeps_sound.sending n t h.toSound trivial) h.mark h.queues (es := [_]) rfl (by simp [handled, ht])
  update n bp h hi := by
    refine h.leaves (keeps_sound.update n bp h.toSound trivial) ?_ h.queues (es := []) (by simp) (by simp)
    intro p hp
    dsimp only at hp
    rw [MemStore.getMetadata_update, if_neg fun hh => hi hh.1.symm] at hp
    exact h.mark p hp
  remove n i c h := by
    have l := keeps_sound.remove n i c h.toSound
    have hst : (n.remove i c).store = (n.store.remove i).1 := by unfold Node.remove; split <;> rfl
    have hm : ∀ p, (n.remove i c).store.getMetadata bid = some p → p.has .forwardPending = false := by
      intro p hp
      rw [hst, MemStore.getMetadata_remove h.inv] at hp
      split at hp
      · cases hq : n.store.getMetadata i with
        | none => rw [hq] at hp; cases hp
        | some q => rw [hq] at hp; cases hp; simp [MemStore.tomb, Pack.has_add, Pack.has_clear]
      · exact h.mark p hp
    unfold Node.remove at l hm ⊢
    split
    · rename_i hh
      rw [if_pos hh] at l hm
      exact h.leaves l hm h.queues (es := [_]) rfl (by simp [handled])
    · rename_i hh
      rw [if_neg hh] at l hm
      exact h.leaves l hm h.queues (es := []) (by simp) (by simp)
  push n b h hi hg := h.leaves (keeps_sound.push n b h.toSound trivial hg) (h.push hg) h.queues (es := []) (by simp [Node.push]) (by simp)
  report n r h hg := by
    refine ⟨h.leaves (keeps_sound.report n r h.toSound hg).1 (h.push hg) h.queues (es := [_]) rfl (by simp [handled]), ?_⟩
    by_cases hb : r.report.id = bid
    · exact .inr (.log h.past (by simp [originated, hb]))
    · exact .inl hb
  accept n b h hk := by
    have hb : b.id ≠ bid := by rintro rfl; exact h.present hk
    exact h.leaves (keeps_sound.accept n b h.toSound hk) (h.push fun g => g.1 hk) h.queues (es := [_]) rfl (by simp [handled, hb])
  deliver n e b room h hb := by
    have hst : (n.deliver e b room).store = n.store := by unfold Node.deliver; split <;> rfl
    have hev : ∃ es, (n.deliver e b room).events = n.events ++ es ∧ ∀ e ∈ es, handled bid e = false := by
      unfold Node.deliver
      split
      · exact ⟨[], by simp, by simp⟩
      · exact ⟨[_], rfl, by simp [handled, hb]⟩
    obtain ⟨es, h1, h2⟩ := hev
    exact h.leaves (keeps_sound.deliver n e b room h.toSound trivial) (by rw [hst]; exact h.mark) (queues_deliver h.queues hb) h1 h2
  pop n e h := by
    have hst : (n.popAgent e).store = n.store := by
      unfold Node.popAgent; split
      · rfl
      · split <;> rfl
    obtain ⟨h0, es, h1, h2⟩ := queues_pop (e := e) h.queues
    exact h.leaves (keeps_sound.pop n e h.toSound) (by rw [hst]; exact h.mark) h0 h1 h2

theorem Stranded.asked (n : Node) (bp : Pack) (a : Option Answer) (h : Stranded n0 bid n) : Leaves n0 bid n (n.log (.asked bp a)) :=
  h.leaves (Sound.asked n bp a h.toSound) h.mark h.queues (es := [_]) rfl (by simp [handled])

theorem Stranded.outside (h : Stranded n0 bid n) (o : Outside n m) : Leaves n0 bid n m := by
  have l := h.toSound.outside o
  have hq : ∀ a ∈ m.agents, ∀ b ∈ a.queue, b.id ≠ bid := by
    cases o with
    | clock | peers | cla => exact h.queues
    | register eid =>
      intro a ha
      unfold Registry.register at ha
      dsimp only at ha
      split at ha
      · exact h.queues a ha
      · rcases List.mem_append.mp ha with ha | ha
        · exact h.queues a ha
        · rw [List.mem_singleton.mp ha]; simp [AppAgent.with]
    | unregister eid => exact fun a ha => h.queues a (List.mem_of_mem_eraseP ha)
    | subscribe eid ch =>
      intro x hx
      rcases Registry.mem_modify (show x ∈ Registry.modify _ eid n.agents from hx) with hx | ⟨a', ha', rfl⟩
      · exact h.queues x hx
      · exact h.queues a' (find_mem ha')
    | unsubscribe eid =>
      intro x hx
      rcases Registry.mem_modify (show x ∈ Registry.modify _ eid n.agents from hx) with hx | ⟨a', ha', rfl⟩
      · exact h.queues x hx
      · exact h.queues a' (find_mem ha')
  have hs : m.store = n.store ∧ m.events = n.events := by cases o <;> exact ⟨rfl, rfl⟩
  exact h.leaves l (by rw [hs.1]; exact h.mark) hq (es := []) (by rw [hs.2]; simp) (by simp)

theorem Leaves.trans {k : Node} (h : Leaves n0 bid n m) (h' : Leaves n0 bid m k) : Leaves n0 bid n k := by
  obtain ⟨es, he, hs⟩ := h.silent
  obtain ⟨es', he', hs'⟩ := h'.silent
  refine ⟨h.lasts.trans h'.lasts, h'.stranded, es ++ es', by rw [he', he, List.append_assoc], ?_⟩
  intro e hx
  rcases List.mem_append.mp hx with hx | hx
  · exact hs e hx
  · exact hs' e hx

theorem Anew.mono (h : Anew n0 bid n) (hp : n0.events <+: n.events) (b : Base n m) : Anew n0 bid m := by
  obtain ⟨e, he, ho⟩ := h
  obtain ⟨es, hes⟩ := hp
  obtain ⟨es', hes'⟩ := b.past
  rw [newEvents_eq hes.symm] at he
  exact ⟨e, by rw [newEvents_eq (es := es ++ es') (by rw [← hes', ← hes, List.append_assoc])]; simp [he], ho⟩

theorem stranded_restart (h : Stranded n0 bid n) (clock : Nat) : Leaves n0 bid n (restarted n clock) :=
  h.leaves (h.toSound.restart clock) h.mark (by simp [restarted]) (es := []) (by simp [restarted]) (by simp)

theorem stranded_cut {op : SledStore.Op} {k : Nat} (h : Stranded n0 bid n) (clock : Nat)
    (hw : ∀ ws, (db n).writes op = .ok ws → k < ws.length) :
    Leaves n0 bid n (restarted (setDb n ((db n).crashStep op k)) clock) := by
  refine h.leaves (h.toSound.cut clock hw) ?_ (by simp [restarted]) (es := []) (by simp [restarted, setDb]) (by simp)
  rcases cut_cases hw with e | ⟨p, hf, e⟩
  · rw [e]; exact h.mark
  · rw [e]
    intro q hq
    change MemStore.getMetadata { n.store with metadata := AList.insert n.store.metadata p.id p } bid = some q at hq
    rw [getMetadata_insert] at hq
    split at hq
    · cases hq; exact hf
    · exact h.mark q hq

/-- Nothing happens to it until one with its id is brought in anew. -/
theorem reaches_stranded {cfg : Config} {clock : Nat} {s t : Sys} (before : Reaches ⟨Node.start cfg clock, []⟩ s) (hr : Reaches s t) (h : Stranded n0 bid s.node) (hp : s.pool = []) (hno : ¬ Anew n0 bid t.node) :
    Leaves n0 bid s.node t.node ∧ ∀ p ∈ t.pool, Onl (Stranded n0 bid) (Anew n0 bid) (Leaves n0 bid) p := by
  have W := keeps_stranded n0 bid
  induction hr with
  | refl => exact ⟨W.refl h, by simp [hp]⟩
  | @step t u hr hs ih =>
    by_cases ha : Anew n0 bid t.node
    · exact absurd (ha.mono (h.past.trans (between before hr).2.1.base.past) (between (before.join hr) (.step (.refl _) hs)).2.1.base) hno
    · obtain ⟨l, hq⟩ := ih ha
      obtain ⟨l', hq'⟩ := W.live Stranded.asked (fun _ _ => Stranded.outside) l.stranded hq hs
      exact ⟨l.trans l', hq'.resolve_left hno⟩
  | restart clock _ ih =>
    obtain ⟨l, hq⟩ := ih hno
    exact ⟨l.trans (stranded_restart l.stranded clock), by simp⟩
  | cut clock op k hw _ ih =>
    obtain ⟨l, hq⟩ := ih hno
    exact ⟨l.trans (stranded_cut l.stranded clock hw), by simp⟩

end Dtn.OnSled
