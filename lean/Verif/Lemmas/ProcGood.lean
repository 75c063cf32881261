import Verif.Lemmas.ProcWalk
/-! The invariant of bundle processing. -/

namespace Dtn.Proc
open Routing (Notification Answer)
open Spec (Justified Permitted)

structure Good (n : Node) : Prop where
  inv : n.store.Inv
  outcomes : ∀ t ok, Event.outcome t ok ∈ n.events → InGroup n t ∧ Event.sending t ∈ n.events
  sent : ∀ (g : Nat) (x : Group), n.groups[g]? = some x → x.sent = true →
    ∃ t : Transfer, Event.outcome t true ∈ n.events ∧ t.group = g
  asked : ∀ (g : Nat) (x : Group), n.groups[g]? = some x →
    Event.asked x.pack (some x.answer) ∈ n.events ∧ x.stored.id = x.pack.id
  removed : ∀ l bid c r, n.events = l ++ Event.removed bid c :: r → Justified l n.cfg bid c
  sends : ∀ t, Event.sending t ∈ n.events → Prepared n.cfg.hostEid t ∧ InGroup n t
  reports : ∀ r, Event.report r ∈ n.events → Permitted n.cfg r
  once : ∀ l b r, n.events = l ++ Event.accepted b :: r → (∀ c, Event.removed b.id c ∉ r) →
    n.store.getBundle b.id ≠ none
  apart : ∀ l b r b' r', n.events = l ++ Event.accepted b :: (r ++ Event.accepted b' :: r') → b.id = b'.id →
    ∃ c, Event.removed b.id c ∈ r

theorem Good.start (cfg clock) : Good (Node.start cfg clock) := by
  constructor <;> simp [Node.start, MemStore.Inv.new]

/-- A list split before its end. -/
theorem split_last {α : Type} {E : List α} {o : Option α} {l r : List α} {a : α} (h : E ++ o.toList = l ++ a :: r) :
    (∃ r', E = l ++ a :: r' ∧ r = r' ++ o.toList) ∨ (o = some a ∧ l = E ∧ r = []) := by
  cases o with
  | none => left; exact ⟨r, by simpa using h, by simp⟩
  | some e =>
    rcases List.eq_nil_or_concat r with rfl | ⟨r', x, rfl⟩
    · right
      have h' : E ++ [e] = l ++ [a] := by simpa using h
      obtain ⟨h1, h2⟩ := List.append_inj' h' rfl
      exact ⟨by simpa using h2, h1.symm, rfl⟩
    · left
      have h' : E ++ [e] = (l ++ a :: r') ++ [x] := by simpa using h
      obtain ⟨h1, h2⟩ := List.append_inj' h' rfl
      exact ⟨r', h1, by simpa using h2.symm⟩

theorem Good.step {n m : Node} (h : Good n) (b : Base n m) (o : Option Event) (he : m.events = n.events ++ o.toList)
    (inv : m.store.Inv)
    (hstore : ∀ bid, n.store.getBundle bid ≠ none → m.store.getBundle bid = none → ∃ c, o = some (.removed bid c))
    (hgroups : ∀ (g : Nat) (y : Group), m.groups[g]? = some y →
      (∃ x : Group, n.groups[g]? = some x ∧ y.pack = x.pack ∧ y.answer = x.answer ∧ y.stored = x.stored ∧
        (y.sent = true → x.sent = true ∨ ∃ t : Transfer, Event.outcome t true ∈ n.events ∧ t.group = g)) ∨
      (Event.asked y.pack (some y.answer) ∈ n.events ∧ y.stored.id = y.pack.id ∧ y.sent = false))
    (hrem : ∀ bid c, o = some (.removed bid c) → Justified n.events n.cfg bid c)
    (hacc : ∀ b, o = some (.accepted b) → n.store.getBundle b.id = none ∧ m.store.getBundle b.id ≠ none)
    (hsend : ∀ t, o = some (.sending t) → Prepared n.cfg.hostEid t ∧ InGroup n t)
    (hout : ∀ t ok, o = some (.outcome t ok) → InGroup n t ∧ Event.sending t ∈ n.events)
    (hrep : ∀ r, o = some (.report r) → Permitted n.cfg r) : Good m := by
  have hmem : ∀ e, e ∈ m.events → e ∈ n.events ∨ o = some e := by
    intro e h; rw [he] at h; simpa using h
  refine ⟨inv, ?_, ?_, ?_, ?_, ?_, ?_, ?_, ?_⟩
  · intro t ok ht
    rcases hmem _ ht with h' | h'
    · exact ⟨(h.outcomes t ok h').1.mono b, b.events _ (h.outcomes t ok h').2⟩
    · exact ⟨(hout t ok h').1.mono b, b.events _ (hout t ok h').2⟩
  · intro g y hy hs
    rcases hgroups g y hy with ⟨x, hx, -, -, -, hs'⟩ | ⟨-, -, hs'⟩
    · rcases hs' hs with h1 | ⟨t, ht, hg⟩
      · obtain ⟨t, ht, hg⟩ := h.sent g x hx h1
        exact ⟨t, b.events _ ht, hg⟩
      · exact ⟨t, b.events _ ht, hg⟩
    · rw [hs] at hs'; cases hs'
  · intro g y hy
    rcases hgroups g y hy with ⟨x, hx, h1, h2, h3, -⟩ | ⟨h1, h2, -⟩
    · rw [h1, h2, h3]; exact ⟨b.events _ (h.asked g x hx).1, (h.asked g x hx).2⟩
    · exact ⟨b.events _ h1, h2⟩
  · intro l bid c r hl
    rw [he] at hl
    rw [b.cfg]
    rcases split_last hl with ⟨r', h1, -⟩ | ⟨h1, h2, -⟩
    · exact h.removed l bid c r' h1
    · rw [h2]; exact hrem bid c h1
  · intro t ht
    rw [b.cfg]
    rcases hmem _ ht with h' | h'
    · exact ⟨(h.sends t h').1, (h.sends t h').2.mono b⟩
    · exact ⟨(hsend t h').1, (hsend t h').2.mono b⟩
  · intro r hr
    rw [b.cfg]
    rcases hmem _ hr with h' | h'
    · exact h.reports r h'
    · exact hrep r h'
  · intro l bb r hl hr
    rw [he] at hl
    rcases split_last hl with ⟨r', h1, h2⟩ | ⟨h1, -, -⟩
    · have := h.once l bb r' h1 (fun c hc => hr c (by rw [h2]; simp [hc]))
      intro hn
      obtain ⟨c, hc⟩ := hstore _ this hn
      exact hr c (by rw [h2, hc]; simp)
    · exact (hacc bb h1).2
  · intro l bb r b' r' hl hid
    rw [he] at hl
    have hl' : n.events ++ o.toList = (l ++ Event.accepted bb :: r) ++ Event.accepted b' :: r' := by simpa using hl
    rcases split_last hl' with ⟨r2, h1, -⟩ | ⟨h1, h2, -⟩
    · exact h.apart l bb r b' r2 (by simpa using h1) hid
    · by_contra hc
      have := h.once l bb r h2.symm (fun c h => hc ⟨c, h⟩)
      rw [hid] at this
      exact this (hacc b' h1).1

theorem Good.sameGroups {n m : Node} (h : m.groups = n.groups) : ∀ (g : Nat) (y : Group), m.groups[g]? = some y →
      (∃ x : Group, n.groups[g]? = some x ∧ y.pack = x.pack ∧ y.answer = x.answer ∧ y.stored = x.stored ∧
        (y.sent = true → x.sent = true ∨ ∃ t : Transfer, Event.outcome t true ∈ n.events ∧ t.group = g)) ∨
      (Event.asked y.pack (some y.answer) ∈ n.events ∧ y.stored.id = y.pack.id ∧ y.sent = false) := by
  intro g y hy; rw [h] at hy; exact .inl ⟨y, hy, rfl, rfl, rfl, .inl⟩

/-- Nothing that matters happens. -/
theorem Good.same {n m : Node} (h : Good n) (b : Base n m) (he : m.events = n.events) (inv : m.store.Inv)
    (hstore : ∀ bid, n.store.getBundle bid ≠ none → m.store.getBundle bid ≠ none) (hg : m.groups = n.groups) : Good m :=
  h.step b none (by simpa using he) inv (fun bid h h' => absurd h' (hstore bid h)) (Good.sameGroups hg)
    (by simp) (by simp) (by simp) (by simp) (by simp)

/-- An event is recorded that needs no justification. -/
theorem Good.log {n : Node} (h : Good n) (e : Event)
    (hrem : ∀ bid c, e = .removed bid c → Justified n.events n.cfg bid c)
    (hacc : ∀ b, e ≠ .accepted b)
    (hsend : ∀ t, e = .sending t → Prepared n.cfg.hostEid t ∧ InGroup n t)
    (hout : ∀ t ok, e = .outcome t ok → InGroup n t ∧ Event.sending t ∈ n.events)
    (hrep : ∀ r, e = .report r → Permitted n.cfg r) : Good (n.log e) :=
  h.step (Base.log n e) (some e) rfl h.inv (fun bid h h' => absurd h' h) (Good.sameGroups rfl)
    (by simpa using hrem) (fun b hb => absurd (Option.some.inj hb) (hacc b)) (by simpa using hsend) (by simpa using hout)
    (by simpa using hrep)

theorem Good.push {n : Node} (h : Good n) (b : Bundle) : Good (n.push b) := by
  refine h.same (Base.push n b) rfl (h.inv.push _ _) ?_ rfl
  intro bid hb
  simp only [Node.push, MemStore.getBundle_push]
  split <;> simp_all

theorem Good.acts : Acts Good where
  inv n h := h.inv
  push n b h := h.push b
  accept n b h := by
    by_cases hb : n.store.getBundle b.id = none
    · have hi : n.store.hasItem b.id = false := by
        cases hh : n.store.hasItem b.id
        · rfl
        · exact absurd hb ((MemStore.hasItem_iff _ _).mp hh)
      have hadd : n.store.addIfUnknown n.clock b = (n.store.push n.clock b, true) := by
        simp [MemStore.addIfUnknown, hi]
      have hn : n.addIfUnknown b = { n with store := n.store.push n.clock b }.log (.accepted b) := by
        simp [Node.addIfUnknown, hadd]
      refine h.step (Base.addIfUnknown n b) (some (.accepted b)) (by rw [hn]; rfl)
        (by rw [hn]; exact h.inv.push _ _) ?_ (Good.sameGroups (by rw [hn]; rfl)) (by simp) ?_ (by simp) (by simp) (by simp)
      · intro bid h1 h2
        rw [hn] at h2
        simp only [Node.log, MemStore.getBundle_push] at h2
        split at h2 <;> simp_all
      · intro b' hb'
        simp only [Option.some.injEq, Event.accepted.injEq] at hb'
        subst hb'
        rw [hn]
        simp [hb, Node.log, MemStore.getBundle_push]
    · have hi : n.store.hasItem b.id = true := (MemStore.hasItem_iff _ _).mpr hb
      have hn : n.addIfUnknown b = n.log (.duplicate b) := by
        simp [Node.addIfUnknown, MemStore.addIfUnknown, hi]
      rw [hn]
      exact h.log _ (by simp) (by simp) (by simp) (by simp) (by simp)
  remove n bid c h hj := by
    unfold Node.remove
    have hb := Base.remove n h.inv bid c
    unfold Node.remove at hb
    split
    · rename_i ho
      rw [if_pos ho] at hb
      refine h.step hb (some (.removed bid c)) rfl (h.inv.remove _) ?_ (Good.sameGroups rfl) ?_ (by simp) (by simp)
        (by simp) (by simp)
      · intro j h1 h2
        simp only [Node.log, MemStore.getBundle_remove h.inv] at h2
        split at h2
        · rename_i hj; subst hj; exact ⟨c, rfl⟩
        · exact absurd h2 h1
      · intro j c' hj'
        simp only [Option.some.injEq, Event.removed.injEq] at hj'
        obtain ⟨rfl, rfl⟩ := hj'
        exact hj
    · rename_i ho
      rw [if_neg ho] at hb
      refine h.same hb rfl (h.inv.remove _) ?_ rfl
      intro j h1
      rw [MemStore.remove_ok h.inv] at ho
      simp only [MemStore.getBundle_remove h.inv]
      split
      · rename_i hj; subst hj; exact absurd h1 ho
      · exact h1
  update n bp h := h.same (Base.update n bp) rfl (h.inv.update _) (by simp [MemStore.getBundle_update]) rfl
  deliver n e b r h := by
    have hb := Base.deliver n e b r
    unfold Node.deliver at hb ⊢
    split
    · exact h
    · rename_i a ha
      rw [ha] at hb
      exact h.step hb (some (.delivered e b (a.push b r).2)) rfl h.inv (fun bid h h' => absurd h' h) (Good.sameGroups rfl) (by simp) (by simp) (by simp) (by simp)
        (by simp)
  pop n e h := by
    have hb := Base.popAgent n e
    unfold Node.popAgent at hb ⊢
    split
    · exact h
    · rename_i a ha
      rw [ha] at hb
      dsimp only at hb
      split
      · exact h
      · rename_i b hp
        rw [hp] at hb
        exact h.step hb (some (.popped e b)) rfl h.inv (fun bid h h' => absurd h' h) (Good.sameGroups rfl) (by simp) (by simp) (by simp) (by simp)
          (by simp)
  group n bp b a h hid hask := by
    refine h.step (Base.newGroup n bp b a) none (by simp [Node.newGroup]) h.inv (fun bid h h' => absurd h' h) ?_ (by simp)
      (by simp) (by simp) (by simp) (by simp)
    intro g y hy
    simp only [Node.newGroup] at hy
    by_cases hl : g < n.groups.length
    · rw [List.getElem?_append_left hl] at hy
      exact .inl ⟨y, hy, rfl, rfl, rfl, .inl⟩
    · rw [List.getElem?_append_right (Nat.not_lt.mp hl)] at hy
      have : y = { running := a.clas.length, pack := bp, stored := b, answer := a } := by
        cases hg : g - n.groups.length with
        | zero => rw [hg] at hy; simpa using hy.symm
        | succ k => rw [hg] at hy; simp at hy
      subst this
      exact .inr ⟨hask, hid, rfl⟩
  endTask n g h := by
    refine h.step (Base.endTask n g) none (by simp [Node.endTask]) h.inv (fun bid h h' => absurd h' h) ?_ (by simp)
      (by simp) (by simp) (by simp) (by simp)
    intro i y hy
    obtain ⟨x, hx, rfl⟩ := (getElem?_modify_iff _ _ _ _ _).mp hy
    refine .inl ⟨x, hx, ?_⟩
    split <;> simp +contextual
  setSent n t h ht := by
    refine h.step (Base.setSent n t.group) none (by simp [Node.setSent]) h.inv (fun bid h h' => absurd h' h) ?_ (by simp)
      (by simp) (by simp) (by simp) (by simp)
    intro i y hy
    obtain ⟨x, hx, rfl⟩ := (getElem?_modify_iff _ _ _ _ _).mp hy
    refine .inl ⟨x, hx, ?_⟩
    split
    · rename_i hi; exact ⟨rfl, rfl, rfl, fun _ => .inr ⟨t, ht, hi⟩⟩
    · exact ⟨rfl, rfl, rfl, .inl⟩
  stats n st h := h.same (Base.stats n st) rfl h.inv (fun _ h => h) rfl
  peers n st h := h.same (Base.peers n st) rfl h.inv (fun _ h => h) rfl
  called n c h := h.log _ (by simp) (by simp) (by simp) (by simp) (by simp)
  note n c h := h.log _ (by simp) (by simp) (by simp) (by simp) (by simp)
  asked n bp a h := h.log _ (by simp) (by simp) (by simp) (by simp) (by simp)
  sending n t h hp hg := h.log _ (by simp) (by simp) (by rintro _ ⟨⟩; exact ⟨hp, hg⟩) (by simp) (by simp)
  outcome n t ok h hs hg := h.log _ (by simp) (by simp) (by simp) (by rintro _ _ ⟨⟩; exact ⟨hg, hs⟩) (by simp)
  report n r h hp := (h.push _).log _ (by simp) (by simp) (by simp) (by simp) (by rintro _ ⟨⟩; exact hp)
  sent n g h hs := by
    unfold Node.isSent at hs
    split at hs
    · rename_i x hx
      obtain ⟨t, ht, rfl⟩ := h.sent g x hx hs
      obtain ⟨y, hy, h1, h2⟩ := (h.outcomes t true ht).1
      rw [hx] at hy; cases hy
      exact ⟨x, t, hx, ht, h1.symm, h2⟩
    · cases hs

theorem Good.outside {n m : Node} (o : Outside n m) (h : Good n) : Good m := by
  have hb := Base.outside o
  cases o <;> exact h.same hb rfl h.inv (fun _ h => h) rfl

/-- Every reachable state is good. -/
theorem good_always {cfg : Config} {clock : Nat} {t : Sys} (hr : Reaches .any ⟨Node.start cfg clock, []⟩ t) :
    Good t.node ∧ t.node.cfg = cfg :=
  let h := Good.acts.always (fun _ _ o h => h.outside o) (Good.start cfg clock) hr
  ⟨h.1, h.2.cfg⟩

end Dtn.Proc
