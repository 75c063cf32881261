import Verif.Lemmas.BridgeIn
/-! Further lemmas about the programs that carry bundles over TCP: order over several connections, when nothing is dropped, and when the programs
keep running. -/

namespace Dtn.Bridge
open Spec.BridgeSpec
open ModuleClient (EclaPacket)
open scoped List

variable {g : Prog} {s t : State}

/-- A list sorted by a key below `n` is the concatenation of its parts. -/
theorem sorted_parts {α : Type} (key : α → Nat) (n : Nat) : ∀ l : List α, (l.map key).Pairwise (· ≤ ·) → (∀ a ∈ l, key a < n) →
    l = (List.range n).flatMap fun c => l.filter fun a => key a = c := by
  induction n with
  | zero =>
    intro l _ hn
    cases l with
    | nil => rfl
    | cons a l => exact absurd (hn a List.mem_cons_self) (Nat.not_lt_zero _)
  | succ n ih =>
    intro l hp hn
    have split : ∀ l : List α, (l.map key).Pairwise (· ≤ ·) → (∀ a ∈ l, key a < n + 1) →
        l = (l.filter fun a => key a < n) ++ l.filter fun a => key a = n := by
      intro l
      induction l with
      | nil => intro _ _; rfl
      | cons a l ihl =>
        intro hp hn
        simp only [List.map_cons, List.pairwise_cons] at hp
        have ih' := ihl hp.2 fun b hb => hn b (List.mem_cons_of_mem _ hb)
        by_cases ha : key a < n
        · rw [List.filter_cons_of_pos (by simpa using ha), List.filter_cons_of_neg (by simp; omega), List.cons_append, ← ih']
        · have han : key a = n := by have := hn a List.mem_cons_self; omega
          have hnil : (l.filter fun a => key a < n) = [] := by
            simp only [List.filter_eq_nil_iff, decide_eq_true_eq]
            intro b hb
            have := hp.1 (key b) (List.mem_map_of_mem hb)
            omega
          rw [List.filter_cons_of_neg (by simpa using ha), List.filter_cons_of_pos (by simpa using han), hnil, List.nil_append]
          rw [hnil, List.nil_append] at ih'
          rw [← ih']
    rw [List.range_succ, List.flatMap_append, List.flatMap_singleton]
    have h1 := ih (l.filter fun a => key a < n) (hp.sublist (List.filter_sublist.map _)) (by simp)
    have h2 : ((List.range n).flatMap fun c => (l.filter fun a => decide (key a < n)).filter fun a => decide (key a = c)) =
        (List.range n).flatMap fun c => l.filter fun a => decide (key a = c) := by
      rw [List.flatMap_def, List.flatMap_def]
      congr 1
      refine List.map_congr_left fun c hc => ?_
      rw [List.filter_filter]
      refine List.filter_congr fun a _ => ?_
      have := List.mem_range.1 hc
      simp only [Bool.and_eq_decide, decide_eq_true_eq, decide_eq_decide]
      omega
    conv => lhs; rw [split l hp hn, h1, h2]

theorem usedAt_written {dst : String} {h : EclaPacket × Fate} {c : Nat} (hu : usedAt g dst h = some c) : h.2 = .written c ∧ (g.frame h.1).map (fun f => f.1) = some dst := by
  obtain ⟨p, f⟩ := h
  cases f with
  | written c' =>
    simp only [usedAt, Option.bind_eq_some_iff] at hu
    obtain ⟨⟨d, x⟩, hf, hd⟩ := hu
    split at hd
    · rename_i hdd
      simp only [Option.some.injEq] at hd
      simp only at hdd
      subst hd; subst hdd
      exact ⟨rfl, by simp [hf]⟩
    · cases hd
  | ignored => simp [usedAt] at hu
  | lost => simp [usedAt] at hu

theorem usedAt_of {dst : String} {p : EclaPacket} {c : Nat} (hf : (g.frame p).map (fun f => f.1) = some dst) : usedAt g dst (p, .written c) = some c := by
  cases h : g.frame p with
  | none => simp [h] at hf
  | some q => simp [h] at hf; simp [usedAt, h, hf]

/-- The connections to an address, one after the other, carry the packets for it in order. -/
theorem sentTo_eq {evs : List Ev} (h : OutInv g evs s) (dst : String) :
    sentTo g dst s = (List.range s.outs.length).flatMap fun c => if (s.outs[c]?).map (fun o => o.addr) = some dst then sentOn s c else [] := by
  let key : EclaPacket × Fate → Nat := fun h => (usedAt g dst h).getD 0
  have hk : (s.handled.filter fun h => (usedAt g dst h).isSome).map key = usedFor g dst s := by
    unfold usedFor
    generalize s.handled = l
    induction l with
    | nil => rfl
    | cons a l ih =>
      cases hu : usedAt g dst a with
      | none => rw [List.filter_cons_of_neg (by simp [hu]), List.filterMap_cons_none hu, ih]
      | some c => rw [List.filter_cons_of_pos (by simp [hu]), List.filterMap_cons_some hu, List.map_cons, ih]; simp [key, hu]
  have hlt : ∀ a ∈ s.handled.filter fun h => (usedAt g dst h).isSome, key a < s.outs.length := by
    intro a ha
    simp only [List.mem_filter] at ha
    obtain ⟨c, hc⟩ := Option.isSome_iff_exists.1 ha.2
    obtain ⟨p, f⟩ := a
    have hw := (usedAt_written hc).1
    simp only at hw; subst hw
    obtain ⟨o, x, ho, -⟩ := h.written p c ha.1
    simp only [key, hc, Option.getD_some]
    exact (List.getElem?_eq_some_iff.1 ho).1
  have hs := sorted_parts key s.outs.length _ (by rw [hk]; exact h.mono dst) hlt
  unfold sentTo
  conv => lhs; rw [hs]
  rw [List.flatMap_def, List.map_flatten, List.flatMap_def, List.map_map]
  congr 1
  refine List.map_congr_left fun c hc => ?_
  simp only [Function.comp, List.filter_filter]
  have hcl := List.mem_range.1 hc
  obtain ⟨o, ho⟩ : ∃ o, s.outs[c]? = some o := ⟨_, List.getElem?_eq_getElem hcl⟩
  rw [ho]
  simp only [Option.map_some, Option.some.injEq]
  split
  · rename_i hd
    unfold sentOn
    congr 1
    refine List.filter_congr fun a ha => ?_
    obtain ⟨p, f⟩ := a
    by_cases hf : f = .written c
    · subst hf
      obtain ⟨o', x, ho', hx⟩ := h.written p c ha
      rw [ho] at ho'; cases ho'
      have := usedAt_of (g := g) (dst := dst) (p := p) (c := c) (by simp [hx, hd])
      simp [key, this]
    · simp only [hf, decide_false, Bool.and_eq_false_iff, decide_eq_false_iff_not]
      by_cases hu : (usedAt g dst (p, f)).isSome
      · left
        obtain ⟨c', hc'⟩ := Option.isSome_iff_exists.1 hu
        intro hkc
        simp only [key, hc', Option.getD_some] at hkc
        subst hkc
        exact hf (usedAt_written hc').1
      · right; simpa using hu
  · rename_i hd
    simp only [List.map_eq_nil_iff, List.filter_eq_nil_iff, Bool.and_eq_true, decide_eq_true_eq, not_and]
    intro a ha hkc hu
    obtain ⟨c', hc'⟩ := Option.isSome_iff_exists.1 hu
    obtain ⟨p, f⟩ := a
    have hw := usedAt_written hc'
    simp only at hw
    obtain ⟨rfl, hw⟩ := hw
    simp only [key, hc', Option.getD_some] at hkc
    subst hkc
    obtain ⟨o', x, ho', hx⟩ := h.written p c' ha
    rw [ho] at ho'; cases ho'
    simp only [hx, Option.map_some, Option.some.injEq] at hw
    exact hd hw

/-- Among the packets that were dealt with, those for an address: written ones and lost ones. -/
theorem sentTo_sublist (g : Prog) (dst : String) (s : State) : sentTo g dst s <+ forAddr g dst (s.handled.map fun h => h.1) := by
  unfold sentTo forAddr
  generalize s.handled = l
  induction l with
  | nil => exact List.Sublist.refl _
  | cons a l ih =>
    obtain ⟨p, f⟩ := a
    cases hu : usedAt g dst (p, f) with
    | none =>
      rw [List.filter_cons_of_neg (by simp [hu]), List.map_cons, List.filter_cons]
      split
      · exact ih.cons _
      · exact ih
    | some c =>
      rw [List.filter_cons_of_pos (by simp [hu]), List.map_cons, List.map_cons, List.filter_cons_of_pos (by simpa using (usedAt_written hu).2)]
      exact ih.cons_cons _

theorem sentTo_all {evs : List Ev} (h : OutInv g evs s) (dst : String) (hl : ∀ a ∈ s.handled, a.2 ≠ .lost) :
    sentTo g dst s = forAddr g dst (s.handled.map fun h => h.1) := by
  have hi := h.ignored
  unfold sentTo forAddr
  generalize s.handled = l at hl hi
  induction l with
  | nil => rfl
  | cons a l ih =>
    have ih' := ih (fun b hb => hl b (List.mem_cons_of_mem _ hb)) (fun p hp => hi p (List.mem_cons_of_mem _ hp))
    obtain ⟨p, f⟩ := a
    cases hu : usedAt g dst (p, f) with
    | none =>
      rw [List.filter_cons_of_neg (by simp [hu]), List.map_cons, List.filter_cons_of_neg, ih']
      simp only [decide_eq_true_eq]
      intro hf
      cases f with
      | written c => rw [usedAt_of hf] at hu; cases hu
      | ignored => rw [hi p List.mem_cons_self] at hf; cases hf
      | lost => exact hl _ List.mem_cons_self rfl
    | some c =>
      rw [List.filter_cons_of_pos (by simp [hu]), List.map_cons, List.map_cons, List.filter_cons_of_pos (by simpa using (usedAt_written hu).2), ih']

/-- What a step does to `handled`. -/
theorem handled_step {e : Ev} (hs : s.step g e = some t) : t.handled = s.handled ∨ ∃ p f, t.handled = s.handled ++ [(p, f)] ∧
    (f = .lost → e = .pick false ∨ (∃ k, e = .write (some k)) ∨ t.ended = true) := by
  cases e with
  | pick ok =>
    simp only [State.step] at hs
    split at hs
    · cases hs
    split at hs
    · rename_i p rx _ _
      split at hs
      · simp only [Option.some.injEq] at hs; subst hs
        exact .inr ⟨p, .ignored, rfl, by simp⟩
      · split at hs
        · simp only [Option.some.injEq] at hs; subst hs; exact .inl rfl
        · split at hs
          · simp only [Option.some.injEq] at hs; subst hs; exact .inl rfl
          · rename_i hok
            simp only [Option.some.injEq] at hs; subst hs
            refine .inr ⟨p, .lost, rfl, fun _ => .inl ?_⟩
            simpa using hok
    · cases hs
  | write r =>
    simp only [State.step] at hs
    split at hs
    · cases hs
    split at hs
    · cases hs
    rename_i p dst data _
    split at hs
    · simp only [Option.some.injEq] at hs; subst hs
      exact .inr ⟨p, .lost, rfl, fun _ => .inr (.inr rfl)⟩
    rename_i c _
    split at hs
    · cases hs
    split at hs
    · simp only [Option.some.injEq] at hs; subst hs
      exact .inr ⟨p, .written c, rfl, by simp⟩
    · rename_i k
      split at hs
      · simp only [Option.some.injEq] at hs; subst hs
        exact .inr ⟨p, .lost, rfl, fun _ => .inr (.inl ⟨k, rfl⟩)⟩
      · cases hs
  | packet p =>
    simp only [State.step] at hs
    repeat' split at hs
    all_goals first | (cases hs; done) | (simp only [Option.some.injEq] at hs; subst hs; exact .inl rfl)
  | accept a =>
    simp only [State.step] at hs
    repeat' split at hs
    all_goals first | (cases hs; done) | (simp only [Option.some.injEq] at hs; subst hs; exact .inl rfl)
  | chunk i b =>
    simp only [State.step] at hs
    repeat' split at hs
    all_goals first | (cases hs; done) | (simp only [Option.some.injEq] at hs; subst hs; exact .inl rfl)
  | close i =>
    simp only [State.step] at hs
    repeat' split at hs
    all_goals first | (cases hs; done) | (simp only [Option.some.injEq] at hs; subst hs; exact .inl rfl)
  | next i =>
    simp only [State.step] at hs
    repeat' split at hs
    all_goals first | (cases hs; done) | (simp only [Option.some.injEq] at hs; subst hs; exact .inl rfl)
  | take =>
    simp only [State.step] at hs
    repeat' split at hs
    all_goals first | (cases hs; done) | (simp only [Option.some.injEq] at hs; subst hs; exact .inl rfl)
  | clientEnds =>
    simp only [State.step] at hs
    repeat' split at hs
    all_goals first | (cases hs; done) | (simp only [Option.some.injEq] at hs; subst hs; exact .inl rfl)

theorem handled_run {evs : List Ev} : ∀ {s t : State}, s.run g evs = some t → s.handled <+: t.handled := by
  induction evs with
  | nil =>
    intro s t h
    simp only [State.run, Option.some.injEq] at h
    subst h; exact List.prefix_rfl
  | cons e es ih =>
    intro s t h
    simp only [State.run, Option.bind_eq_some_iff] at h
    obtain ⟨u, hu, h⟩ := h
    refine List.IsPrefix.trans ?_ (ih h)
    rcases handled_step hu with h1 | ⟨p, f, h1, -⟩
    · rw [h1]; exact List.prefix_rfl
    · rw [h1]; exact List.prefix_append _ _

theorem ended_stays {e : Ev} (h : s.ended = true) : s.step g e = none := by simp [State.step, h]

theorem no_lost {evs : List Ev} (h : After g evs s) : NoFailure evs → s.ended = false → ∀ a ∈ s.handled, a.2 ≠ .lost := by
  refine After.induct (P := fun evs s => NoFailure evs → s.ended = false → ∀ a ∈ s.handled, a.2 ≠ .lost) ?_ ?_ h
  · intro _ _ a ha; simp at ha
  · intro evs s e t _ ih hs hnf hne a ha
    have hse : s.ended = false := by
      cases hse : s.ended with
      | false => rfl
      | true => rw [ended_stays hse] at hs; cases hs
    have ih' := ih ⟨fun hm => hnf.1 (List.mem_append_left _ hm), fun k hm => hnf.2 k (List.mem_append_left _ hm)⟩ hse
    rcases handled_step hs with h1 | ⟨p, f, h1, hf⟩
    · rw [h1] at ha; exact ih' a ha
    · rw [h1, List.mem_append] at ha
      rcases ha with ha | ha
      · exact ih' a ha
      · simp only [List.mem_singleton] at ha
        subst ha
        intro hl
        rcases hf hl with rfl | ⟨k, rfl⟩ | he
        · exact hnf.1 (List.mem_append_right _ List.mem_cons_self)
        · exact hnf.2 k (List.mem_append_right _ List.mem_cons_self)
        · rw [hne] at he; cases he

/-- With room in the channel nothing is dropped. -/
theorem no_drop {evs : List Ev} (h : After g evs s) : Roomy g evs → ∀ o ∈ s.offered, o.2.2 = true := by
  refine After.induct (P := fun evs s => Roomy g evs → ∀ o ∈ s.offered, o.2.2 = true) ?_ ?_ h
  · intro _ o ho; simp at ho
  · intro evs s e t ha ih hs hr o ho
    have ih' := ih fun pre i post u he hu => hr pre i (post ++ [e]) u (by rw [he]; simp) hu
    cases e with
    | next i =>
      have hroom : s.ctx.length < capacity := hr evs i [] s rfl ha
      simp only [State.step] at hs
      repeat' split at hs
      all_goals first | (cases hs; done) | skip
      all_goals (simp only [Option.some.injEq] at hs; subst hs)
      all_goals first | (exact ih' o ho) | skip
      · simp only [List.mem_append, List.mem_singleton] at ho
        rcases ho with ho | rfl
        · exact ih' o ho
        · rfl
    | packet p =>
      simp only [State.step] at hs
      repeat' split at hs
      all_goals first | (cases hs; done) | (simp only [Option.some.injEq] at hs; subst hs; exact ih' o ho)
    | accept a =>
      simp only [State.step] at hs
      repeat' split at hs
      all_goals first | (cases hs; done) | (simp only [Option.some.injEq] at hs; subst hs; exact ih' o ho)
    | chunk i b =>
      simp only [State.step] at hs
      repeat' split at hs
      all_goals first | (cases hs; done) | (simp only [Option.some.injEq] at hs; subst hs; exact ih' o ho)
    | close i =>
      simp only [State.step] at hs
      repeat' split at hs
      all_goals first | (cases hs; done) | (simp only [Option.some.injEq] at hs; subst hs; exact ih' o ho)
    | take =>
      simp only [State.step] at hs
      repeat' split at hs
      all_goals first | (cases hs; done) | (simp only [Option.some.injEq] at hs; subst hs; exact ih' o ho)
    | clientEnds =>
      simp only [State.step] at hs
      repeat' split at hs
      all_goals first | (cases hs; done) | (simp only [Option.some.injEq] at hs; subst hs; exact ih' o ho)
    | pick ok =>
      simp only [State.step] at hs
      repeat' split at hs
      all_goals first | (cases hs; done) | (simp only [Option.some.injEq] at hs; subst hs; exact ih' o ho)
    | write r =>
      simp only [State.step] at hs
      repeat' split at hs
      all_goals first | (cases hs; done) | (simp only [Option.some.injEq] at hs; subst hs; exact ih' o ho)

/-- The connection that is about to be written on is in the table, unless somebody connected from its address. -/
structure KeepInv (g : Prog) (evs : List Ev) (s : State) : Prop where
  from_ : ∀ c ∈ s.ins, .accept c.addr ∈ evs
  has : ∀ p dst data, s.busy = some (p, dst, data) → (s.pool.get? dst).isSome = true
  ended : s.ended = true → g.exits = true ∧ .clientEnds ∈ evs

theorem mem_set_of {α : Type} {l : List α} {i : Nat} {a b : α} (h : b ∈ l.set i a) : b ∈ l ∨ b = a := by
  rcases List.mem_or_eq_of_mem_set h with h | h
  · exact .inl h
  · exact .inr h

theorem keep {evs : List Ev} (h : After g evs s) : Apart g evs → KeepInv g evs s := by
  refine After.induct (P := fun evs s => Apart g evs → KeepInv g evs s) ?_ ?_ h
  · intro _; exact ⟨by simp, by simp, by simp⟩
  · intro evs s e t ha ih hs hap
    have ih' := ih fun a hm p hp => hap a (List.mem_append_left _ hm) p (by rw [passed_append]; exact List.mem_append_left _ hp)
    have hinv := OutInv.after ha
    have hfrom : ∀ c ∈ s.ins, .accept c.addr ∈ evs ++ [e] := fun c hc => List.mem_append_left _ (ih'.from_ c hc)
    have hse : s.ended = false := by
      cases hse : s.ended with
      | false => rfl
      | true => rw [ended_stays hse] at hs; cases hs
    have hset : ∀ (i : Nat) (c c' : Incoming), s.ins[i]? = some c → c'.addr = c.addr → ∀ d ∈ s.ins.set i c', .accept d.addr ∈ evs ++ [e] := by
      intro i c c' hc hac d hd
      rcases mem_set_of hd with hd | rfl
      · exact hfrom d hd
      · rw [hac]; exact hfrom c (List.mem_of_getElem? hc)
    have hfin : ∀ (i : Nat) (c : Incoming), s.ins[i]? = some c → KeepInv g (evs ++ [e]) (s.finish i c) := by
      intro i c hc
      refine ⟨hset i c _ hc rfl, ?_, fun h => ?_⟩
      · intro p dst data hb
        change s.busy = some (p, dst, data) at hb
        change ((s.pool.erase c.addr).get? dst).isSome = true
        rw [AList.get?_erase]
        split
        · rename_i hd
          have hp : p ∈ passed evs := by rw [hinv.order, hb]; simp
          exact absurd ⟨data, by rw [hinv.busy p dst data hb, hd]⟩
            (hap c.addr (List.mem_append_left _ (ih'.from_ c (List.mem_of_getElem? hc))) p (by rw [passed_append]; exact List.mem_append_left _ hp))
        · exact ih'.has p dst data hb
      · change s.ended = true at h
        rw [hse] at h; cases h
    have hne : s.ended = true → g.exits = true ∧ .clientEnds ∈ evs ++ [e] := by intro h; rw [hse] at h; cases h
    cases e with
    | packet p =>
      simp only [State.step] at hs
      repeat' split at hs
      all_goals first | (cases hs; done) | (simp only [Option.some.injEq] at hs; subst hs; exact ⟨hfrom, ih'.has, hne⟩)
    | accept a =>
      simp only [State.step] at hs
      repeat' split at hs
      all_goals first | (cases hs; done) | skip
      simp only [Option.some.injEq] at hs; subst hs
      refine ⟨?_, ih'.has, hne⟩
      intro c hc
      simp only [List.mem_append, List.mem_singleton] at hc
      rcases hc with hc | rfl
      · exact hfrom c hc
      · simp
    | chunk i b =>
      simp only [State.step] at hs
      split at hs
      · cases hs
      split at hs
      · rename_i c hc
        split at hs
        · simp only [Option.some.injEq] at hs; subst hs
          exact ⟨hset i c _ hc rfl, ih'.has, hne⟩
        · cases hs
      · cases hs
    | close i =>
      simp only [State.step] at hs
      split at hs
      · cases hs
      split at hs
      · rename_i c hc
        split at hs
        · simp only [Option.some.injEq] at hs; subst hs
          exact ⟨hset i c _ hc rfl, ih'.has, hne⟩
        · cases hs
      · cases hs
    | take =>
      simp only [State.step] at hs
      repeat' split at hs
      all_goals first | (cases hs; done) | (simp only [Option.some.injEq] at hs; subst hs; exact ⟨hfrom, ih'.has, hne⟩)
    | clientEnds =>
      simp only [State.step] at hs
      repeat' split at hs
      all_goals first | (cases hs; done) | skip
      simp only [Option.some.injEq] at hs; subst hs
      exact ⟨hfrom, ih'.has, fun h => ⟨h, by simp⟩⟩
    | next i =>
      simp only [State.step] at hs
      split at hs
      · cases hs
      split at hs
      · cases hs
      rename_i c hc
      split at hs
      · cases hs
      split at hs
      · split at hs
        · split at hs
          · simp only [Option.some.injEq] at hs; subst hs
            exact ⟨hset i c _ hc rfl, ih'.has, hne⟩
          · split at hs
            · cases hs
            · simp only [Option.some.injEq] at hs; subst hs
              exact ⟨hset i c _ hc rfl, ih'.has, hne⟩
        · simp only [Option.some.injEq] at hs; subst hs
          exact ⟨hset i c _ hc rfl, ih'.has, hne⟩
        · simp only [Option.some.injEq] at hs; subst hs
          exact hfin i c hc
      · split at hs
        · simp only [Option.some.injEq] at hs; subst hs
          exact hfin i c hc
        · cases hs
    | pick ok =>
      simp only [State.step] at hs
      split at hs
      · cases hs
      split at hs
      · rename_i p rx hb hrx
        split at hs
        · simp only [Option.some.injEq] at hs; subst hs; exact ⟨hfrom, ih'.has, hne⟩
        · rename_i dst data hf
          split at hs
          · rename_i hcon
            simp only [Option.some.injEq] at hs; subst hs
            refine ⟨hfrom, ?_, hne⟩
            intro q d x hq
            simp only [Option.some.injEq, Prod.mk.injEq] at hq
            obtain ⟨rfl, rfl, rfl⟩ := hq; exact hcon
          · split at hs
            · simp only [Option.some.injEq] at hs; subst hs
              refine ⟨hfrom, ?_, hne⟩
              intro q d x hq
              simp only [Option.some.injEq, Prod.mk.injEq] at hq
              obtain ⟨rfl, rfl, rfl⟩ := hq
              simp
            · simp only [Option.some.injEq] at hs; subst hs; exact ⟨hfrom, ih'.has, hne⟩
      · cases hs
    | write r =>
      simp only [State.step] at hs
      split at hs
      · cases hs
      split at hs
      · cases hs
      rename_i p dst data hb
      split at hs
      · rename_i hg
        have := ih'.has p dst data hb
        rw [hg] at this; cases this
      split at hs
      · cases hs
      split at hs
      · simp only [Option.some.injEq] at hs; subst hs; exact ⟨hfrom, by simp, hne⟩
      · split at hs
        · simp only [Option.some.injEq] at hs; subst hs; exact ⟨hfrom, by simp, hne⟩
        · cases hs

end Dtn.Bridge
