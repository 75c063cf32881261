import Verif.Spec.Bridge
import Verif.Lemmas.AList
import Verif.Lemmas.Mtcp
import Verif.Lemmas.EclaFrames
/-! Invariants of the programs that carry bundles over TCP. -/

namespace Dtn.Bridge
open Spec.BridgeSpec
open ModuleClient (EclaPacket)

variable {g : Prog} {s t : State}

/-- The bytes written for a packet. -/
def bytesFor (g : Prog) (p : EclaPacket) : Bytes := ((g.frame p).map fun f => f.2).getD []

theorem run_append (g : Prog) (as : List Ev) : ∀ (s : State) (bs : List Ev), s.run g (as ++ bs) = (s.run g as).bind fun t => t.run g bs := by
  induction as with
  | nil => intro s bs; rfl
  | cons a as ih =>
    intro s bs
    simp only [List.cons_append, State.run]
    cases s.step g a with
    | none => rfl
    | some u => exact ih u bs

theorem After.cons {evs : List Ev} {e : Ev} (h : After g evs s) (hs : s.step g e = some t) : After g (evs ++ [e]) t := by
  unfold After at *
  rw [run_append, h]
  simp [State.run, hs]

/-- Induction over the events. -/
theorem After.induct {P : List Ev → State → Prop} (h0 : P [] {})
    (hstep : ∀ evs s e t, After g evs s → P evs s → s.step g e = some t → P (evs ++ [e]) t) {evs : List Ev} {s : State} (h : After g evs s) : P evs s := by
  have key : ∀ (es : List Ev) (as : List Ev) (u : State), After g as u → P as u → ∀ v, u.run g es = some v → P (as ++ es) v := by
    intro es
    induction es with
    | nil =>
      intro as u _ hp v hv
      simp only [State.run, Option.some.injEq] at hv
      subst hv; simpa using hp
    | cons e es ih =>
      intro as u ha hp v hv
      simp only [State.run, Option.bind_eq_some_iff] at hv
      obtain ⟨w, hw, hv⟩ := hv
      have := ih (as ++ [e]) w (After.cons ha hw) (hstep as u e w ha hp hw) v hv
      simpa using this
  simpa using key evs [] {} rfl h0 s h

theorem passed_append (a b : List Ev) : passed (a ++ b) = passed a ++ passed b := by simp [passed]

/-- The sending half. -/
structure OutInv (g : Prog) (evs : List Ev) (s : State) : Prop where
  order : passed evs = s.handled.map (fun h => h.1) ++ (s.busy.toList.map fun b => b.1) ++ s.rx
  busy : ∀ p dst data, s.busy = some (p, dst, data) → g.frame p = some (dst, data)
  pool : ∀ dst c, s.pool.get? dst = some c → ∃ o, s.outs[c]? = some o ∧ o.addr = dst ∧ o.written = (sentOn s c).flatMap (bytesFor g) ∧
    ∀ c' o', s.outs[c']? = some o' → o'.addr = dst → c' ≤ c
  wires : ∀ (c : Nat) o, s.outs[c]? = some o → ∃ tail, o.written = (sentOn s c).flatMap (bytesFor g) ++ tail ∧
    (tail = [] ∨ ∃ p data rest, (p, Fate.lost) ∈ s.handled ∧ g.frame p = some (o.addr, data) ∧ data = tail ++ rest ∧ rest ≠ [])
  written : ∀ p c, (p, Fate.written c) ∈ s.handled → ∃ o data, s.outs[c]? = some o ∧ g.frame p = some (o.addr, data)
  ignored : ∀ p, (p, Fate.ignored) ∈ s.handled → g.frame p = none
  lost : ∀ p, (p, Fate.lost) ∈ s.handled → g.frame p ≠ none
  mono : ∀ dst, (usedFor g dst s).Pairwise (· ≤ ·)

/-- The fields that the sending half is about have not changed. -/
theorem OutInv.congr {evs : List Ev} (h : OutInv g evs s) (e : Ev) (he : passed [e] = []) (h1 : t.handled = s.handled) (h2 : t.busy = s.busy)
    (h3 : t.rx = s.rx) (h4 : t.pool = s.pool ∨ ∃ a, t.pool = s.pool.erase a) (h5 : t.outs = s.outs) : OutInv g (evs ++ [e]) t := by
  have hs : ∀ c, sentOn t c = sentOn s c := fun c => by simp [sentOn, h1]
  have hp : ∀ dst c, t.pool.get? dst = some c → s.pool.get? dst = some c := by
    intro dst c hg
    rcases h4 with h4 | ⟨a, h4⟩
    · rwa [h4] at hg
    · rw [h4, AList.get?_erase] at hg
      split at hg
      · cases hg
      · exact hg
  constructor
  · rw [passed_append, he, h1, h2, h3, h.order]; simp
  · rw [h2]; exact h.busy
  · intro dst c hg
    obtain ⟨o, ho⟩ := h.pool dst c (hp dst c hg)
    rw [h5, hs]; exact ⟨o, ho⟩
  · intro c o ho
    rw [h5] at ho
    rw [hs, h1]; exact h.wires c o ho
  · rw [h1, h5]; exact h.written
  · rw [h1]; exact h.ignored
  · rw [h1]; exact h.lost
  · intro dst
    have : usedFor g dst t = usedFor g dst s := by simp [usedFor, h1]
    rw [this]; exact h.mono dst

theorem sentOn_append (s t : State) (p : EclaPacket) (f : Fate) (h : t.handled = s.handled ++ [(p, f)]) (c : Nat) :
    sentOn t c = sentOn s c ++ if f = .written c then [p] else [] := by
  simp only [sentOn, h, List.filter_append, List.map_append]
  by_cases hf : f = .written c <;> simp [hf]

theorem usedFor_append (g : Prog) (dst : String) (s t : State) (p : EclaPacket) (f : Fate) (h : t.handled = s.handled ++ [(p, f)]) :
    usedFor g dst t = usedFor g dst s ++ (usedAt g dst (p, f)).toList := by
  simp only [usedFor, h, List.filterMap_append]
  cases hu : usedAt g dst (p, f) <;> simp [hu]

theorem mem_sentOn {s : State} {c : Nat} {p : EclaPacket} : p ∈ sentOn s c ↔ (p, Fate.written c) ∈ s.handled := by
  simp only [sentOn, List.mem_map, List.mem_filter, decide_eq_true_eq]
  constructor
  · rintro ⟨⟨q, f⟩, ⟨h1, h2⟩, rfl⟩
    simp only at h2 ⊢; subst h2; exact h1
  · intro h; exact ⟨(p, .written c), ⟨h, rfl⟩, rfl⟩

theorem mem_usedFor {s : State} {dst : String} {c : Nat} : c ∈ usedFor g dst s ↔ ∃ p data, (p, Fate.written c) ∈ s.handled ∧ g.frame p = some (dst, data) := by
  simp only [usedFor, List.mem_filterMap]
  constructor
  · rintro ⟨⟨p, f⟩, hm, hf⟩
    cases f with
    | written c' =>
      simp only [usedAt, Option.bind_eq_some_iff] at hf
      obtain ⟨⟨d, x⟩, hfr, hf⟩ := hf
      split at hf
      · simp only [Option.some.injEq] at hf
        rename_i hd
        simp only at hd
        subst hf; subst hd
        exact ⟨p, x, hm, hfr⟩
      · cases hf
    | ignored => simp [usedAt] at hf
    | lost => simp [usedAt] at hf
  · rintro ⟨p, data, hm, hf⟩
    exact ⟨(p, .written c), hm, by simp [usedAt, hf]⟩

/-- A packet is dealt with without writing anything. -/
theorem OutInv.settle {evs : List Ev} (h : OutInv g evs s) (e : Ev) (he : passed [e] = []) (p : EclaPacket) (f : Fate)
    (hb : t.busy = none) (ho : s.handled.map (fun h => h.1) ++ (s.busy.toList.map fun b => b.1) ++ s.rx = s.handled.map (fun h => h.1) ++ [p] ++ t.rx)
    (h1 : t.handled = s.handled ++ [(p, f)]) (hf : (f = .ignored ∧ g.frame p = none) ∨ (f = .lost ∧ g.frame p ≠ none))
    (h4 : t.pool = s.pool) (h5 : t.outs = s.outs) : OutInv g (evs ++ [e]) t := by
  have hw : ∀ c, f ≠ .written c := by intro c; rcases hf with ⟨rfl, -⟩ | ⟨rfl, -⟩ <;> simp
  have hs : ∀ c, sentOn t c = sentOn s c := fun c => by rw [sentOn_append s t p f h1, if_neg (hw c), List.append_nil]
  constructor
  · rw [passed_append, he, h.order, ho, hb, h1]; simp
  · rw [hb]; intro _ _ _ h; cases h
  · intro dst c hg
    rw [h4] at hg
    rw [h5, hs]; exact h.pool dst c hg
  · intro c o hc
    rw [h5] at hc
    obtain ⟨tail, ht, hl⟩ := h.wires c o hc
    refine ⟨tail, by rw [hs]; exact ht, hl.imp id ?_⟩
    rintro ⟨q, data, rest, hm, hq⟩
    exact ⟨q, data, rest, by rw [h1]; exact List.mem_append_left _ hm, hq⟩
  · intro q c hm
    rw [h1, List.mem_append] at hm
    rcases hm with hm | hm
    · rw [h5]; exact h.written q c hm
    · simp only [List.mem_singleton, Prod.mk.injEq] at hm; exact absurd hm.2.symm (hw c)
  · intro q hm
    rw [h1, List.mem_append] at hm
    rcases hm with hm | hm
    · exact h.ignored q hm
    · simp only [List.mem_singleton, Prod.mk.injEq] at hm
      obtain ⟨rfl, rfl⟩ := hm
      rcases hf with ⟨-, hf⟩ | ⟨hf, -⟩
      · exact hf
      · cases hf
  · intro q hm
    rw [h1, List.mem_append] at hm
    rcases hm with hm | hm
    · exact h.lost q hm
    · simp only [List.mem_singleton, Prod.mk.injEq] at hm
      obtain ⟨rfl, rfl⟩ := hm
      rcases hf with ⟨hf, -⟩ | ⟨-, hf⟩
      · cases hf
      · exact hf
  · intro dst
    rw [usedFor_append g dst s t p f h1]
    have : usedAt g dst (p, f) = none := by
      cases f with
      | written c => exact absurd rfl (hw c)
      | ignored => rfl
      | lost => rfl
    rw [this, Option.toList_none, List.append_nil]; exact h.mono dst

theorem OutInv.init : OutInv g [] {} := by
  constructor <;> simp [passed, usedFor, AList.get?]

theorem OutInv.pick {evs : List Ev} (h : OutInv g evs s) {ok : Bool} (hs : s.step g (.pick ok) = some t) : OutInv g (evs ++ [.pick ok]) t := by
  simp only [State.step] at hs
  split at hs
  · cases hs
  split at hs
  · rename_i p rx hb hrx
    split at hs
    · rename_i hf
      simp only [Option.some.injEq] at hs; subst hs
      exact h.settle _ rfl p .ignored hb (by simp [hb, hrx]) rfl (.inl ⟨rfl, hf⟩) rfl rfl
    · rename_i dst data hf
      split at hs
      · simp only [Option.some.injEq] at hs; subst hs
        constructor
        · rw [passed_append, h.order]; simp [hb, hrx, passed]
        · intro q d x hq
          simp only [Option.some.injEq, Prod.mk.injEq] at hq
          obtain ⟨rfl, rfl, rfl⟩ := hq; exact hf
        · exact h.pool
        · exact h.wires
        · exact h.written
        · exact h.ignored
        · exact h.lost
        · exact h.mono
      · rename_i hnc
        split at hs
        · simp only [Option.some.injEq] at hs; subst hs
          have hnone : s.pool.get? dst = none := by
            cases hg : s.pool.get? dst with
            | none => rfl
            | some c => exact absurd ((AList.contains_iff _ _).2 ⟨c, hg⟩) hnc
          have hso : sentOn s s.outs.length = [] := by
            rw [List.eq_nil_iff_forall_not_mem]
            intro q hq
            obtain ⟨o, data, ho, -⟩ := h.written q _ (mem_sentOn.1 hq)
            simp at ho
          constructor
          · rw [passed_append, h.order]; simp [hb, hrx, passed]
          · intro q d x hq
            simp only [Option.some.injEq, Prod.mk.injEq] at hq
            obtain ⟨rfl, rfl, rfl⟩ := hq; exact hf
          · intro d c hg
            rw [AList.get?_insert] at hg
            split at hg
            · rename_i hd
              simp only [Option.some.injEq] at hg; subst hg; subst hd
              refine ⟨{ addr := d }, by simp, rfl, ?_, ?_⟩
              · change [] = (sentOn s s.outs.length).flatMap _
                rw [hso]; rfl
              · intro c' o' hc' _
                have := (List.getElem?_eq_some_iff.1 hc').1
                simp only [List.length_append, List.length_singleton] at this
                omega
            · rename_i hd
              obtain ⟨o, ho, ha, hw, hmax⟩ := h.pool d c hg
              refine ⟨o, ?_, ha, hw, ?_⟩
              · rw [List.getElem?_append_left (List.getElem?_eq_some_iff.1 ho).1]; exact ho
              · intro c' o' hc' ha'
                rw [List.getElem?_append] at hc'
                split at hc'
                · exact hmax c' o' hc' ha'
                · have hz : c' - s.outs.length = 0 := by
                    have := (List.getElem?_eq_some_iff.1 hc').1
                    simp only [List.length_singleton] at this
                    omega
                  rw [hz] at hc'
                  simp only [List.getElem?_cons_zero, Option.some.injEq] at hc'
                  subst hc'
                  exact absurd ha'.symm hd
          · intro c o hc
            simp only [List.getElem?_append] at hc
            split at hc
            · exact h.wires c o hc
            · have hz : c = s.outs.length := by
                have := (List.getElem?_eq_some_iff.1 hc).1
                simp only [List.length_singleton] at this
                omega
              subst hz
              simp only [Nat.sub_self, List.getElem?_cons_zero, Option.some.injEq] at hc
              subst hc
              refine ⟨[], ?_, .inl rfl⟩
              change [] = (sentOn s s.outs.length).flatMap _ ++ []
              rw [hso]; rfl
          · intro q c hm
            obtain ⟨o, x, ho, hx⟩ := h.written q c hm
            exact ⟨o, x, by rw [List.getElem?_append_left (List.getElem?_eq_some_iff.1 ho).1]; exact ho, hx⟩
          · exact h.ignored
          · exact h.lost
          · exact h.mono
        · simp only [Option.some.injEq] at hs; subst hs
          exact h.settle _ rfl p .lost hb (by simp [hb, hrx]) rfl (.inr ⟨rfl, by simp [hf]⟩) rfl rfl
  · cases hs

theorem OutInv.write {evs : List Ev} (h : OutInv g evs s) {r : Option Nat} (hs : s.step g (.write r) = some t) : OutInv g (evs ++ [.write r]) t := by
  simp only [State.step] at hs
  split at hs
  · cases hs
  split at hs
  · cases hs
  · rename_i p dst data hb
    have hf := h.busy p dst data hb
    split at hs
    · simp only [Option.some.injEq] at hs; subst hs
      exact h.settle _ rfl p .lost rfl (by simp [hb]) rfl (.inr ⟨rfl, by simp [hf]⟩) rfl rfl
    · rename_i c hg
      obtain ⟨o, ho, ha, hw, hmax⟩ := h.pool dst c hg
      rw [ho] at hs
      dsimp only at hs
      have hbf : bytesFor g p = data := by simp [bytesFor, hf]
      have hlt := (List.getElem?_eq_some_iff.1 ho).1
      split at hs
      · simp only [Option.some.injEq] at hs; subst hs
        have hso := sentOn_append s { s with busy := none, outs := s.outs.set c { o with written := o.written ++ data }, handled := s.handled ++ [(p, .written c)] } p (.written c) rfl
        have hnew : ∀ (c' : Nat) (o' : Outgoing), (s.outs.set c { o with written := o.written ++ data })[c']? = some o' →
            (c' = c ∧ o' = { o with written := o.written ++ data }) ∨ (c' ≠ c ∧ s.outs[c']? = some o') := by
          intro c' o' hc'
          by_cases hcc : c' = c
          · subst hcc
            rw [List.getElem?_set_self hlt] at hc'
            exact .inl ⟨rfl, (Option.some.inj hc').symm⟩
          · rw [List.getElem?_set_ne (Ne.symm hcc)] at hc'
            exact .inr ⟨hcc, hc'⟩
        have hold : ∀ (c' : Nat) (o' : Outgoing), s.outs[c']? = some o' → ∃ o'' : Outgoing, (s.outs.set c { o with written := o.written ++ data })[c']? = some o'' ∧ o''.addr = o'.addr := by
          intro c' o' hc'
          by_cases hcc : c' = c
          · subst hcc
            rw [ho] at hc'; cases hc'
            exact ⟨_, List.getElem?_set_self hlt, rfl⟩
          · exact ⟨o', by rw [List.getElem?_set_ne (Ne.symm hcc)]; exact hc', rfl⟩
        constructor
        · rw [passed_append, h.order]; simp [hb, passed]
        · intro _ _ _ h; cases h
        · intro d c' hg'
          obtain ⟨o', ho', ha', hw', hmax'⟩ := h.pool d c' hg'
          by_cases hcc : c' = c
          · subst hcc
            rw [ho] at ho'; cases ho'
            refine ⟨_, List.getElem?_set_self hlt, ha', ?_, ?_⟩
            · rw [hso, if_pos rfl, List.flatMap_append, ← hw']
              simp [hbf]
            · intro c2 o2 h2 ha2
              rcases hnew c2 o2 h2 with ⟨rfl, rfl⟩ | ⟨-, h2⟩
              · exact Nat.le_refl _
              · exact hmax' c2 o2 h2 ha2
          · refine ⟨o', by rw [List.getElem?_set_ne (Ne.symm hcc)]; exact ho', ha', ?_, ?_⟩
            · rw [hso, if_neg (by simp; exact fun h => hcc h.symm), List.append_nil]; exact hw'
            · intro c2 o2 h2 ha2
              rcases hnew c2 o2 h2 with ⟨rfl, rfl⟩ | ⟨-, h2⟩
              · exact hmax' _ o ho ha2
              · exact hmax' c2 o2 h2 ha2
        · intro c' o' hc'
          rcases hnew c' o' hc' with ⟨rfl, rfl⟩ | ⟨hcc, hc'⟩
          · refine ⟨[], ?_, .inl rfl⟩
            rw [hso, if_pos rfl, List.flatMap_append, ← hw]
            simp [hbf]
          · obtain ⟨tail, ht, hl⟩ := h.wires c' o' hc'
            refine ⟨tail, by rw [hso, if_neg (by simp; exact fun h => hcc h.symm), List.append_nil]; exact ht, hl.imp id ?_⟩
            rintro ⟨q, x, rest, hm, hq⟩
            exact ⟨q, x, rest, List.mem_append_left _ hm, hq⟩
        · intro q c' hm
          rw [List.mem_append] at hm
          rcases hm with hm | hm
          · obtain ⟨o', x, ho', hx⟩ := h.written q c' hm
            obtain ⟨o'', h1, h2⟩ := hold c' o' ho'
            exact ⟨o'', x, h1, by rw [h2]; exact hx⟩
          · simp only [List.mem_singleton, Prod.mk.injEq, Fate.written.injEq] at hm
            obtain ⟨rfl, rfl⟩ := hm
            exact ⟨_, data, List.getElem?_set_self hlt, by rw [hf, ← ha]⟩
        · intro q hm
          rw [List.mem_append] at hm
          rcases hm with hm | hm
          · exact h.ignored q hm
          · simp at hm
        · intro q hm
          rw [List.mem_append] at hm
          rcases hm with hm | hm
          · exact h.lost q hm
          · simp at hm
        · intro d
          rw [usedFor_append g d s { s with busy := none, outs := s.outs.set c { o with written := o.written ++ data }, handled := s.handled ++ [(p, .written c)] } p (.written c) rfl]
          simp only [usedAt, hf, Option.bind_some]
          split
          · rename_i hd
            subst hd
            rw [Option.toList_some, List.pairwise_append]
            refine ⟨h.mono _, by simp, ?_⟩
            intro a ha2 b hb2
            simp only [List.mem_singleton] at hb2; subst hb2
            obtain ⟨q, x, hm, hx⟩ := mem_usedFor.1 ha2
            obtain ⟨o', y, ho', hy⟩ := h.written q a hm
            rw [hx] at hy
            simp only [Option.some.injEq, Prod.mk.injEq] at hy
            exact hmax a o' ho' hy.1.symm
          · rw [Option.toList_none, List.append_nil]; exact h.mono d
      · rename_i k
        split at hs
        · rename_i hk
          simp only [Option.some.injEq] at hs; subst hs
          have hso : ∀ c', sentOn { s with busy := none, outs := s.outs.set c { o with written := o.written ++ data.take k }, pool := s.pool.erase dst, handled := s.handled ++ [(p, .lost)] } c' = sentOn s c' := by
            intro c'
            rw [sentOn_append s _ p .lost rfl]; simp
          have hnew : ∀ (c' : Nat) (o' : Outgoing), (s.outs.set c { o with written := o.written ++ data.take k })[c']? = some o' →
              (c' = c ∧ o' = { o with written := o.written ++ data.take k }) ∨ (c' ≠ c ∧ s.outs[c']? = some o') := by
            intro c' o' hc'
            by_cases hcc : c' = c
            · subst hcc
              rw [List.getElem?_set_self hlt] at hc'
              exact .inl ⟨rfl, (Option.some.inj hc').symm⟩
            · rw [List.getElem?_set_ne (Ne.symm hcc)] at hc'
              exact .inr ⟨hcc, hc'⟩
          constructor
          · rw [passed_append, h.order]; simp [hb, passed]
          · intro _ _ _ h; cases h
          · intro d c' hg'
            rw [AList.get?_erase] at hg'
            split at hg'
            · cases hg'
            rename_i hd
            obtain ⟨o', ho', ha', hw', hmax'⟩ := h.pool d c' hg'
            have hcc : c' ≠ c := by
              rintro rfl
              rw [ho] at ho'; cases ho'
              exact hd (ha'.symm.trans ha)
            refine ⟨o', by rw [List.getElem?_set_ne (Ne.symm hcc)]; exact ho', ha', by rw [hso]; exact hw', ?_⟩
            intro c2 o2 h2 ha2
            rcases hnew c2 o2 h2 with ⟨rfl, rfl⟩ | ⟨-, h2⟩
            · exact hmax' _ o ho ha2
            · exact hmax' c2 o2 h2 ha2
          · intro c' o' hc'
            rcases hnew c' o' hc' with ⟨rfl, rfl⟩ | ⟨hcc, hc'⟩
            · refine ⟨data.take k, by rw [hso, ← hw], .inr ⟨p, data, data.drop k, by simp, by rw [hf, ← ha], by simp, ?_⟩⟩
              intro hd
              have := congrArg List.length hd
              simp at this; omega
            · obtain ⟨tail, ht, hl⟩ := h.wires c' o' hc'
              refine ⟨tail, by rw [hso]; exact ht, hl.imp id ?_⟩
              rintro ⟨q, x, rest, hm, hq⟩
              exact ⟨q, x, rest, List.mem_append_left _ hm, hq⟩
          · intro q c' hm
            rw [List.mem_append] at hm
            rcases hm with hm | hm
            · obtain ⟨o', x, ho', hx⟩ := h.written q c' hm
              by_cases hcc : c' = c
              · subst hcc
                rw [ho] at ho'; cases ho'
                exact ⟨_, x, List.getElem?_set_self hlt, hx⟩
              · exact ⟨o', x, by rw [List.getElem?_set_ne (Ne.symm hcc)]; exact ho', hx⟩
            · simp at hm
          · intro q hm
            rw [List.mem_append] at hm
            rcases hm with hm | hm
            · exact h.ignored q hm
            · simp at hm
          · intro q hm
            rw [List.mem_append] at hm
            rcases hm with hm | hm
            · exact h.lost q hm
            · simp only [List.mem_singleton, Prod.mk.injEq] at hm
              rw [hm.1, hf]; simp
          · intro d
            rw [usedFor_append g d s { s with busy := none, outs := s.outs.set c { o with written := o.written ++ data.take k }, pool := s.pool.erase dst, handled := s.handled ++ [(p, .lost)] } p .lost rfl]
            rw [show usedAt g d (p, .lost) = none from rfl, Option.toList_none, List.append_nil]; exact h.mono d
        · cases hs

theorem OutInv.step {evs : List Ev} (h : OutInv g evs s) {e : Ev} (hs : s.step g e = some t) : OutInv g (evs ++ [e]) t := by
  cases e with
  | packet p =>
    simp only [State.step] at hs
    split at hs
    · cases hs
    split at hs
    · simp only [Option.some.injEq] at hs; subst hs
      exact ⟨by rw [passed_append, h.order]; simp [passed], h.busy, h.pool, h.wires, h.written, h.ignored, h.lost, h.mono⟩
    · cases hs
  | pick ok => exact h.pick hs
  | write r => exact h.write hs
  | accept addr =>
    simp only [State.step] at hs
    split at hs
    · cases hs
    simp only [Option.some.injEq] at hs; subst hs
    exact h.congr _ rfl rfl rfl rfl (.inl rfl) rfl
  | chunk i bytes =>
    simp only [State.step] at hs
    split at hs
    · cases hs
    split at hs
    · split at hs
      · simp only [Option.some.injEq] at hs; subst hs
        exact h.congr _ rfl rfl rfl rfl (.inl rfl) rfl
      · cases hs
    · cases hs
  | close i =>
    simp only [State.step] at hs
    split at hs
    · cases hs
    split at hs
    · split at hs
      · simp only [Option.some.injEq] at hs; subst hs
        exact h.congr _ rfl rfl rfl rfl (.inl rfl) rfl
      · cases hs
    · cases hs
  | next i =>
    simp only [State.step] at hs
    split at hs
    · cases hs
    split at hs
    · cases hs
    split at hs
    · cases hs
    split at hs
    · split at hs
      · split at hs
        · simp only [Option.some.injEq] at hs; subst hs
          exact h.congr _ rfl rfl rfl rfl (.inl rfl) rfl
        · split at hs
          · cases hs
          · simp only [Option.some.injEq] at hs; subst hs
            exact h.congr _ rfl rfl rfl rfl (.inl rfl) rfl
      · simp only [Option.some.injEq] at hs; subst hs
        exact h.congr _ rfl rfl rfl rfl (.inl rfl) rfl
      · simp only [Option.some.injEq] at hs; subst hs
        exact h.congr _ rfl rfl rfl rfl (.inr ⟨_, rfl⟩) rfl
    · split at hs
      · simp only [Option.some.injEq] at hs; subst hs
        exact h.congr _ rfl rfl rfl rfl (.inr ⟨_, rfl⟩) rfl
      · cases hs
  | take =>
    simp only [State.step] at hs
    split at hs
    · cases hs
    split at hs
    · cases hs
    · simp only [Option.some.injEq] at hs; subst hs
      exact h.congr _ rfl rfl rfl rfl (.inl rfl) rfl
  | clientEnds =>
    simp only [State.step] at hs
    split at hs
    · cases hs
    split at hs
    · simp only [Option.some.injEq] at hs; subst hs
      exact h.congr _ rfl rfl rfl rfl (.inl rfl) rfl
    · cases hs

theorem OutInv.after {evs : List Ev} (h : After g evs s) : OutInv g evs s :=
  After.induct (P := OutInv g) OutInv.init (fun _ _ _ _ _ hp hs => hp.step hs) h

end Dtn.Bridge
