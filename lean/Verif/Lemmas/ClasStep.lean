import Verif.Lemmas.Clas
/-! The invariant of the convergence layers is kept; transfers are answered once; the work ends. -/

namespace Dtn.Clas
open Spec.ClasSpec

variable {A : Type} [DecidableEq A]

set_option linter.unusedSectionVars false

theorem open_of {s : State A} {i : Nat} {r : Req A} (hr : s.reqs[i]? = some r) (h : ∀ ans, r.pc ≠ .done ans) : Open s i := by
  intro q hq
  rw [hr] at hq
  cases hq
  exact h

theorem inv_handle {k net} {s : State A} {i r} (h : But k net s i) (hr : s.reqs[i]? = some r) (hp : r.pc = .queued) :
    Inv k net (State.handle k net s i r) := by
  have ho : Open s i := open_of hr (by rw [hp]; simp)
  have hd : Inv k net s.die := die_inv (fun j q hj hq => h.ok j q (by rintro rfl; rw [hr] at hj; cases hj; exact hq hp) hj) h.logs
  unfold State.handle State.finish
  split
  · exact h.goto hr ho _ trivial
  · exact h.goto hr ho _ trivial
  · exact h.goto hr ho _ trivial
  · exact h.goto hr ho _ rfl
  · exact h.goto hr ho _ rfl
  · split
    · rename_i he
      exact h.goto hr ho _ (Or.inl he)
    · rename_i he
      split
      · exact hd
      · rename_i a ha
        exact h.goto hr ho _ ⟨rfl, ha, he⟩
  · split
    · rename_i he
      exact h.goto hr ho _ (Or.inl he)
    · rename_i he
      split
      · exact hd
      · rename_i a ha
        exact h.goto hr ho _ ⟨rfl, ha, he⟩

theorem inv_take {k net} {s t : State A} (h : Inv k net s) (hs : s.take k net = some t) : Inv k net t := by
  unfold State.take at hs
  split at hs
  · cases hs
  · split at hs
    · cases hs
    · cases hs
      exact die_inv (fun j r hj _ => h.ok j r hj) h.logs
    · rename_i i q hq
      obtain ⟨r, hr, hp⟩ := h.queued i (by rw [hq]; simp)
      rw [hr] at hs
      cases hs
      have hn := h.nodup
      rw [hq] at hn
      have hn : (i :: q.filterMap id).Nodup := hn
      have hout : some i ∉ q := fun hm => (List.nodup_cons.mp hn).1 (List.mem_filterMap.mpr ⟨some i, hm, rfl⟩)
      refine inv_handle (r := r) ⟨?_, ?_, (List.nodup_cons.mp hn).2, ?_, ?_, hout⟩ hr hp
      · intro j p hj hjp
        refine (h.ok j p hjp).mono (s := s) (t := { s with queue := q }) ⟨fun _ h => h, fun _ h => h, fun _ h => h, fun _ h => h, fun _ _ b h => ⟨b, h⟩⟩ ?_
        intro _ hm
        rw [hq] at hm
        rcases List.mem_cons.mp hm with hm | hm
        · cases hm; exact absurd rfl hj
        · exact hm
      · exact ⟨h.logs.datagrams, h.logs.posts, h.logs.submitted, h.logs.handed, h.logs.table, h.logs.once⟩
      · intro j hm
        exact h.queued j (by rw [hq]; exact List.mem_cons_of_mem _ hm)
      · intro ha
        have := h.dead ha
        rw [hq] at this
        cases this

theorem stream_modify {l : List (A × Bytes)} {c : Nat} {f : A × Bytes → A × Bytes} (hf : ∀ x, (f x).1 = x.1) (d : Nat) (a b)
    (h : l[d]? = some (a, b)) : ∃ b', (l.modify c f)[d]? = some (a, b') := by
  rw [List.getElem?_modify, h]
  by_cases hc : c = d
  · refine ⟨(f (a, b)).2, ?_⟩
    show some (if c = d then f (a, b) else (a, b)) = _
    rw [if_pos hc]
    have := hf (a, b)
    exact congrArg some (Prod.ext this rfl)
  · refine ⟨b, ?_⟩
    show some (if c = d then f (a, b) else (a, b)) = _
    rw [if_neg hc]

theorem goto_self {s : State A} {i : Nat} {r : Req A} (hr : s.reqs[i]? = some r) (pc) :
    (s.goto i pc).reqs[i]? = some { r with pc := pc } := by
  rw [goto_get, if_pos rfl, hr]; rfl

theorem goto_other (s : State A) {i j : Nat} (h : j ≠ i) (pc) : (s.goto i pc).reqs[j]? = s.reqs[j]? := by
  rw [goto_get, if_neg (Ne.symm h)]

theorem inv_written {k net} {s : State A} {i r a c rest n} (h : Inv k net s) (hr : s.reqs[i]? = some r)
    (hp : r.pc = .write a c rest) : Inv k net (s.written i c a rest n) := by
  have hb := h.but hr (by rw [hp]; simp)
  have ho : Open s i := open_of hr (by rw [hp]; simp)
  have hok := h.ok i r hr
  unfold Ok at hok
  rw [hp] at hok
  dsimp only at hok
  obtain ⟨h1, h2, h3, b, h4⟩ := hok
  have hst := fun d => stream_modify (l := s.streams) (c := c) (f := fun x => (x.1, x.2 ++ rest.take n)) (fun _ => rfl) d
  unfold State.written State.finish
  dsimp only
  split
  · refine hb.move ho (r := { r with pc := success }) (goto_self (s := { s with streams := _ }) hr _) (fun j hj => goto_other _ hj _)
      ⟨.inl rfl, .inl rfl, .inl rfl, ?_, hst, fun _ _ h => .inl h⟩ rfl rfl ?_
    · obtain ⟨b', hb'⟩ := hst c a b h4
      exact .inr ⟨c, a, b', rfl, rfl, h3, h2, hb'⟩
    · show Succ k _ i _
      subst h1
      exact .inr ⟨c, List.mem_append_right _ (by simp)⟩
  · refine hb.move ho (r := { r with pc := .write a c (rest.drop n) }) (goto_self (s := { s with streams := _ }) hr _)
      (fun j hj => goto_other _ hj _)
      ⟨.inl rfl, .inl rfl, .inl rfl, .inl rfl, hst, fun _ _ h => .inl h⟩ rfl rfl ?_
    exact ⟨h1, h2, h3, hst c a b h4⟩

theorem inv_go {k net} {s t : State A} {i r ch} (h : Inv k net s) (hr : s.reqs[i]? = some r)
    (hs : s.go net i r ch = some t) : Inv k net t := by
  have hok := h.ok i r hr
  unfold Ok at hok
  have hb : r.pc ≠ .queued → But k net s i := h.but hr
  have ho : (∀ ans, r.pc ≠ .done ans) → Open s i := open_of hr
  unfold State.go State.finish at hs
  split at hs <;> (try (cases hs; done)) <;> rename_i hp <;> rw [hp] at hok hb ho <;> dsimp only at hok <;>
    replace hb := hb (by simp) <;> replace ho := ho (by simp)
  · cases hs
    split
    · exact hb.goto hr ho _ hok
    · exact hb.goto hr ho _ hok
  · rename_i a
    cases hs
    have hst : ∀ (d : Nat) a' b, s.streams[d]? = some (a', b) → ∃ b', (s.streams ++ [(a, [])])[d]? = some (a', b') := by
      intro d a' b hd
      refine ⟨b, ?_⟩
      rw [List.getElem?_append_left (List.getElem?_eq_some_iff.mp hd).1]
      exact hd
    refine hb.move ho (r := { r with pc := .insert a s.streams.length }) (goto_self hr _) (fun j hj => goto_other _ hj _)
      ⟨.inl rfl, .inl rfl, .inl rfl, .inl rfl, hst, fun _ _ h => .inl h⟩ rfl rfl ?_
    exact ⟨hok.1, hok.2.1, hok.2.2, [], by simp⟩
  · cases hs; exact hb.goto hr ho _ trivial
  · rename_i a c
    cases hs
    refine hb.move ho (r := { r with pc := .get a }) (goto_self hr _) (fun j hj => goto_other _ hj _)
      ⟨.inl rfl, .inl rfl, .inl rfl, .inl rfl, fun _ _ b h => ⟨b, h⟩, ?_⟩ rfl rfl ⟨hok.1, hok.2.1, hok.2.2.1⟩
    intro a' c' hg
    dsimp only at hg
    rw [AList.get?_insert] at hg
    split at hg
    · rename_i he
      cases hg
      subst he
      exact .inr hok.2.2.2
    · exact .inl hg
  · split at hs
    · cases hs; exact hb.goto hr ho _ trivial
    · rename_i c hc
      cases hs
      exact hb.goto hr ho _ ⟨hok.1, hok.2.1, hok.2.2, h.logs.table _ c hc⟩
  · cases hs; exact hb.goto hr ho _ trivial
  · split at hs
    · cases hs
      exact inv_written h hr hp
    · cases hs
  · cases hs; exact hb.goto hr ho _ ⟨hok.1, hok.2.1, hok.2.2.1⟩
  · rename_i a
    cases hs
    refine hb.move ho (r := { r with pc := .done (.replied .failure) }) (goto_self hr _) (fun j hj => goto_other _ hj _)
      ⟨.inl rfl, .inl rfl, .inl rfl, .inl rfl, fun _ _ b h => ⟨b, h⟩, ?_⟩ rfl rfl trivial
    intro a' c' hg
    dsimp only at hg
    rw [AList.get?_erase] at hg
    split at hg
    · cases hg
    · exact .inl hg
  · cases hs; exact hb.goto hr ho _ hok
  · cases hs; exact hb.goto hr ho _ trivial
  · split at hs
    · rename_i hv
      cases hs; exact hb.goto hr ho _ ⟨hok.1, hok.2.1, hok.2.2, hv⟩
    · cases hs
  · cases hs; exact hb.goto hr ho _ trivial
  · rename_i a
    split at hs
    · cases hs; exact hb.goto hr ho _ trivial
    · rename_i hl
      cases hs
      refine hb.move ho (r := { r with pc := success }) (goto_self hr _) (fun j hj => goto_other _ hj _)
        ⟨.inr ⟨a, rfl, rfl, hok.2.2.1, hok.2.1, hok.2.2.2, by dsimp only; omega⟩, .inl rfl, .inl rfl, .inl rfl, fun _ _ b h => ⟨b, h⟩,
          fun _ _ h => .inl h⟩ rfl rfl ?_
      show Succ k _ i _
      rw [hok.1]
      exact .inr ⟨a, List.mem_append_right _ (by simp)⟩
  · cases hs; exact hb.goto hr ho _ trivial
  · split at hs
    · rename_i he
      cases hs
      refine hb.goto hr ho _ ?_
      show Succ k _ i _
      rw [hok]
      exact .inl he
    · rename_i he
      split at hs
      · cases hs; exact hb.goto hr ho _ trivial
      · rename_i a ha
        split at hs
        · rename_i hv
          cases hs; exact hb.goto hr ho _ ⟨hok, ha, he, hv⟩
        · cases hs; exact hb.goto hr ho _ trivial
  · rename_i a code
    cases hs
    refine hb.move ho (r := { r with pc := success }) (goto_self hr _) (fun j hj => goto_other _ hj _)
      ⟨.inl rfl, .inr ⟨a, code, rfl, rfl, hok.2.2.1, hok.2.1, hok.2.2.2⟩, .inl rfl, .inl rfl, fun _ _ b h => ⟨b, h⟩, fun _ _ h => .inl h⟩ rfl rfl ?_
    show Succ k _ i _
    rw [hok.1]
    exact .inr ⟨a, code, List.mem_append_right _ (by simp)⟩
  · cases hs; exact hb.goto hr ho _ trivial
  · rename_i res
    cases hs
    refine hb.move ho (r := { r with pc := .done (.replied res) }) (goto_self hr _) (fun j hj => goto_other _ hj _)
      ⟨.inl rfl, .inl rfl, .inr ⟨res, rfl, rfl⟩, .inl rfl, fun _ _ b h => ⟨b, h⟩, fun _ _ h => .inl h⟩ rfl rfl ?_
    cases res with
    | failure => trivial
    | successful =>
      show Succ k _ i _
      rw [hok]
      exact List.mem_append_right _ (by simp)
  · cases hs; exact hb.goto hr ho _ trivial

theorem inv_step {k net} {s t : State A} {e} (h : Inv k net s) (hs : step k net s e = some t) : Inv k net t := by
  cases e with
  | take => exact inv_take h hs
  | go i ch =>
    simp only [step] at hs
    split at hs
    · cases hs
    · rename_i r hr
      exact inv_go h hr hs
  | shutdown =>
    simp only [step] at hs
    split at hs
    · rename_i hc
      cases hs
      refine ⟨?_, ⟨h.logs.datagrams, h.logs.posts, h.logs.submitted, h.logs.handed, h.logs.table, h.logs.once⟩, ?_, ?_, ?_⟩
      · intro i r hr
        exact (h.ok i r hr).mono (s := s) (t := { s with queue := s.queue ++ [none] }) ⟨fun _ h => h, fun _ h => h, fun _ h => h, fun _ h => h, fun _ _ b h => ⟨b, h⟩⟩
          fun _ hm => List.mem_append_left _ hm
      · rw [List.filterMap_append]
        simpa using h.nodup
      · intro i hm
        dsimp only at hm
        rcases List.mem_append.mp hm with hm | hm
        · exact h.queued i hm
        · simp at hm
      · intro ha
        dsimp only at ha
        rw [ha] at hc
        cases hc
    · cases hs
  | request dest data =>
    simp only [step] at hs
    have hlt : ∀ {j : Nat} {x : Req A}, s.reqs[j]? = some x → ∀ y, (s.reqs ++ [y])[j]? = some x := by
      intro j x hj y
      rw [List.getElem?_append_left (List.getElem?_eq_some_iff.mp hj).1]
      exact hj
    have hl : ∀ (t : State A) y, t.reqs = s.reqs ++ [y] → t.datagrams = s.datagrams → t.posts = s.posts → t.submitted = s.submitted →
        t.handed = s.handed → t.streams = s.streams → t.table = s.table → Logs k net t := by
      intro t y e0 e1 e2 e3 e4 e5 e6
      refine ⟨?_, ?_, ?_, ?_, ?_, ?_⟩
      · rw [e0, e1]
        intro i a d hm
        obtain ⟨r, h1, h2⟩ := h.logs.datagrams i a d hm
        exact ⟨r, hlt h1 y, h2⟩
      · rw [e0, e2]
        intro i a d c hm
        obtain ⟨r, h1, h2⟩ := h.logs.posts i a d c hm
        exact ⟨r, hlt h1 y, h2⟩
      · rw [e0, e3]
        intro i a d c hm
        obtain ⟨r, h1, h2⟩ := h.logs.submitted i a d c hm
        exact ⟨r, hlt h1 y, h2⟩
      · rw [e0, e4, e5]
        intro i c hm
        obtain ⟨r, a, b, h1, h2⟩ := h.logs.handed i c hm
        exact ⟨r, a, b, hlt h1 y, h2⟩
      · rw [e5, e6]
        exact h.logs.table
      · rw [e1, e2, e3, e4]
        exact h.logs.once
    have hg : ∀ (y : Req A) (q : List (Option Nat)), (∀ x ∈ s.queue, x ∈ q) → ∀ i r, (s.reqs ++ [y])[i]? = some r →
        Ok k net { s with reqs := s.reqs ++ [y], queue := q } i r ∨ (i = s.reqs.length ∧ r = y) := by
      intro y q hq i r hr
      by_cases hi : i < s.reqs.length
      · rw [List.getElem?_append_left hi] at hr
        exact .inl ((h.ok i r hr).mono (s := s) (t := { s with reqs := s.reqs ++ [y], queue := q }) ⟨fun _ h => h, fun _ h => h, fun _ h => h, fun _ h => h, fun _ _ b h => ⟨b, h⟩⟩
          fun _ hm => hq _ hm)
      · rw [List.getElem?_append_right (by omega)] at hr
        have : i - s.reqs.length = 0 := by
          by_cases h0 : i - s.reqs.length = 0
          · exact h0
          · rw [List.getElem?_eq_none (by simp; omega)] at hr; cases hr
        rw [this] at hr
        cases hr
        exact .inr ⟨by omega, rfl⟩
    split at hs
    · rename_i ha
      cases hs
      refine ⟨?_, hl _ _ rfl rfl rfl rfl rfl rfl rfl, h.nodup, ?_, h.dead⟩
      · intro i r hr
        rcases hg _ s.queue (fun _ h => h) i r hr with h | ⟨_, rfl⟩
        · exact h
        · trivial
      · intro i hm
        obtain ⟨r, h1, h2⟩ := h.queued i hm
        exact ⟨r, hlt h1 _, h2⟩
    · rename_i ha
      split at hs
      · cases hs
        have hnew : some s.reqs.length ∉ s.queue := by
          intro hm
          obtain ⟨r, h1, _⟩ := h.queued _ hm
          rw [List.getElem?_eq_none (by omega)] at h1
          cases h1
        refine ⟨?_, hl _ _ rfl rfl rfl rfl rfl rfl rfl, ?_, ?_, ?_⟩
        · intro i r hr
          rcases hg _ (s.queue ++ [some s.reqs.length]) (fun _ h => List.mem_append_left _ h) i r hr with h | ⟨rfl, rfl⟩
          · exact h
          · exact List.mem_append_right _ (by simp)
        · dsimp only
          rw [List.filterMap_append]
          refine nodup_snoc h.nodup ?_
          intro hm
          obtain ⟨x, hx, he⟩ := List.mem_filterMap.mp hm
          have : x = some s.reqs.length := he
          subst this
          exact hnew hx
        · intro i hm
          rcases List.mem_append.mp hm with hm | hm
          · obtain ⟨r, h1, h2⟩ := h.queued i hm
            exact ⟨r, hlt h1 _, h2⟩
          · simp only [List.mem_singleton, Option.some.injEq] at hm
            subst hm
            exact ⟨{ dest := dest, data := data }, by simp, rfl⟩
        · intro hd
          dsimp only at hd
          rw [hd] at ha
          exact absurd rfl ha
      · cases hs

theorem inv_start (k : Kind) (net : Sock A) : Inv k net {} where
  ok i r h := by cases h
  logs := by
    refine ⟨?_, ?_, ?_, ?_, ?_, by simp⟩
    · intro _ _ _ h; cases h
    · intro _ _ _ _ h; cases h
    · intro _ _ _ _ h; cases h
    · intro _ _ h; cases h
    · intro _ _ h; cases h
  nodup := List.nodup_nil
  queued _ h := by cases h
  dead _ := rfl

theorem inv_run {k net} {s t : State A} {evs} (h : Inv k net s) (hr : run k net s evs = some t) : Inv k net t := by
  induction evs generalizing s with
  | nil => cases hr; exact h
  | cons e evs ih =>
    unfold run at hr
    cases hs : step k net s e with
    | none => rw [hs] at hr; cases hr
    | some u => rw [hs] at hr; exact ih (inv_step h hs) hr

theorem inv_after {k net} {evs : List Ev} {s : State A} (h : After k net evs s) : Inv k net s := inv_run (inv_start k net) h

end Dtn.Clas
