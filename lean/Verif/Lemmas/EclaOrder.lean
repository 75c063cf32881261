import Verif.Lemmas.EclaQueue
/-! The packets of a connection stay in order. -/

namespace Dtn.Ecla
open Spec.Ecla

/-- Everything given to connection `c` so far. -/
def traffic (s : State) (c : Nat) : List Out := written s c ++ waiting s c

/-- Packets are only added at the end. -/
def Grows (s t : State) : Prop := ∀ c, traffic s c <+: traffic t c

theorem Grows.refl (s : State) : Grows s s := fun _ => List.prefix_refl _

theorem Grows.trans {s t u : State} (h : Grows s t) (g : Grows t u) : Grows s u := fun c => (h c).trans (g c)

theorem Grows.same {s t : State} (h : t.conns = s.conns) : Grows s t := by
  intro c
  unfold traffic written waiting
  rw [h]
  exact List.prefix_refl _

theorem Grows.modify {s t : State} {d : Nat} {f : Conn → Conn} (h : t.conns = s.conns.modify d f)
    (hf : ∀ k, k.written ++ k.queue <+: (f k).written ++ (f k).queue) : Grows s t := by
  intro c
  unfold traffic written waiting
  rw [h, List.getElem?_modify]
  cases s.conns[c]? with
  | none => exact List.prefix_refl _
  | some k =>
    by_cases hd : d = c
    · simp only [hd, if_true, Option.map_some, Option.map_eq_map, Option.getD_some]
      exact hf k
    · simp only [hd, if_false, Option.map_some, Option.map_eq_map, Option.getD_some]
      exact List.prefix_refl _

theorem grows_send (s : State) (a p) : Grows s (s.send a p) := by
  unfold State.send
  split
  · exact .refl _
  · refine Grows.modify rfl fun k => ?_
    unfold Conn.offer
    split
    · dsimp only
      rw [← List.append_assoc]
      exact List.prefix_append _ _
    · exact List.prefix_refl _

theorem grows_setPhase (s : State) (c p) : Grows s (s.setPhase c p) := Grows.modify rfl fun _ => List.prefix_refl _

theorem grows_crash (s : State) (c) : Grows s (s.crash c) := grows_setPhase s c _

theorem grows_close (s : State) (c a) : Grows s (s.close c a) := by
  unfold State.close
  split
  · exact .refl _
  · exact .same rfl
  · exact (grows_crash s c).trans (.same rfl)

theorem grows_same_send {s t : State} (h : t.conns = s.conns) (a p) : Grows s (t.send a p) :=
  (Grows.same h).trans (grows_send t a p)

theorem grows_register (s : State) (c a m n) : Grows s (s.register c a m n) := by
  unfold State.register
  split
  · exact (grows_send _ _ _).trans (grows_close _ _ _)
  · split
    · dsimp only
      split
      · refine Grows.trans ?_ (grows_send _ _ _)
        apply grows_same_send
        rfl
      · apply grows_same_send
        rfl
    · exact (grows_send _ _ _).trans (grows_close _ _ _)

theorem grows_handlePacket (s : State) (c a p) : Grows s (s.handlePacket c a p) := by
  unfold State.handlePacket
  split
  · exact grows_crash _ _
  · split
    · exact .refl _
    · split
      · exact .refl _
      · split
        · split
          · exact .same rfl
          · exact .same rfl
          · exact (grows_crash s c).trans (.same rfl)
          · exact .refl _
        · split
          · exact grows_register _ _ _ _ _
          · exact .refl _

theorem grows_proceed {s t : State} {c} (h : s.proceed c = some t) : Grows s t := by
  have key : ∀ {u : State} {p}, u.conns = (s.setPhase c p).conns → Grows s u :=
    fun {u p} hu => (grows_setPhase s c p).trans (.same hu)
  unfold State.proceed at h
  repeat' split at h
  all_goals first
    | cases h; done
    | (cases h; exact key rfl)

theorem grows_sendAll (ch p) : ∀ (ms) (s : State) (r), Grows s (sendAll ch p s r ms).1 := by
  intro ms
  induction ms with
  | nil => intro s r; exact .refl _
  | cons x ms ih =>
    intro s r
    obtain ⟨a, m⟩ := x
    unfold sendAll
    split
    · split
      · exact .same rfl
      · exact (grows_send s a p).trans (ih _ _)
    · exact ih _ _

theorem grows_step {s t : State} {e} (h : step s e = some t) : Grows s t := by
  cases e with
  | acceptTcp addr =>
    simp only [step] at h
    cases h
    intro c
    unfold traffic written waiting
    dsimp only
    by_cases hc : c < s.conns.length
    · rw [List.getElem?_append_left hc]
      exact List.prefix_refl _
    · rw [List.getElem?_eq_none (by omega)]
      exact List.nil_prefix
  | acceptWs =>
    simp only [step] at h
    cases h
    intro c
    unfold traffic written waiting
    dsimp only
    by_cases hc : c < s.conns.length
    · rw [List.getElem?_append_left hc]
      exact List.prefix_refl _
    · rw [List.getElem?_eq_none (by omega)]
      exact List.nil_prefix
  | proceed c => exact grows_proceed h
  | packet c p =>
    simp only [step] at h
    repeat' split at h
    all_goals first
      | cases h; done
      | (cases h; first | exact grows_crash _ _ | exact grows_handlePacket _ _ _ _)
  | stop c =>
    simp only [step] at h
    repeat' split at h
    all_goals first
      | cases h; done
      | (cases h; exact grows_setPhase _ _ _)
  | write c =>
    simp only [step] at h
    split at h
    · cases h
    · rename_i k hk
      split at h
      · cases h
      · rename_i p q hq
        cases h
        intro d
        unfold traffic written waiting
        dsimp only
        by_cases hd : c = d
        · subst hd
          rw [List.getElem?_set_self (List.getElem?_eq_some_iff.mp hk).1, hk]
          simp [hq]
        · rw [List.getElem?_set_ne hd]
          exact List.prefix_refl _
  | submit n dest b =>
    simp only [step] at h
    split at h
    · cases h
      refine Grows.trans ?_ (.same rfl)
      unfold State.submit
      split
      · exact .refl _
      · split
        · exact .refl _
        · exact grows_sendAll _ _ _ _ _
    · cases h
  | announce =>
    simp only [step] at h
    split at h
    · cases h
      unfold State.announce
      split
      · exact .same rfl
      · exact (grows_sendAll _ _ _ _ _).trans (.same rfl)
    · cases h

theorem grows_run {s t : State} {evs} (h : run s evs = some t) : Grows s t := by
  induction evs generalizing s with
  | nil => cases h; exact .refl _
  | cons e evs ih =>
    unfold run at h
    cases hs : step s e with
    | none => rw [hs] at h; cases h
    | some u => rw [hs] at h; exact (grows_step hs).trans (ih h)

end Dtn.Ecla
