import Verif.Lemmas.ExternalRun
/-! The connections of `routing/erouting/processing.rs`. -/

namespace Dtn.Routing.External
open Spec

/-- Which connection is recorded. -/
structure ConnInv (s : State) : Prop where
  recd : ∀ (c : Nat) (p : Phase), (s.conns[c]?).map Conn.phase = some p →
    p = .installed ∨ p = .greeted ∨ p = .reading ∨ p = .crashed → s.connection = some c
  acc : ∀ c : Nat, (s.conns[c]?).map Conn.phase = some .accepted → s.connection = none
  one : ∀ c d : Nat, (s.conns[c]?).map Conn.phase = some .accepted → (s.conns[d]?).map Conn.phase = some .accepted → c = d
  back : ∀ c : Nat, s.connection = some c →
    ∃ p, (s.conns[c]?).map Conn.phase = some p ∧ (p = .installed ∨ p = .greeted ∨ p = .reading ∨ p = .crashed)

/-- The invariant only speaks about phases. -/
theorem ConnInv.same {s t : State} (C : ConnInv s) (h : t.connection = s.connection)
    (hp : ∀ c : Nat, (t.conns[c]?).map Conn.phase = (s.conns[c]?).map Conn.phase) : ConnInv t := by
  constructor
  · intro c p h1 h2; rw [h]; rw [hp] at h1; exact C.recd c p h1 h2
  · intro c h1; rw [h]; rw [hp] at h1; exact C.acc c h1
  · intro c d h1 h2; rw [hp] at h1 h2; exact C.one c d h1 h2
  · intro c h1; rw [h] at h1; rw [hp]; exact C.back c h1

theorem modify_phase (l : List Conn) (i c : Nat) (f : Conn → Conn) (hf : ∀ k, (f k).phase = k.phase) :
    ((l.modify i f)[c]?).map Conn.phase = (l[c]?).map Conn.phase := by
  rw [List.getElem?_modify]
  cases l[c]? with
  | none => rfl
  | some k => by_cases e : i = c <;> simp [e, hf]

theorem send_phase (s : State) (p : Packet) (c : Nat) :
    ((s.send p).conns[c]?).map Conn.phase = (s.conns[c]?).map Conn.phase := by
  unfold State.send
  split
  · rfl
  · exact modify_phase _ _ _ _ fun k => by split <;> rfl

theorem send_connection (s : State) (p : Packet) : (s.send p).connection = s.connection := by
  unfold State.send; split <;> rfl

theorem setPhase_phase (s : State) (i c : Nat) (p : Phase) :
    ((s.setPhase i p).conns[c]?).map Conn.phase = if c = i ∧ c < s.conns.length then some p else (s.conns[c]?).map Conn.phase := by
  unfold State.setPhase
  simp only
  rw [List.getElem?_modify]
  by_cases hc : c < s.conns.length
  · rw [List.getElem?_eq_getElem hc]
    by_cases e : i = c
    · subst e; simp [hc]
    · have : ¬ c = i := fun h => e h.symm
      simp [e, this]
  · rw [List.getElem?_eq_none (by omega)]; simp [hc]

theorem unregister_conn (s : State) (key : String) :
    (s.unregister key).connection = s.connection ∧ (s.unregister key).conns = s.conns := by
  unfold State.unregister; split <;> exact ⟨rfl, rfl⟩

theorem lt_of_phase {s : State} {c : Nat} {p : Phase} (h : (s.conns[c]?).map Conn.phase = some p) : c < s.conns.length := by
  cases hc : s.conns[c]? with
  | none => rw [hc] at h; cases h
  | some k => exact (List.getElem?_eq_some_iff.mp hc).1

/-- Setting a phase that changes nothing about who is recorded. -/
theorem ConnInv.setPhase {s : State} (C : ConnInv s) (c : Nat) (p q : Phase)
    (h : (s.conns[c]?).map Conn.phase = some p) (hp : p = .installed ∨ p = .greeted ∨ p = .reading ∨ p = .crashed)
    (hq : q = .installed ∨ q = .greeted ∨ q = .reading ∨ q = .crashed) : ConnInv (s.setPhase c q) := by
  have hc := C.recd c p h hp
  have hl := lt_of_phase h
  constructor
  · intro d r h1 h2
    rw [setPhase_phase] at h1
    split at h1
    · rename_i e; rw [e.1]; exact hc
    · exact C.recd d r h1 h2
  · intro d h1
    rw [setPhase_phase] at h1
    split at h1
    · rcases hq with rfl | rfl | rfl | rfl <;> cases h1
    · exact C.acc d h1
  · intro d d' h1 h2
    rw [setPhase_phase] at h1 h2
    split at h1
    · rcases hq with rfl | rfl | rfl | rfl <;> cases h1
    · split at h2
      · rcases hq with rfl | rfl | rfl | rfl <;> cases h2
      · exact C.one d d' h1 h2
  · intro d h1
    have hd : d = c := Option.some.inj ((show s.connection = some d from h1).symm.trans hc)
    subst hd
    exact ⟨q, by rw [setPhase_phase, if_pos ⟨rfl, hl⟩], hq⟩

theorem reads_phase {s : State} {c : Nat} (h : s.reads c = true) : (s.conns[c]?).map Conn.phase = some .reading := by
  unfold State.reads at h; exact of_decide_eq_true h

theorem ConnInv.step {s t : State} {e} (C : ConnInv s) (h : step s e = some t)
    (hc : e = .connect → ∀ k ∈ s.conns, k.phase ≠ .accepted) : ConnInv t := by
  cases e with
  | ask bp =>
    simp only [External.step] at h
    split at h
    · split at h <;> obtain rfl := Option.some.inj h
      · exact C.same rfl fun _ => rfl
      · exact C
    · cases h
  | run j running =>
    simp only [External.step, State.runReq] at h
    have U : ∀ key, ConnInv (s.unregister key) := fun key =>
      C.same (unregister_conn s key).1 fun c => by rw [(unregister_conn s key).2]
    have S : ∀ p, ConnInv (s.send p) := fun p => C.same (send_connection s p) (send_phase s p)
    split at h
    · cases h
    · split at h
      · split at h <;> obtain rfl := Option.some.inj h <;> exact C.same rfl fun _ => rfl
      · obtain rfl := Option.some.inj h; exact (U _).same rfl fun _ => rfl
      · obtain rfl := Option.some.inj h; exact (S _).same rfl fun _ => rfl
      · split at h
        · cases h
        · obtain rfl := Option.some.inj h; exact C.same rfl fun _ => rfl
        · obtain rfl := Option.some.inj h; exact C.same rfl fun _ => rfl
      · obtain rfl := Option.some.inj h; exact (U _).same rfl fun _ => rfl
      · split at h
        · cases h
        · split at h <;> obtain rfl := Option.some.inj h <;> exact C.same rfl fun _ => rfl
      · obtain rfl := Option.some.inj h; exact (S _).same rfl fun _ => rfl
      · obtain rfl := Option.some.inj h; exact (U _).same rfl fun _ => rfl
      · cases h
  | timer i =>
    simp only [External.step, State.runTimer] at h
    split at h
    · cases h
    · split at h
      · split at h <;> obtain rfl := Option.some.inj h <;> exact C.same rfl fun _ => rfl
      · cases h
  | notify n peer =>
    obtain rfl := Option.some.inj h
    have S : ∀ p, ConnInv (s.send p) := fun p => C.same (send_connection s p) (send_phase s p)
    unfold State.runNotify
    split
    · exact C
    · split
      · split
        · exact C.same rfl fun _ => rfl
        · exact S _
      · split
        · exact C.same rfl fun _ => rfl
        · exact S _
      · exact S _
  | shutdown => obtain rfl := Option.some.inj h; exact C.same rfl fun _ => rfl
  | connect =>
    obtain rfl := Option.some.inj h
    have none_acc : ∀ c : Nat, (s.conns[c]?).map Conn.phase ≠ some .accepted := by
      intro c hc'
      cases hk : s.conns[c]? with
      | none => rw [hk] at hc'; cases hc'
      | some k =>
        rw [hk] at hc'
        exact hc rfl k (List.mem_of_getElem? hk) (Option.some.inj hc')
    have look : ∀ (c : Nat) (k : Conn), ((s.conns ++ [k])[c]?).map Conn.phase =
        if c = s.conns.length then some k.phase else (s.conns[c]?).map Conn.phase := by
      intro c k
      by_cases hlt : c < s.conns.length
      · rw [List.getElem?_append_left hlt, if_neg (by omega)]
      · rw [List.getElem?_append_right (by omega)]
        by_cases e : c = s.conns.length
        · subst e; simp
        · rw [if_neg e, List.getElem?_eq_none (by simp; omega), List.getElem?_eq_none (by omega)]
    constructor
    · intro c p h1 h2
      simp only at h1 ⊢
      rw [look] at h1
      split at h1
      · simp only [Option.some.injEq] at h1
        split at h1 <;> subst h1 <;> simp at h2
      · exact C.recd c p h1 h2
    · intro c h1
      simp only at h1 ⊢
      rw [look] at h1
      split at h1
      · simp only [Option.some.injEq] at h1
        split at h1
        · cases h1
        · rename_i hn; simpa using hn
      · exact C.acc c h1
    · intro c d h1 h2
      simp only at h1 h2
      rw [look] at h1 h2
      split at h1
      · split at h2
        · rename_i e1 e2; rw [e1, e2]
        · exact absurd h2 (none_acc d)
      · exact absurd h1 (none_acc c)
    · intro c h1
      simp only at h1 ⊢
      obtain ⟨p, h2, h3⟩ := C.back c h1
      refine ⟨p, ?_, h3⟩
      rw [look, if_neg (by have := lt_of_phase h2; omega)]
      exact h2
  | proceed c =>
    simp only [External.step, State.proceed] at h
    split at h
    · rename_i hp
      obtain rfl := Option.some.inj h
      have hnone := C.acc c hp
      have hl := lt_of_phase hp
      constructor
      · intro d p h1 h2
        show some c = some d
        simp only at h1
        rw [setPhase_phase] at h1
        split at h1
        · rename_i e; rw [e.1]
        · have := C.recd d p h1 h2
          rw [hnone] at this; cases this
      · intro d h1
        simp only at h1
        rw [setPhase_phase] at h1
        split at h1
        · cases h1
        · rename_i hne
          have := C.one c d hp h1
          subst this
          exact absurd ⟨rfl, hl⟩ hne
      · intro d d' h1 h2
        simp only at h1 h2
        rw [setPhase_phase] at h1 h2
        split at h1
        · cases h1
        · split at h2
          · cases h2
          · exact C.one d d' h1 h2
      · intro d h1
        obtain rfl : c = d := Option.some.inj h1
        exact ⟨.installed, by simp only; rw [setPhase_phase, if_pos ⟨rfl, hl⟩], .inl rfl⟩
    · rename_i hp
      obtain rfl := Option.some.inj h
      exact (C.same (send_connection s .peerState) (send_phase s _)).setPhase c .installed .greeted
        (by rw [send_phase]; exact hp) (by simp) (by simp)
    · rename_i hp
      obtain rfl := Option.some.inj h
      exact (C.same (send_connection s .serviceState) (send_phase s _)).setPhase c .greeted .reading
        (by rw [send_phase]; exact hp) (by simp) (by simp)
    · cases h
  | response c r =>
    simp only [External.step] at h
    split at h
    · obtain rfl := Option.some.inj h
      unfold State.takeResponse
      dsimp only
      split
      · exact C.same rfl fun _ => rfl
      · exact C.same rfl fun _ => rfl
    · cases h
  | serviceAdd c tag service =>
    simp only [External.step] at h
    split at h
    · obtain rfl := Option.some.inj h; exact C.same rfl fun _ => rfl
    · cases h
  | text c =>
    simp only [External.step] at h
    split at h
    · obtain rfl := Option.some.inj h; exact C
    · cases h
  | binary c =>
    simp only [External.step] at h
    split at h
    · rename_i hr
      obtain rfl := Option.some.inj h
      exact C.setPhase c .reading .crashed (reads_phase hr) (by simp) (by simp)
    · cases h
  | close c =>
    simp only [External.step] at h
    split at h
    · rename_i hr
      obtain rfl := Option.some.inj h
      have hp := reads_phase hr
      have hcon := C.recd c _ hp (by simp)
      have hl := lt_of_phase hp
      constructor
      · intro d p h1 h2
        simp only at h1
        rw [setPhase_phase] at h1
        split at h1
        · obtain rfl := Option.some.inj h1
          simp at h2
        · rename_i hne
          have := C.recd d p h1 h2
          rw [hcon] at this
          obtain rfl := Option.some.inj this
          exact absurd ⟨rfl, hl⟩ hne
      · intro d _; rfl
      · intro d d' h1 h2
        simp only at h1 h2
        rw [setPhase_phase] at h1 h2
        split at h1
        · cases h1
        · split at h2
          · cases h2
          · exact C.one d d' h1 h2
      · intro d h1; cases h1
    · cases h
  | transfer c =>
    simp only [External.step] at h
    split at h
    · cases h
    · rename_i k hk
      split at h
      · cases h
      · obtain rfl := Option.some.inj h
        refine C.same rfl fun d => ?_
        simp only
        rw [List.getElem?_set]
        split
        · rename_i e
          subst e
          rw [hk]
          split <;> rename_i hl
          · rfl
          · exact absurd (List.getElem?_eq_some_iff.mp hk).1 hl
        · rfl

theorem connInv_run (evs : List Ev) : ∀ s, run {} evs = some s → OneAtATime evs → ConnInv s := by
  induction evs using List.reverseRecOn with
  | nil =>
    intro s h _
    obtain rfl := Option.some.inj h
    constructor <;> simp
  | append_singleton evs e ih =>
    intro t h ho
    obtain ⟨u, h1, h2⟩ := run_append_some h
    obtain ⟨v, h3, h4⟩ := run_cons h2
    obtain rfl : v = t := Option.some.inj h4
    refine (ih u h1 ?_).step h3 ?_
    · intro pre post s he hs
      exact ho pre (post ++ [e]) s (by rw [he]; simp) hs
    · rintro rfl
      exact ho evs [] u rfl h1

/-- Only binary data crashes a connection. -/
theorem crashed_only_binary (evs : List Ev) (hb : ∀ c, Ev.binary c ∉ evs) : ∀ s, run {} evs = some s →
    ∀ c : Nat, (s.conns[c]?).map Conn.phase ≠ some .crashed := by
  induction evs using List.reverseRecOn with
  | nil =>
    intro s h
    obtain rfl := Option.some.inj h
    simp
  | append_singleton evs e ih =>
    intro t h
    obtain ⟨u, h1, h2⟩ := run_append_some h
    obtain ⟨v, h3, h4⟩ := run_cons h2
    obtain rfl : v = t := Option.some.inj h4
    have J := ih (fun c hc => hb c (by simp [hc])) u h1
    have he : ∀ c, e ≠ .binary c := fun c hc => hb c (by simp [hc])
    have same : ∀ w : State, (∀ c : Nat, (w.conns[c]?).map Conn.phase = (u.conns[c]?).map Conn.phase) →
        ∀ c : Nat, (w.conns[c]?).map Conn.phase ≠ some .crashed := fun w hw c => by rw [hw]; exact J c
    have set : ∀ (w : State) (i : Nat) (p : Phase), p ≠ .crashed → (∀ c : Nat, (w.conns[c]?).map Conn.phase ≠ some .crashed) →
        ∀ c : Nat, ((w.setPhase i p).conns[c]?).map Conn.phase ≠ some .crashed := by
      intro w i p hp hw c
      rw [setPhase_phase]
      split
      · simpa using hp
      · exact hw c
    cases e with
    | ask bp =>
      simp only [External.step] at h3
      split at h3
      · split at h3 <;> obtain rfl := Option.some.inj h3 <;> exact same _ fun _ => rfl
      · cases h3
    | run j running =>
      simp only [External.step, State.runReq] at h3
      have U : ∀ key (c : Nat), ((u.unregister key).conns[c]?).map Conn.phase = (u.conns[c]?).map Conn.phase :=
        fun key c => by rw [(unregister_conn u key).2]
      split at h3
      · cases h3
      · split at h3
        · split at h3 <;> obtain rfl := Option.some.inj h3 <;> exact same _ fun _ => rfl
        · obtain rfl := Option.some.inj h3; exact same _ (U _)
        · obtain rfl := Option.some.inj h3; exact same _ (send_phase u _)
        · split at h3
          · cases h3
          · obtain rfl := Option.some.inj h3; exact same _ fun _ => rfl
          · obtain rfl := Option.some.inj h3; exact same _ fun _ => rfl
        · obtain rfl := Option.some.inj h3; exact same _ (U _)
        · split at h3
          · cases h3
          · split at h3 <;> obtain rfl := Option.some.inj h3 <;> exact same _ fun _ => rfl
        · obtain rfl := Option.some.inj h3; exact same _ (send_phase u _)
        · obtain rfl := Option.some.inj h3; exact same _ (U _)
        · cases h3
    | timer i =>
      simp only [External.step, State.runTimer] at h3
      split at h3
      · cases h3
      · split at h3
        · split at h3 <;> obtain rfl := Option.some.inj h3 <;> exact same _ fun _ => rfl
        · cases h3
    | notify n peer =>
      obtain rfl := Option.some.inj h3
      unfold State.runNotify
      split
      · exact J
      · split
        · split
          · exact same _ fun _ => rfl
          · exact same _ (send_phase u _)
        · split
          · exact same _ fun _ => rfl
          · exact same _ (send_phase u _)
        · exact same _ (send_phase u _)
    | shutdown => obtain rfl := Option.some.inj h3; exact same _ fun _ => rfl
    | connect =>
      obtain rfl := Option.some.inj h3
      intro c
      simp only
      by_cases hlt : c < u.conns.length
      · rw [List.getElem?_append_left hlt]; exact J c
      · rw [List.getElem?_append_right (by omega)]
        by_cases ez : c - u.conns.length = 0
        · rw [ez]
          simp
          split <;> simp
        · rw [List.getElem?_eq_none (by simp; omega)]
          simp
    | proceed c =>
      simp only [External.step, State.proceed] at h3
      split at h3
      · obtain rfl := Option.some.inj h3; exact set u c _ (by simp) J
      · obtain rfl := Option.some.inj h3; exact set _ c _ (by simp) (same _ (send_phase u _))
      · obtain rfl := Option.some.inj h3; exact set _ c _ (by simp) (same _ (send_phase u _))
      · cases h3
    | response c r =>
      simp only [External.step] at h3
      split at h3
      · obtain rfl := Option.some.inj h3
        unfold State.takeResponse
        dsimp only
        split
        · exact same _ fun _ => rfl
        · exact same _ fun _ => rfl
      · cases h3
    | serviceAdd c tag service =>
      simp only [External.step] at h3
      split at h3
      · obtain rfl := Option.some.inj h3; exact same _ fun _ => rfl
      · cases h3
    | text c =>
      simp only [External.step] at h3
      split at h3
      · obtain rfl := Option.some.inj h3; exact J
      · cases h3
    | binary c => exact absurd rfl (he c)
    | close c =>
      simp only [External.step] at h3
      split at h3
      · obtain rfl := Option.some.inj h3; exact set u c _ (by simp) J
      · cases h3
    | transfer c =>
      simp only [External.step] at h3
      split at h3
      · cases h3
      · rename_i k hk
        split at h3
        · cases h3
        · obtain rfl := Option.some.inj h3
          refine same _ fun d => ?_
          simp only
          rw [List.getElem?_set]
          split
          · rename_i e
            subst e
            rw [hk]
            split <;> rename_i hl
            · rfl
            · exact absurd (List.getElem?_eq_some_iff.mp hk).1 hl
          · rfl

end Dtn.Routing.External
