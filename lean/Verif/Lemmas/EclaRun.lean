import Verif.Lemmas.EclaNames
import Mathlib.Data.List.Induction
/-! Runs of the external convergence layers: panics, queues. -/

namespace Dtn.Ecla
open Spec.Ecla

/-! ### Panics stay -/

theorem sendAll_poisoned {ch p s r ms} (h : (sendAll ch p s r ms).1.poisoned = false) : s.poisoned = false := by
  induction ms generalizing s r with
  | nil => exact h
  | cons x ms ih =>
    obtain ⟨a, m⟩ := x
    unfold sendAll at h
    split at h
    · split at h
      · cases h
      · simpa using ih h
    · exact ih h

theorem close_poisoned {s : State} {c a} (h : (s.close c a).poisoned = false) : s.poisoned = false := by
  unfold State.close at h
  split at h
  · exact h
  · exact h
  · cases h

theorem register_poisoned {s : State} {c a m n} (h : (s.register c a m n).poisoned = false) : s.poisoned = false := by
  unfold State.register at h
  split at h
  · simpa using close_poisoned h
  · split at h
    · dsimp only at h
      split at h <;> simpa using h
    · simpa using close_poisoned h

theorem register_ws {s : State} {c a m n} : (s.register c a m n).wsPoisoned = s.wsPoisoned := by
  unfold State.register
  split
  · simp [(close_fields _ _ _).2.2.2.2.1]
  · split
    · dsimp only
      split <;> simp
    · simp [(close_fields _ _ _).2.2.2.2.1]

theorem sound_back {s t e} (hs : step s e = some t) (h : Sound t) : Sound s := by
  obtain ⟨h1, h2⟩ := h
  cases e with
  | acceptTcp a => cases hs; exact ⟨h1, h2⟩
  | acceptWs => cases hs; exact ⟨h1, h2⟩
  | stop c =>
    simp only [step] at hs
    split at hs
    · cases hs
    · split at hs <;> cases hs
      exact ⟨h1, h2⟩
  | write c =>
    simp only [step] at hs
    split at hs
    · cases hs
    · split at hs <;> cases hs
      exact ⟨h1, h2⟩
  | submit n d b =>
    simp only [step] at hs
    split at hs
    · cases hs
      simp only [State.submit] at h1 h2
      split at h1
      · exact ⟨h1, by simp_all⟩
      · rename_i hp
        rw [if_neg hp] at h2
        cases b with
        | none => exact ⟨h1, h2⟩
        | some b => exact ⟨sendAll_poisoned h1, by rwa [(sendAll_fields _ _ _ _ _).2.2.2.2.2.1] at h2⟩
    · cases hs
  | announce =>
    simp only [step] at hs
    split at hs
    · cases hs
      simp only [State.announce] at h1 h2
      split at h1
      · exact ⟨h1, by simp_all⟩
      · rename_i hp
        rw [if_neg hp] at h2
        exact ⟨sendAll_poisoned h1, by rwa [(sendAll_fields _ _ _ _ _).2.2.2.2.2.1] at h2⟩
    · cases hs
  | packet c p =>
    simp only [step] at hs
    split at hs
    · cases hs
    · split at hs
      · split at hs
        · cases hs; exact ⟨h1, h2⟩
        · split at hs
          · split at hs <;> cases hs
            cases h2
          · cases hs
            unfold State.handlePacket at h1 h2
            split at h1
            · rename_i hp; rw [if_pos hp] at h2; exact ⟨h1, h2⟩
            · rename_i hp
              rw [if_neg hp] at h2
              refine ⟨by simpa using hp, ?_⟩
              split at h2
              · exact h2
              · split at h2
                · exact h2
                · split at h2
                  · split at h2 <;> exact h2
                  · split at h2
                    · rwa [register_ws] at h2
                    · exact h2
      · cases hs
  | proceed c =>
    simp only [step, State.proceed] at hs
    split at hs
    · cases hs
    · split at hs
      · split at hs <;> cases hs <;> exact ⟨h1, h2⟩
      · split at hs <;> cases hs <;> exact ⟨h1, h2⟩
      · split at hs
        · cases hs; exact ⟨h1, h2⟩
        · split at hs <;> cases hs <;> exact ⟨h1, h2⟩
      · split at hs
        · cases hs; exact ⟨h1, h2⟩
        · split at hs
          · split at hs <;> cases hs <;> exact ⟨h1, h2⟩
          · cases hs; exact ⟨h1, h2⟩
      · split at hs <;> cases hs <;> exact ⟨h1, h2⟩
      · split at hs <;> cases hs <;> exact ⟨h1, h2⟩
      all_goals cases hs

/-! ### Runs -/

theorem inv_start (clas tcp) : Inv clas (start clas tcp) := by
  have hat : ∀ c a p, ¬ (start clas tcp).At c a p := by intro c a p; simp [State.At, start]
  have hh : ∀ a n, ¬ (start clas tcp).Holder a n := by
    rintro a n ⟨⟨c, p, h, -⟩, -⟩; exact hat _ _ _ h
  refine ⟨?_, ?_, ?_, ?_, ?_, ?_, ?_, ?_, ?_⟩
  · intro c d a p q h; exact absurd h (hat _ _ _)
  · intro c a h; exact absurd h (hat _ _ _)
  · intro c n p h; exact absurd h (hat _ _ _)
  · intro c a p h; exact absurd h (hat _ _ _)
  · intro a m h; simp [start] at h
  · intro c a p h; exact absurd h (hat _ _ _)
  · intro n; simp [hh]; simp [start]
  · intro a b n h; exact absurd h (hh _ _)
  · exact id

theorem after_snoc {clas tcp evs e t} (h : After clas tcp (evs ++ [e]) t) :
    ∃ s, After clas tcp evs s ∧ step s e = some t := by
  unfold After at h
  rw [run_snoc] at h
  cases hr : run (start clas tcp) evs with
  | none => simp [hr] at h
  | some s => exact ⟨s, hr, by simpa [hr] using h⟩

theorem noReuse_left {clas tcp evs fs} (h : NoReuse clas tcp (evs ++ fs)) : NoReuse clas tcp evs := by
  intro pre addr post s he
  exact h pre addr (post ++ fs) s (by rw [he]; simp)

theorem inv_after {clas tcp evs s} (h : After clas tcp evs s) (hn : NoReuse clas tcp evs) (hs : Sound s) :
    Inv clas s := by
  induction evs using List.reverseRecOn generalizing s with
  | nil => cases h; exact inv_start clas tcp
  | append_singleton evs e ih =>
    obtain ⟨u, hu, hst⟩ := after_snoc h
    refine inv_step (basic_after hu) (ih hu (noReuse_left hn) (sound_back hst hs)) hst hs ?_
    rintro a rfl
    exact hn evs a [] u rfl hu

theorem connectors_register {s : State} {c a m n} : (s.register c a m n).connectors = s.connectors := by
  unfold State.register
  split
  · simp [(close_fields _ _ _).2.2.2.2.2]
  · split
    · dsimp only
      split <;> simp
    · simp [(close_fields _ _ _).2.2.2.2.2]

theorem connectors_step {s t e} (hs : step s e = some t) : t.connectors = s.connectors := by
  cases e with
  | acceptTcp a => cases hs; rfl
  | acceptWs => cases hs; rfl
  | stop c =>
    simp only [step] at hs
    split at hs
    · cases hs
    · split at hs <;> cases hs
      rfl
  | write c =>
    simp only [step] at hs
    split at hs
    · cases hs
    · split at hs <;> cases hs
      rfl
  | submit n d b =>
    simp only [step] at hs
    split at hs
    · cases hs
      unfold State.submit
      split
      · rfl
      · split
        · rfl
        · exact (sendAll_fields _ _ _ _ _).2.2.2.2.2.2.1
    · cases hs
  | announce =>
    simp only [step] at hs
    split at hs
    · cases hs
      unfold State.announce
      split
      · rfl
      · exact (sendAll_fields _ _ _ _ _).2.2.2.2.2.2.1
    · cases hs
  | packet c p =>
    simp only [step] at hs
    split at hs
    · cases hs
    · split at hs
      · split at hs
        · cases hs; rfl
        · split at hs
          · split at hs <;> cases hs
            rfl
          · cases hs
            unfold State.handlePacket
            split
            · rfl
            · split
              · rfl
              · split
                · rfl
                · split
                  · split <;> rfl
                  · split
                    · exact connectors_register
                    · rfl
      · cases hs
  | proceed c =>
    simp only [step, State.proceed] at hs
    split at hs
    · cases hs
    · split at hs
      · split at hs <;> cases hs <;> rfl
      · split at hs <;> cases hs <;> rfl
      · split at hs
        · cases hs; rfl
        · split at hs <;> cases hs <;> rfl
      · split at hs
        · cases hs; rfl
        · split at hs
          · split at hs <;> cases hs <;> rfl
          · cases hs; rfl
      · split at hs <;> cases hs <;> rfl
      · split at hs <;> cases hs <;> rfl
      all_goals cases hs

theorem connectors_after {clas tcp evs s} (h : After clas tcp evs s) : s.connectors = (start clas tcp).connectors := by
  induction evs using List.reverseRecOn generalizing s with
  | nil => cases h; rfl
  | append_singleton evs e ih =>
    obtain ⟨u, hu, hst⟩ := after_snoc h
    rw [connectors_step hst, ih hu]

/-! ### Where panics come from -/

/-- Close senders are used up only by registrations of their own connection. -/
def Used (evs : List Ev) (s : State) : Prop :=
  ∀ a c, AList.get? s.peers a = some (c, false) → 1 ≤ registrations c evs

theorem registrations_snoc (c evs e) :
    registrations c (evs ++ [e]) = registrations c evs + registrations c [e] := by
  simp [registrations, List.countP_append]

theorem Used.congr {evs s t e} (h : Used evs s) (hp : t.peers = s.peers) : Used (evs ++ [e]) t := by
  intro a c hc
  rw [hp] at hc
  rw [registrations_snoc]
  have := h a c hc
  omega

theorem close_ok {s : State} {c a d b} (h : AList.get? s.peers a = some (d, b)) (hs : s.poisoned = false) :
    ((s.close c a).poisoned = false ↔ b = true) ∧
    (b = true → (s.close c a).peers = AList.insert s.peers a (d, false)) := by
  unfold State.close
  rw [h]
  cases b with
  | true => simp [hs]
  | false => simp

theorem close_used {evs s c a n x y d b} (hu : Used evs s) (hpeer : AList.get? s.peers a = some (d, b))
    (hd : d = c) (hs : s.poisoned = false)
    (hreg : registrations c (evs ++ [Ev.packet c (.register n x y)]) ≤ 1) :
    (s.close c a).poisoned = false ∧ Used (evs ++ [Ev.packet c (.register n x y)]) (s.close c a) := by
  have h1 : registrations c [Ev.packet c (.register n x y)] = 1 := by simp [registrations]
  rw [registrations_snoc, h1] at hreg
  subst hd
  cases b with
  | false =>
    have := hu a d hpeer
    omega
  | true =>
    obtain ⟨h2, h3⟩ := close_ok (c := d) hpeer hs
    refine ⟨h2.mpr rfl, ?_⟩
    intro a' c' hc'
    rw [h3 rfl, AList.get?_insert] at hc'
    rw [registrations_snoc]
    split at hc'
    · cases hc'
      omega
    · have := hu a' c' hc'
      omega

theorem sound_step {clas evs s t e} (hi : Inv clas s) (hu : Used evs s) (hs : step s e = some t) (hsd : Sound s)
    (hw : WellFormed [e]) (hreg : ∀ c, registrations c (evs ++ [e]) ≤ 1) : Sound t ∧ Used (evs ++ [e]) t := by
  obtain ⟨h1, h2⟩ := hsd
  cases e with
  | acceptTcp a => cases hs; exact ⟨⟨h1, h2⟩, hu.congr rfl⟩
  | acceptWs => cases hs; exact ⟨⟨h1, h2⟩, hu.congr rfl⟩
  | stop c =>
    simp only [step] at hs
    split at hs
    · cases hs
    · split at hs <;> cases hs
      exact ⟨⟨h1, h2⟩, hu.congr rfl⟩
  | write c =>
    simp only [step] at hs
    split at hs
    · cases hs
    · split at hs <;> cases hs
      exact ⟨⟨h1, h2⟩, hu.congr rfl⟩
  | submit n d b =>
    have hsa : ∀ ch p r ms, (sendAll ch p s r ms).1.poisoned = false := by
      intro ch p r ms
      clear hs hi hu
      induction ms generalizing s r with
      | nil => exact h1
      | cons x ms ih =>
        obtain ⟨a, m⟩ := x
        unfold sendAll
        split
        · rw [if_neg (by simp [h2])]
          exact ih (by simpa using h1) (by simpa using h2) _
        · exact ih h1 h2 r
    simp only [step] at hs
    split at hs
    · cases hs
      unfold State.submit
      rw [if_neg (by simp [h1])]
      cases b with
      | none => exact ⟨⟨h1, h2⟩, hu.congr rfl⟩
      | some b =>
        obtain ⟨-, -, -, h4, -, h6, -⟩ := sendAll_fields (fun m => decide (m.name = n)) (.data d b) s (some false) s.modules
        exact ⟨⟨hsa _ _ _ _, h6.trans h2⟩, hu.congr h4⟩
    · cases hs
  | announce =>
    have hsa : ∀ ch p r ms, (sendAll ch p s r ms).1.poisoned = false := by
      intro ch p r ms
      clear hs hi hu
      induction ms generalizing s r with
      | nil => exact h1
      | cons x ms ih =>
        obtain ⟨a, m⟩ := x
        unfold sendAll
        split
        · rw [if_neg (by simp [h2])]
          exact ih (by simpa using h1) (by simpa using h2) _
        · exact ih h1 h2 r
    simp only [step] at hs
    split at hs
    · cases hs
      unfold State.announce
      rw [if_neg (by simp [h1])]
      obtain ⟨-, -, -, h4, -, h6, -⟩ := sendAll_fields (fun m => m.beacon) .beacon s (some false) s.modules
      exact ⟨⟨hsa _ _ _ _, h6.trans h2⟩, hu.congr h4⟩
    · cases hs
  | packet c p =>
    obtain ⟨hb, hbl⟩ := hw c p (by simp)
    simp only [step] at hs
    split at hs
    · cases hs
    · rename_i k hk
      split at hs
      · rename_i hph
        have hA : s.At c k.addr .serving := hph ▸ at_of hk
        rw [if_neg (by simp [h2])] at hs
        cases hs
        unfold State.handlePacket
        rw [if_neg (by simp [h1])]
        split
        · exact ⟨⟨h1, h2⟩, hu.congr rfl⟩
        · rename_i m hm
          split
          · exact ⟨⟨h1, h2⟩, hu.congr rfl⟩
          · split
            · split
              · exact ⟨⟨h1, h2⟩, hu.congr rfl⟩
              · exact ⟨⟨h1, h2⟩, hu.congr rfl⟩
              · rename_i hno
                exact absurd (hbl _ _ _ rfl) hno
              · exact ⟨⟨h1, h2⟩, hu.congr rfl⟩
            · split
              · rename_i n x y
                obtain ⟨b, hpeer⟩ := hi.peer c k.addr _ hA rfl
                have hclose : ∀ o, Sound ((s.send k.addr o).close c k.addr) ∧
                    Used (evs ++ [Ev.packet c (.register n x y)]) ((s.send k.addr o).close c k.addr) := by
                  intro o
                  have := close_used (s := s.send k.addr o) (evs := evs) (n := n) (x := x) (y := y) (c := c)
                    (a := k.addr) (d := c) (b := b) (by intro a d; simpa using hu a d) (by simpa using hpeer) rfl
                    (by simpa using h1) (hreg c)
                  exact ⟨⟨this.1, by rw [(close_fields _ _ _).2.2.2.2.1]; simpa using h2⟩, this.2⟩
                unfold State.register
                split
                · exact hclose _
                · split
                  · dsimp only
                    split
                    · exact ⟨⟨by simpa using h1, by simpa using h2⟩, hu.congr (by simp)⟩
                    · exact ⟨⟨by simpa using h1, by simpa using h2⟩, hu.congr (by simp)⟩
                  · exact hclose _
              · exact ⟨⟨h1, h2⟩, hu.congr rfl⟩
      · cases hs
  | proceed c =>
    have herase : ∀ (a : Addr), Used (evs ++ [Ev.proceed c]) { s with peers := AList.erase s.peers a } := by
      intro a a' c' hc'
      simp only [AList.get?_erase] at hc'
      split at hc'
      · cases hc'
      · rw [registrations_snoc]
        have := hu a' c' hc'
        omega
    simp only [step, State.proceed] at hs
    split at hs
    · cases hs
    · rename_i k hk
      split at hs
      · rw [if_neg (by simp [h2])] at hs
        cases hs
        refine ⟨⟨h1, h2⟩, ?_⟩
        intro a' c' hc'
        simp only [AList.get?_insert] at hc'
        split at hc'
        · cases hc'
        · rw [registrations_snoc]
          have := hu a' c' hc'
          omega
      · split at hs <;> cases hs <;> exact ⟨⟨h1, h2⟩, hu.congr rfl⟩
      · split at hs
        · cases hs; exact ⟨⟨h1, h2⟩, hu.congr rfl⟩
        · split at hs <;> cases hs
          · exact ⟨⟨h1, h2⟩, herase _⟩
          · exact ⟨⟨h1, h2⟩, hu.congr rfl⟩
      · split at hs
        · cases hs; exact ⟨⟨h1, h2⟩, hu.congr rfl⟩
        · split at hs
          · split at hs <;> cases hs <;> exact ⟨⟨h1, h2⟩, hu.congr rfl⟩
          · cases hs; exact ⟨⟨h1, h2⟩, hu.congr rfl⟩
      · split at hs <;> cases hs <;> exact ⟨⟨h1, h2⟩, hu.congr rfl⟩
      · split at hs <;> cases hs
        · exact ⟨⟨h1, h2⟩, hu.congr rfl⟩
        · exact ⟨⟨h1, h2⟩, herase _⟩
      all_goals cases hs

theorem sound_after {clas tcp evs s} (h : After clas tcp evs s) (hn : NoReuse clas tcp evs) (hw : WellFormed evs)
    (hreg : ∀ c, registrations c evs ≤ 1) : Sound s ∧ Used evs s := by
  induction evs using List.reverseRecOn generalizing s with
  | nil =>
    cases h
    exact ⟨⟨rfl, rfl⟩, by intro a c hc; simp [start] at hc⟩
  | append_singleton evs e ih =>
    obtain ⟨u, hu, hst⟩ := after_snoc h
    have hreg' : ∀ c, registrations c evs ≤ 1 := by
      intro c
      have := hreg c
      rw [registrations_snoc] at this
      omega
    obtain ⟨hsd, hus⟩ := ih hu (noReuse_left hn) (fun c p hc => hw c p (List.mem_append_left _ hc)) hreg'
    exact sound_step (inv_after hu (noReuse_left hn) hsd) hus hst hsd
      (fun c p hc => hw c p (List.mem_append_right _ hc)) hreg

/-! ### After a panic -/

theorem poisoned_step {s t e} (hp : s.poisoned = true) (hs : step s e = some t) :
    t.poisoned = true ∧ t.modules = s.modules ∧ t.clas = s.clas ∧ t.received = s.received ∧
    t.encounters = s.encounters ∧ ∃ r, t.results = s.results ++ r ∧ ∀ x ∈ r, x.2 = none := by
  cases e with
  | acceptTcp a => cases hs; exact ⟨hp, rfl, rfl, rfl, rfl, [], by simp⟩
  | acceptWs => cases hs; exact ⟨hp, rfl, rfl, rfl, rfl, [], by simp⟩
  | stop c =>
    simp only [step] at hs
    split at hs
    · cases hs
    · split at hs <;> cases hs
      exact ⟨hp, rfl, rfl, rfl, rfl, [], by simp [State.setPhase]⟩
  | write c =>
    simp only [step] at hs
    split at hs
    · cases hs
    · split at hs <;> cases hs
      exact ⟨hp, rfl, rfl, rfl, rfl, [], by simp⟩
  | submit n d b =>
    simp only [step] at hs
    split at hs
    · cases hs
      unfold State.submit
      rw [if_pos hp]
      exact ⟨hp, rfl, rfl, rfl, rfl, [(n, none)], by simp⟩
    · cases hs
  | announce =>
    simp only [step] at hs
    split at hs
    · cases hs
      unfold State.announce
      rw [if_pos hp]
      exact ⟨hp, rfl, rfl, rfl, rfl, [], by simp⟩
    · cases hs
  | packet c p =>
    simp only [step] at hs
    split at hs
    · cases hs
    · split at hs
      · split at hs
        · cases hs; exact ⟨hp, rfl, rfl, rfl, rfl, [], by simp [State.crash, State.setPhase]⟩
        · split at hs
          · split at hs <;> cases hs
            exact ⟨hp, rfl, rfl, rfl, rfl, [], by simp [State.crash, State.setPhase]⟩
          · cases hs
            unfold State.handlePacket
            rw [if_pos hp]
            exact ⟨hp, rfl, rfl, rfl, rfl, [], by simp [State.crash, State.setPhase]⟩
      · cases hs
  | proceed c =>
    simp only [step, State.proceed] at hs
    split at hs
    · cases hs
    · split at hs
      · split at hs <;> cases hs <;> exact ⟨hp, rfl, rfl, rfl, rfl, [], by simp [State.crash, State.setPhase]⟩
      · rw [if_pos hp] at hs
        cases hs; exact ⟨hp, rfl, rfl, rfl, rfl, [], by simp [State.crash, State.setPhase]⟩
      · split at hs
        · cases hs; exact ⟨hp, rfl, rfl, rfl, rfl, [], by simp [State.setPhase]⟩
        · split at hs <;> cases hs <;> exact ⟨hp, rfl, rfl, rfl, rfl, [], by simp [State.setPhase]⟩
      · rw [if_pos hp] at hs
        cases hs; exact ⟨hp, rfl, rfl, rfl, rfl, [], by simp [State.crash, State.setPhase]⟩
      · rw [if_pos hp] at hs
        cases hs; exact ⟨hp, rfl, rfl, rfl, rfl, [], by simp [State.crash, State.setPhase]⟩
      · split at hs <;> cases hs <;> exact ⟨hp, rfl, rfl, rfl, rfl, [], by simp [State.crash, State.setPhase]⟩
      all_goals cases hs

theorem poisoned_run {s evs t} (hp : s.poisoned = true) (hr : run s evs = some t) :
    t.poisoned = true ∧ t.modules = s.modules ∧ t.clas = s.clas ∧ t.received = s.received ∧
    t.encounters = s.encounters ∧ ∃ r, t.results = s.results ++ r ∧ ∀ x ∈ r, x.2 = none := by
  induction evs generalizing s with
  | nil => cases hr; exact ⟨hp, rfl, rfl, rfl, rfl, [], by simp⟩
  | cons e evs ih =>
    simp only [run] at hr
    cases hs : step s e with
    | none => simp [hs] at hr
    | some u =>
      rw [hs] at hr
      obtain ⟨h1, h2, h3, h4, h5, r, h6, h7⟩ := poisoned_step hp hs
      obtain ⟨g1, g2, g3, g4, g5, r', g6, g7⟩ := ih h1 hr
      refine ⟨g1, g2.trans h2, g3.trans h3, g4.trans h4, g5.trans h5, r ++ r', ?_, ?_⟩
      · rw [g6, h6, List.append_assoc]
      · intro x hx
        rcases List.mem_append.mp hx with hx | hx
        · exact h7 x hx
        · exact g7 x hx

end Dtn.Ecla
