import Verif.Lemmas.EclaRun
/-! What external convergence layers put into the queues of modules. -/

namespace Dtn.Ecla
open Spec.Ecla

/-- How the tables hang together, whatever happens. -/
structure Tables (s : State) : Prop where
  wf : AList.WF s.modules
  owner : ∀ a c b, AList.get? s.peers a = some (c, b) → ∃ p, s.At c a p
  layer : ∀ a m, AList.get? s.modules a = some m → m.layer = a.layer
  conn : ∀ a m, AList.get? s.modules a = some m → m.active = true → a.layer ∈ s.connectors
  nameless : ∀ a m, AList.get? s.modules a = some m → m.active = false → m.name = []
  beacons : ∀ a m, AList.get? s.modules a = some m → m.beacon = true

theorem Tables.congr {s t} (h : Tables s) (hm : t.modules = s.modules) (hp : t.peers = s.peers)
    (hc : t.connectors = s.connectors) (ha : ∀ c a p, s.At c a p → ∃ q, t.At c a q) : Tables t := by
  refine ⟨by rw [hm]; exact h.wf, ?_, by rw [hm]; exact h.layer, by rw [hm, hc]; exact h.conn, by rw [hm]; exact h.nameless,
    by rw [hm]; exact h.beacons⟩
  intro a c b hb
  rw [hp] at hb
  obtain ⟨p, hA⟩ := h.owner a c b hb
  exact ha c a p hA

theorem at_setPhase {s : State} {d q} (c a p) (h : s.At c a p) : ∃ r, (s.setPhase d q).At c a r := by
  by_cases hd : c = d
  · subst hd; exact ⟨q, by rw [setPhase_at, if_pos rfl]; exact ⟨⟨p, h⟩, rfl⟩⟩
  · exact ⟨p, by rw [setPhase_at, if_neg hd]; exact h⟩

theorem tables_send {s a p} (h : Tables s) : Tables (s.send a p) :=
  h.congr (by simp) (by simp) (by simp) (fun c a p hA => ⟨p, by simpa using hA⟩)

theorem tables_close {s c a} (h : Tables s) : Tables (s.close c a) := by
  unfold State.close
  split
  · exact h
  · rename_i d hd
    refine ⟨h.wf, ?_, h.layer, h.conn, h.nameless, h.beacons⟩
    intro b e f he
    simp only [AList.get?_insert] at he
    split at he
    · rename_i hba
      cases he
      exact h.owner b d true (by rw [hba]; exact hd)
    · exact h.owner b e f he
  · exact h.congr rfl rfl rfl (fun c a p hA => at_setPhase c a p hA)

theorem tables_register {s c a m n} (h : Tables s) (hm : AList.get? s.modules a = some m) (hl : a.layer ∈ s.connectors) :
    Tables (s.register c a m n) := by
  unfold State.register
  split
  · exact tables_close (tables_send h)
  · split
    · have key : Tables { s with
          modules := AList.insert s.modules a { m with name := n, active := true }
          clas := s.clas ++ [n]
          created := s.created ++ [n] } := by
        refine ⟨h.wf.insert _ _, h.owner, ?_, ?_, ?_, ?_⟩
        · intro b k hk
          simp only [AList.get?_insert] at hk
          split at hk
          · rename_i hba
            cases hk
            rw [hba]; exact h.layer a m hm
          · exact h.layer b k hk
        · intro b k hk ha
          simp only [AList.get?_insert] at hk
          split at hk
          · rename_i hba
            rw [hba]; exact hl
          · exact h.conn b k hk ha
        · intro b k hk ha
          simp only [AList.get?_insert] at hk
          split at hk
          · cases hk; cases ha
          · exact h.nameless b k hk ha
        · intro b k hk
          simp only [AList.get?_insert] at hk
          split at hk
          · cases hk; exact h.beacons a m hm
          · exact h.beacons b k hk
      dsimp only
      split
      · exact tables_send (tables_send key)
      · exact tables_send key
    · exact tables_close (tables_send h)

theorem tables_sendAll {ch p s r ms} (h : Tables s) : Tables (sendAll ch p s r ms).1 := by
  obtain ⟨h1, -, -, h4, -, -, h7, h8⟩ := sendAll_fields ch p s r ms
  exact h.congr h1 h4 h7 (fun c a p hA => ⟨p, (h8 c a p).mpr hA⟩)

theorem tables_step {s t e} (h : Tables s) (hs : step s e = some t) : Tables t := by
  have same : ∀ c a p, s.At c a p → ∃ q, s.At c a q := fun c a p hA => ⟨p, hA⟩
  have grow : ∀ (k : Conn) n, Tables { s with conns := s.conns ++ [k], nextId := n } := by
    intro k n
    refine h.congr rfl rfl rfl ?_
    intro c a p hA
    refine ⟨p, ?_⟩
    simp only [State.At] at hA ⊢
    have hlt : c < s.conns.length := by
      rcases Nat.lt_or_ge c s.conns.length with hc | hc
      · exact hc
      · simp [List.getElem?_eq_none hc] at hA
    rw [List.getElem?_append_left hlt]; exact hA
  have erase : ∀ {u : State} (a : Addr), u.modules = s.modules → u.connectors = s.connectors →
      u.peers = AList.erase s.peers a → (∀ c a p, s.At c a p → ∃ q, u.At c a q) → Tables u := by
    intro u a h1 h2 h3 h4
    refine ⟨by rw [h1]; exact h.wf, ?_, by rw [h1]; exact h.layer, by rw [h1, h2]; exact h.conn,
      by rw [h1]; exact h.nameless, by rw [h1]; exact h.beacons⟩
    intro b c f hb
    rw [h3, AList.get?_erase] at hb
    split at hb
    · cases hb
    · obtain ⟨p, hA⟩ := h.owner b c f hb
      exact h4 c b p hA
  cases e with
  | acceptTcp a => cases hs; exact grow _ s.nextId
  | acceptWs => cases hs; exact grow _ _
  | stop c =>
    simp only [step] at hs
    split at hs
    · cases hs
    · split at hs <;> cases hs
      exact h.congr rfl rfl rfl at_setPhase
  | write c =>
    simp only [step] at hs
    split at hs
    · cases hs
    · rename_i k hk
      split at hs <;> cases hs
      refine h.congr rfl rfl rfl ?_
      intro d a p hA
      refine ⟨p, ?_⟩
      simp only [State.At] at hA ⊢
      by_cases hd : d = c
      · subst hd
        have hlt : d < s.conns.length := (List.getElem?_eq_some_iff.mp hk).1
        rw [List.getElem?_set_self hlt]
        rw [hk] at hA
        simpa using hA
      · rw [List.getElem?_set_ne (Ne.symm hd)]; exact hA
  | submit n d b =>
    simp only [step] at hs
    split at hs
    · cases hs
      unfold State.submit
      split
      · exact h.congr rfl rfl rfl same
      · split
        · exact h.congr rfl rfl rfl same
        · exact (tables_sendAll h).congr rfl rfl rfl (fun c a p hA => ⟨p, hA⟩)
    · cases hs
  | announce =>
    simp only [step] at hs
    split at hs
    · cases hs
      unfold State.announce
      split
      · exact h.congr rfl rfl rfl same
      · exact (tables_sendAll h).congr rfl rfl rfl (fun c a p hA => ⟨p, hA⟩)
    · cases hs
  | packet c p =>
    simp only [step] at hs
    split at hs
    · cases hs
    · split at hs
      · split at hs
        · cases hs; exact h.congr rfl rfl rfl at_setPhase
        · split at hs
          · split at hs <;> cases hs
            exact h.congr rfl rfl rfl at_setPhase
          · cases hs
            unfold State.handlePacket
            split
            · exact h.congr rfl rfl rfl at_setPhase
            · split
              · exact h
              · rename_i m hm
                split
                · exact h
                · rename_i hl
                  split
                  · split
                    · exact h.congr rfl rfl rfl same
                    · exact h.congr rfl rfl rfl same
                    · exact h.congr rfl rfl rfl at_setPhase
                    · exact h
                  · split
                    · exact tables_register h hm (Decidable.not_not.mp hl)
                    · exact h
      · cases hs
  | proceed c =>
    simp only [step, State.proceed] at hs
    split at hs
    · cases hs
    · rename_i k hk
      have hA0 := at_of hk
      split at hs
      · split at hs
        · cases hs; exact h.congr rfl rfl rfl at_setPhase
        · cases hs
          refine ⟨h.wf, ?_, h.layer, h.conn, h.nameless, h.beacons⟩
          intro b d f hb
          simp only [AList.get?_insert] at hb
          split at hb
          · rename_i hba
            cases hb
            obtain ⟨q, hq⟩ := at_setPhase (q := .entered) (d := c) c k.addr _ hA0
            rw [hba]
            exact ⟨q, hq⟩
          · obtain ⟨p, hA⟩ := h.owner b d f hb
            exact at_setPhase d b p hA
      · split at hs
        · cases hs; exact h.congr rfl rfl rfl at_setPhase
        · cases hs
          refine ⟨h.wf.insert _ _, ?_, ?_, ?_, ?_, ?_⟩
          · intro b d f hb
            obtain ⟨p, hA⟩ := h.owner b d f hb
            exact at_setPhase d b p hA
          · intro b m hm
            simp only [AList.get?_insert] at hm
            split at hm
            · rename_i hba
              cases hm; rw [hba]
            · exact h.layer b m hm
          · intro b m hm ha
            simp only [AList.get?_insert] at hm
            split at hm
            · cases hm; cases ha
            · exact h.conn b m hm ha
          · intro b m hm ha
            simp only [AList.get?_insert] at hm
            split at hm
            · cases hm; rfl
            · exact h.nameless b m hm ha
          · intro b m hm
            simp only [AList.get?_insert] at hm
            split at hm
            · cases hm; rfl
            · exact h.beacons b m hm
      · split at hs
        · cases hs; exact h.congr rfl rfl rfl at_setPhase
        · split at hs <;> cases hs
          · exact erase k.addr rfl rfl rfl at_setPhase
          · exact h.congr rfl rfl rfl at_setPhase
      · split at hs
        · cases hs; exact h.congr rfl rfl rfl at_setPhase
        · split at hs
          · split at hs <;> cases hs <;> exact h.congr rfl rfl rfl at_setPhase
          · cases hs; exact h.congr rfl rfl rfl at_setPhase
      · split at hs
        · cases hs; exact h.congr rfl rfl rfl at_setPhase
        · cases hs
          refine ⟨h.wf.erase _, ?_, ?_, ?_, ?_, ?_⟩
          · intro b d f hb
            obtain ⟨p, hA⟩ := h.owner b d f hb
            exact at_setPhase d b p hA
          all_goals
            intro b m hm
            simp only [AList.get?_erase] at hm
            split at hm
            · cases hm
            · first
              | exact h.layer b m hm
              | exact h.conn b m hm
              | exact h.nameless b m hm
              | exact h.beacons b m hm
      · split at hs <;> cases hs
        · exact h.congr rfl rfl rfl at_setPhase
        · exact erase k.addr rfl rfl rfl at_setPhase
      all_goals cases hs

theorem tables_after {clas tcp evs s} (h : After clas tcp evs s) : Tables s := by
  induction evs using List.reverseRecOn generalizing s with
  | nil =>
    cases h
    refine ⟨by simp [start], ?_, ?_, ?_, ?_, ?_⟩ <;> simp [start]
  | append_singleton evs e ih =>
    obtain ⟨u, hu, hst⟩ := after_snoc h
    exact tables_step (ih hu) hst

/-! ### Queues -/

/-- A queue after an offer. -/
def offered (q : List Out) (p : Out) : List Out := if q.length < capacity then q ++ [p] else q

open scoped Classical in
theorem waiting_send (s : State) (a p c) :
    waiting (s.send a p) c =
      if (∃ b, AList.get? s.peers a = some (c, b)) ∧ c < s.conns.length then offered (waiting s c) p else waiting s c := by
  unfold State.send
  cases hp : AList.get? s.peers a with
  | none => simp
  | some x =>
    obtain ⟨d, b⟩ := x
    simp only [waiting, List.getElem?_modify]
    by_cases hd : d = c
    · subst hd
      by_cases hlt : d < s.conns.length
      · rw [if_pos ⟨⟨b, rfl⟩, hlt⟩]
        simp [List.getElem?_eq_getElem hlt, Conn.offer, offered]
        split <;> rfl
      · rw [if_neg (fun h => hlt h.2)]
        simp [List.getElem?_eq_none (Nat.not_lt.mp hlt)]
    · rw [if_neg (by rintro ⟨⟨b', hb'⟩, -⟩; cases hb'; exact hd rfl)]
      simp [hd]

theorem At.lt {s : State} {c a p} (h : s.At c a p) : c < s.conns.length := by
  rcases Nat.lt_or_ge c s.conns.length with hc | hc
  · exact hc
  · simp [State.At, List.getElem?_eq_none hc] at h

open scoped Classical in
theorem waiting_sendAll {ch p s r ms} (h : Tables s) (hw : s.wsPoisoned = false) (hms : (ms.map Prod.fst).Nodup)
    {c a q} (hA : s.At c a q) :
    waiting (sendAll ch p s r ms).1 c =
      if (∃ m, (a, m) ∈ ms ∧ ch m = true ∧ m.layer ∈ s.connectors) ∧ ∃ b, AList.get? s.peers a = some (c, b)
      then offered (waiting s c) p else waiting s c := by
  induction ms generalizing s r with
  | nil => simp [sendAll]
  | cons x ms ih =>
    obtain ⟨a', m'⟩ := x
    simp only [List.map_cons, List.nodup_cons] at hms
    have hkey : ∀ m, (a, m) ∈ ms → a ≠ a' := by
      rintro m hm rfl
      exact hms.1 (List.mem_map.mpr ⟨_, hm, rfl⟩)
    unfold sendAll
    split
    · rename_i hch
      rw [if_neg (by simp [hw])]
      rw [ih (tables_send h) (by simpa using hw) hms.2 (by simpa using hA), waiting_send]
      simp only [send_connectors, send_peers]
      by_cases haa : a = a'
      · subst haa
        have hno : ¬ ∃ m, (a, m) ∈ ms ∧ ch m = true ∧ m.layer ∈ s.connectors := by
          rintro ⟨m, hm, -⟩; exact hkey m hm rfl
        rw [if_neg (fun hh => hno hh.1)]
        by_cases hpe : ∃ b, AList.get? s.peers a = some (c, b)
        · rw [if_pos ⟨hpe, At.lt hA⟩, if_pos ⟨⟨m', by simp, hch.1, hch.2⟩, hpe⟩]
        · rw [if_neg (fun hh => hpe hh.1), if_neg (fun hh => hpe hh.2)]
      · have hno : ¬ ∃ b, AList.get? s.peers a' = some (c, b) := by
          rintro ⟨b, hb⟩
          obtain ⟨p', hp'⟩ := h.owner a' c b hb
          exact haa (hA.uniq hp').1
        rw [if_neg (c := (∃ b, AList.get? s.peers a' = some (c, b)) ∧ c < s.conns.length) (fun hh => hno hh.1)]
        have hiff : (∃ m, (a, m) ∈ (a', m') :: ms ∧ ch m = true ∧ m.layer ∈ s.connectors) ↔
            ∃ m, (a, m) ∈ ms ∧ ch m = true ∧ m.layer ∈ s.connectors := by
          simp [haa]
        rw [hiff]
    · rename_i hch
      rw [ih h hw hms.2 hA]
      have hiff : (∃ m, (a, m) ∈ (a', m') :: ms ∧ ch m = true ∧ m.layer ∈ s.connectors) ↔
          ∃ m, (a, m) ∈ ms ∧ ch m = true ∧ m.layer ∈ s.connectors := by
        constructor
        · rintro ⟨m, hm, h2⟩
          rcases List.mem_cons.mp hm with hm | hm
          · cases hm; exact absurd h2 hch
          · exact ⟨m, hm, h2⟩
        · rintro ⟨m, hm, h2⟩
          exact ⟨m, List.mem_cons_of_mem _ hm, h2⟩
      rw [hiff]

open scoped Classical in
theorem result_sendAll {ch p s r ms} (hw : s.wsPoisoned = false) :
    (sendAll ch p s r ms).2 =
      if ∃ a m, (a, m) ∈ ms ∧ ch m = true ∧ m.layer ∈ s.connectors then some true else r := by
  induction ms generalizing s r with
  | nil => simp [sendAll]
  | cons x ms ih =>
    obtain ⟨a', m'⟩ := x
    unfold sendAll
    split
    · rename_i hch
      rw [if_neg (by simp [hw]), ih (by simpa using hw)]
      rw [if_pos (c := ∃ a m, (a, m) ∈ (a', m') :: ms ∧ ch m = true ∧ m.layer ∈ s.connectors) ⟨a', m', by simp, hch⟩]
      split <;> rfl
    · rename_i hch
      rw [ih hw]
      have hiff : (∃ a m, (a, m) ∈ (a', m') :: ms ∧ ch m = true ∧ m.layer ∈ s.connectors) ↔
          ∃ a m, (a, m) ∈ ms ∧ ch m = true ∧ m.layer ∈ s.connectors := by
        constructor
        · rintro ⟨a, m, hm, h2⟩
          rcases List.mem_cons.mp hm with hm | hm
          · cases hm; exact absurd h2 hch
          · exact ⟨a, m, hm, h2⟩
        · rintro ⟨a, m, hm, h2⟩
          exact ⟨a, m, List.mem_cons_of_mem _ hm, h2⟩
      simp only [hiff]

theorem sendAll_results (ch p) (s : State) (r ms) : (sendAll ch p s r ms).1.results = s.results := by
  induction ms generalizing s r with
  | nil => rfl
  | cons x ms ih =>
    obtain ⟨a, m⟩ := x
    unfold sendAll
    have hsend : (s.send a p).results = s.results := by
      unfold State.send; split <;> rfl
    split
    · split
      · rfl
      · rw [ih, hsend]
    · exact ih s r

theorem named_iff {clas s n} (ht : Tables s) (hb : Basic clas s) (hn : n ∈ s.created) (a : Addr) :
    (∃ m, (a, m) ∈ s.modules ∧ decide (m.name = n) = true ∧ m.layer ∈ s.connectors) ↔ ActiveAs s a n := by
  constructor
  · rintro ⟨m, hm, hname, -⟩
    have hm := ht.wf.get?_of_mem hm
    have hname : m.name = n := by simpa using hname
    refine ⟨m, hm, ?_, hname⟩
    cases hact : m.active with
    | true => rfl
    | false =>
      have h0 := ht.nameless a m hm hact
      exact absurd (hname.symm.trans h0) (hb.made n hn).1
  · rintro ⟨m, hm, hact, rfl⟩
    exact ⟨m, AList.mem_of_get? hm, by simp, by rw [ht.layer a m hm]; exact ht.conn a m hm hact⟩

theorem waiting_congr {s t : State} (h : t.conns = s.conns) (c) : waiting t c = waiting s c := by
  simp [waiting, h]

theorem close_conns {s : State} {c a d b} (h : AList.get? s.peers a = some (d, b)) (hs : (s.close c a).poisoned = false)
    : (s.close c a).conns = s.conns := by
  unfold State.close at hs ⊢
  rw [h] at hs ⊢
  cases b with
  | true => rfl
  | false => cases hs

end Dtn.Ecla
