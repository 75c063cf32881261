import Verif.Lemmas.ConnectNEnd
/-! Lemmas about the program that connects N nodes: announcements, progress and waiting. -/

namespace Dtn.ConnectN
open ModuleClient (EclaPacket)
open Spec.ConnectNSpec

/-! ## Announcements -/

/-- Announcements at node `j` are known, or of another node. -/
def Hears (x : Ext) (n : Net) (Q : Nat → EID × String → Prop) : Prop :=
  ∀ (j : Nat) s, n.sites[j]? = some s → ∀ e ∈ s.node.encounters, Q j e ∨ ∃ i, i < n.sites.length ∧ (n.sites.length ≤ 2 ^ 64 → i ≠ j) ∧ e = (x.host i, toString i)

theorem Hears.set {x : Ext} {n : Net} {Q : Nat → EID × String → Prop} (h : Hears x n Q) {i : Nat} {s s' : Site} {rx} (hi : n.sites[i]? = some s)
    (h1 : ∀ e ∈ s'.node.encounters, e ∈ s.node.encounters ∨ Q i e ∨ ∃ k, k < n.sites.length ∧ (n.sites.length ≤ 2 ^ 64 → k ≠ i) ∧ e = (x.host k, toString k)) :
    Hears x { rx, sites := n.sites.set i s' } Q := by
  intro j t hj e he
  simp only [get_set hi] at hj
  simp only [List.length_set]
  split at hj
  · rename_i hji
    cases hj; subst hji
    exact (h1 e he).elim (h j s hi e) id
  · exact h j t hj e he

theorem Hears.step {x : Ext} {n m : Net} {e : Ev} {Q : Nat → EID × String → Prop} (I : NetInv x false n) (P : Hears x n Q) (h : n.step x e = some m)
    (hq : ∀ j c eid addr, e = .node j (.packet c (.beacon eid addr .fine)) → Q j (eid, addr)) : Hears x m Q := by
  cases e with
  | node i e =>
    simp only [Net.step] at h
    split at h
    · cases h
    · rename_i s hi
      have key : ∀ u, Ecla.step s.node e = some u → Hears x { n with sites := n.sites.set i { s with node := u } } Q := by
        intro u hu
        refine P.set hi fun a ha => ?_
        dsimp only at ha
        rcases Ecla.inputs_step hu with ⟨-, g⟩ | ⟨c, q, k, rfl, -, ⟨b, -, -, g⟩ | ⟨eid, addr, rfl, -, g⟩⟩
        · rw [g] at ha; exact .inl ha
        · rw [g] at ha; exact .inl ha
        · rw [g, List.mem_append, List.mem_singleton] at ha
          rcases ha with ha | rfl
          · exact .inl ha
          · exact .inr (.inl (hq i c eid addr rfl))
      split at h
      · split at h
        · cases h
        · simp only [Option.map_eq_some_iff] at h
          obtain ⟨u, hu, rfl⟩ := h
          exact key u hu
      · simp only [Option.map_eq_some_iff] at h
        obtain ⟨u, hu, rfl⟩ := h
        exact key u hu
  | connect i ok =>
    simp only [Net.step] at h
    split at h
    · cases h
    · rename_i s hi
      split at h
      · split at h
        · cases h; exact P.set hi fun a ha => .inl ha
        · simp only [Option.map_eq_some_iff] at h
          obtain ⟨u, hu, rfl⟩ := h
          cases hu
          exact P.set hi fun a ha => .inl ha
        · cases h
      · cases h
  | client i e =>
    simp only [Net.step] at h
    split at h
    · cases h
    · rename_i s hi
      split at h
      · simp only [Option.map_eq_some_iff] at h
        obtain ⟨u, hu, rfl⟩ := h
        exact P.set hi fun a ha => .inl ha
      · cases h
  | down i block =>
    simp only [Net.step] at h
    split at h
    · cases h
    · rename_i s hi
      split at h
      · cases h
      · simp only [Option.bind_eq_some_iff] at h
        obtain ⟨u, hu, h⟩ := h
        split at h
        · cases h; exact P.set hi fun a ha => .inl ha
        · split at h
          · cases h; exact P.set hi fun a ha => .inl ha
          · cases h
  | up i =>
    simp only [Net.step] at h
    split at h
    · cases h
    · rename_i s hi
      split at h
      · rename_i c p hl hp
        simp only [Option.map_eq_some_iff] at h
        obtain ⟨u, hu, rfl⟩ := h
        refine P.set hi fun a ha => ?_
        dsimp only at ha
        rcases Ecla.inputs_step hu with ⟨-, g⟩ | ⟨c, q, k, hq', -, ⟨b, -, -, g⟩ | ⟨eid, addr, rfl, -, g⟩⟩
        · rw [g] at ha; exact .inl ha
        · rw [g] at ha; exact .inl ha
        · rw [g, List.mem_append, List.mem_singleton] at ha
          rcases ha with ha | rfl
          · exact .inl ha
          · right; right
            have hmem : p ∈ s.held := List.mem_append_left _ ((put_sublist s).subset (List.mem_of_getElem? hp))
            simp only [Ecla.Ev.packet.injEq] at hq'
            cases p with
            | beacon e' a' blk =>
              simp only [read, Ecla.Packet.beacon.injEq] at hq'
              obtain ⟨-, rfl, rfl, -⟩ := hq'
              rcases I.held i s hi _ hmem with g | ⟨k, hk, hm, hd⟩
              · cases g
              · exact ⟨k, hk, hd, by rw [hm.1, hm.2]⟩
            | _ => simp [read] at hq'
      · cases h
  | pump i =>
    simp only [Net.step] at h
    split at h
    · cases h
    · rename_i s hi
      split at h
      · cases h
      · split at h
        · cases h; exact P.set hi fun a ha => .inl ha
        · simp only [Option.map_eq_some_iff] at h
          obtain ⟨u, hu, rfl⟩ := h
          exact P.set hi fun a ha => .inl ha
  | route =>
    simp only [Net.step, Net.route] at h
    split at h
    · cases h
    · split at h
      · cases h; exact P
      · split at h
        · cases h; exact P
        · rename_i s hi
          split at h
          · cases h; exact P.set hi fun a ha => .inl ha
          · cases h
    · cases h
      intro j t hj a ha
      simp only [spread, List.getElem?_mapIdx, Option.map_eq_some_iff] at hj
      simp only [spread, List.length_mapIdx]
      obtain ⟨s, hs, rfl⟩ := hj
      refine P j s hs a ?_
      split at ha
      · exact ha
      · split at ha <;> exact ha
    · cases h; exact P

theorem Hears.run {x : Ext} {n m : Net} {evs : List Ev} {Q : Nat → EID × String → Prop} (I : NetInv x false n) (P : Hears x n Q) (h : n.run x evs = some m)
    (hq : ∀ j c eid addr, .node j (.packet c (.beacon eid addr .fine)) ∈ evs → Q j (eid, addr)) : Hears x m Q := by
  induction evs generalizing n with
  | nil => cases h; exact P
  | cons e evs ih =>
    simp only [Net.run, Option.bind_eq_some_iff] at h
    obtain ⟨n', h1, h2⟩ := h
    exact ih (I.step (by simp) h1) (P.step I h1 fun j c eid addr he => hq j c eid addr (by simp [he])) h2
      fun j c eid addr he => hq j c eid addr (List.mem_cons_of_mem _ he)

theorem run_inv_uncrowded {x : Ext} {n m : Net} {evs : List Ev} (I : NetInv x true n) (hu : Uncrowded x n evs) (h : n.run x evs = some m) : NetInv x true m := by
  induction evs generalizing n with
  | nil => cases h; exact I
  | cons e evs ih =>
    simp only [Net.run, Option.bind_eq_some_iff] at h
    obtain ⟨n', h1, h2⟩ := h
    exact ih (I.step (fun _ => hu.1) h1) (hu.2 n' h1) h2

/-- Is it an announcement of node `i`? -/
def beaconOf (i : Nat) : EclaPacket → Bool
  | .beacon _ addr _ => decide (addr = toString i)
  | _ => false

theorem countP_goes {i j : Nat} (hij : i ≠ j) (l : List EclaPacket) : (l.filter (goes true i j)).countP (beaconOf i) = l.countP (beaconOf i) := by
  rw [List.countP_filter]
  apply List.countP_congr
  intro p _
  cases p <;> simp [beaconOf, goes, hij]

theorem beacons_passed {x : Ext} {i : Nat} {P : List EclaPacket} {W : List Ecla.Out} (hm : ∀ p ∈ P, Mine x i p)
    (h : P.filterMap shape = W.filterMap (shapeOut x)) : P.countP (beaconOf i) = beacons W := by
  have h1 : P.countP (beaconOf i) = (P.filterMap shape).countP fun o => decide (o = none) := by
    clear h
    induction P with
    | nil => rfl
    | cons p P ih =>
      have ih := ih fun q hq => hm q (by simp [hq])
      have hp := hm p (by simp)
      rw [List.countP_cons, ih, List.filterMap_cons]
      cases p with
      | beacon eid addr block => simp [beaconOf, shape, hp.2]
      | data src dst bid bytes => simp [beaconOf, shape]
      | _ => simp [beaconOf, shape]
  have h2 : beacons W = (W.filterMap (shapeOut x)).countP fun o => decide (o = none) := by
    clear h
    unfold beacons
    induction W with
    | nil => rfl
    | cons o W ih =>
      rw [List.countP_cons, ih, List.filterMap_cons]
      cases o <;> simp [shapeOut]
  rw [h1, h2, h]

theorem NetInv.beacons {x : Ext} {n : Net} (I : NetInv x true n) {i j : Nat} {si sj : Site} {begun : Bool} (hi : n.sites[i]? = some si) (hj : n.sites[j]? = some sj)
    (hij : i ≠ j) (hc : Clean begun sj) (hg : ¬ sj.gone) (hrx : n.rx = []) (hin : sj.inbox = []) (hq : sj.client.queue = [])
    (hd : si.down = (outgoing n i).length) : announced n i j = Spec.ConnectNSpec.beacons (outgoing n i) := by
  have h1 := (I.flow i j si sj hi hj).resolve_left hg
  rw [hrx, List.filter_nil, List.append_nil] at h1
  have h2 := congrArg (List.countP (beaconOf i)) h1
  rw [countP_goes hij, countP_goes hij] at h2
  have h3 : announced n i j = sj.held.countP (beaconOf i) := by
    have : sj.held = sj.put := by simp [Site.held, drawn, hin, hq, put_clean hc]
    rw [this]
    simp only [announced, hj, Option.map_some, Option.getD_some]
    rfl
  have S := I.site i si hi
  rw [h3, ← h2]
  cases hl : si.link with
  | none =>
    rw [(S.link hl).2.2.1]
    simp [outgoing, hi, hl, Spec.ConnectNSpec.beacons]
  | some c =>
    obtain ⟨m, p, w, g1, g2, g3, -⟩ := S.node c hl
    have ho : outgoing n i = w := by simp [outgoing, hi, hl, written_see g1]
    rw [ho] at hd ⊢
    rw [beacons_passed S.mine g3, hd, List.take_length]

/-! ## Progress -/

theorem SiteInv.registered {x : Ext} {i : Nat} {s : Site} (S : SiteInv x i s) (hr : Registered s) : ∃ c, s.client.holder = .writer c := by
  obtain ⟨c, a, r1, r2, m, r3, r4, -⟩ := hr
  obtain ⟨m', p, w, q1, -, -, -, -, q6⟩ := S.node c r1
  unfold Spec.Ecla.Connected at r2
  simp only [Option.map_eq_some_iff, Prod.mk.injEq] at r2
  obtain ⟨k, k1, k2, k3⟩ := r2
  rw [Ecla.see_some k1, k2, k3] at q1
  simp only [Option.some.injEq, Prod.mk.injEq] at q1
  obtain ⟨rfl, rfl, rfl⟩ := q1
  obtain ⟨k', k4, k5⟩ := q6 rfl
  rw [r3] at k4; cases k4
  cases hh : s.client.holder with
  | writer c => exact ⟨c, rfl⟩
  | nobody => exact absurd hh S.held
  | client =>
    rcases k5 with ⟨-, ⟨p, hp, -⟩, -⟩ | ⟨k5, -⟩
    · have : s.put = [] := by simp [Site.put, S.fresh hh]
      simp [this] at hp
    · rw [r4] at k5; cases k5

/-- Events in which the program works. -/
def works : Ev → Bool
  | .client _ (.write true) | .pump _ | .route => true
  | _ => false

theorem run_append {x : Ext} (n : Net) (e f : List Ev) : n.run x (e ++ f) = (n.run x e).bind fun m => m.run x f := by
  induction e generalizing n with
  | nil => rfl
  | cons a e ih =>
    simp only [List.cons_append, Net.run]
    cases h : n.step x a with
    | none => rfl
    | some m => exact ih m

/-- All commands of client `i` can be written. -/
theorem flush_queue {x : Ext} (n : Net) (i : Nat) (s : Site) (hi : n.sites[i]? = some s) (c : Nat) (hh : s.client.holder = .writer c)
    (ho : ∀ q ∈ s.client.queue, q ≠ .close) : ∃ evs s', (∀ e ∈ evs, works e = true) ∧ n.run x evs = some { n with sites := n.sites.set i s' } ∧
      s'.client.queue = [] ∧ s'.client.holder = .writer c ∧ s'.inbox = s.inbox := by
  generalize hq : s.client.queue = q
  induction q generalizing n s with
  | nil =>
    refine ⟨[], s, by simp, ?_, hq, hh, rfl⟩
    simp only [Net.run, Option.some.injEq]
    have : n.sites.set i s = n.sites := by
      apply List.ext_getElem?
      intro k
      rw [get_set hi]
      split
      · rename_i hk; rw [hk, hi]
      · rfl
    rw [this]
  | cons a q ih =>
    cases a with
    | close => exact absurd rfl (ho .close (by rw [hq]; simp))
    | send p =>
      have hs : n.step x (.client i (.write true)) = some { n with sites := n.sites.set i { s with client := { s.client with queue := q, taken := s.client.taken ++ [(c, p, true)] } } } := by
        simp [Net.step, hi, alone, ModuleClient.step, hh, hq]
      obtain ⟨evs, s', h1, h2, h3, h4, h5⟩ := ih { n with sites := n.sites.set i { s with client := { s.client with queue := q, taken := s.client.taken ++ [(c, p, true)] } } }
        { s with client := { s.client with queue := q, taken := s.client.taken ++ [(c, p, true)] } } (by simp [get_set hi]) hh
        (fun r hr => ho r (by rw [hq]; exact List.mem_cons_of_mem _ hr)) rfl
      refine ⟨.client i (.write true) :: evs, s', ?_, ?_, h3, h4, h5⟩
      · intro e he
        rcases List.mem_cons.mp he with rfl | he
        · rfl
        · exact h1 e he
      · simp only [Net.run, hs, Option.bind_some, h2, List.set_set]

/-- All that is there for client `i` can be written. -/
theorem flush_site {x : Ext} (n : Net) (i : Nat) (s : Site) (hi : n.sites[i]? = some s) (c : Nat) (hh : s.client.holder = .writer c)
    (ho : ∀ q ∈ s.client.queue, q ≠ .close) : ∃ evs s', (∀ e ∈ evs, works e = true) ∧ n.run x evs = some { n with sites := n.sites.set i s' } ∧
      s'.client.queue = [] ∧ s'.client.holder = .writer c ∧ s'.inbox = [] := by
  generalize hq : s.inbox = q
  induction q generalizing n s with
  | nil =>
    obtain ⟨evs, s', h1, h2, h3, h4, h5⟩ := flush_queue (x := x) n i s hi c hh ho
    exact ⟨evs, s', h1, h2, h3, h4, h5.trans hq⟩
  | cons p q ih =>
    obtain ⟨evs, s', h1, h2, h3, h4, h5⟩ := flush_queue (x := x) n i s hi c hh ho
    have hs : Net.step x { n with sites := n.sites.set i s' } (.pump i) =
        some { n with sites := n.sites.set i { s' with client := { s'.client with queue := [.send p] }, inbox := q } } := by
      simp [Net.step, get_set hi, h5, hq, ModuleClient.step, h4, h3, ModuleClient.capacity]
    obtain ⟨evs', s'', g1, g2, g3, g4, g5⟩ := ih { n with sites := n.sites.set i { s' with client := { s'.client with queue := [.send p] }, inbox := q } }
      { s' with client := { s'.client with queue := [.send p] }, inbox := q } (by simp [get_set hi]) h4 (by simp) rfl
    refine ⟨evs ++ .pump i :: evs', s'', ?_, ?_, g3, g4, g5⟩
    · intro e he
      rcases List.mem_append.mp he with he | he
      · exact h1 e he
      · rcases List.mem_cons.mp he with rfl | he
        · rfl
        · exact g1 e he
    · simp only [run_append, h2, Option.bind_some, Net.run, hs, g2, List.set_set]

/-- Client `i` is writing, or will never connect. -/
def Writes (s : Site) : Prop := ((∃ c, s.client.holder = .writer c) ∧ ∀ q ∈ s.client.queue, q ≠ .close) ∨ s.gone

/-- All that is there for a client that never connects can be dropped. -/
theorem flush_gone {x : Ext} (n : Net) (i : Nat) (s : Site) (hi : n.sites[i]? = some s) (hg : s.gone) :
    ∃ evs s', (∀ e ∈ evs, works e = true) ∧ n.run x evs = some { n with sites := n.sites.set i s' } ∧ s'.gone ∧ s'.inbox = [] := by
  generalize hq : s.inbox = q
  induction q generalizing n s with
  | nil =>
    refine ⟨[], s, by simp, ?_, hg, hq⟩
    simp only [Net.run, Option.some.injEq]
    have : n.sites.set i s = n.sites := by
      apply List.ext_getElem?
      intro k
      rw [get_set hi]
      split
      · rename_i hk; rw [hk, hi]
      · rfl
    rw [this]
  | cons p q ih =>
    have hs : n.step x (.pump i) = some { n with sites := n.sites.set i { s with inbox := q } } := by
      simp only [Net.step, hi, hq]
      exact if_pos hg
    obtain ⟨evs, s', h1, h2, h3, h4⟩ := ih { n with sites := n.sites.set i { s with inbox := q } } { s with inbox := q } (by simp [get_set hi]) hg rfl
    refine ⟨.pump i :: evs, s', ?_, ?_, h3, h4⟩
    · intro e he
      rcases List.mem_cons.mp he with rfl | he
      · rfl
      · exact h1 e he
    · simp only [Net.run, hs, Option.bind_some, h2, List.set_set]

/-- Nothing is there for the clients with a number below `k`. -/
theorem flush_sites {x : Ext} (n : Net) (h : ∀ s ∈ n.sites, Writes s) (k : Nat) (hk : k ≤ n.sites.length) :
    ∃ evs m, (∀ e ∈ evs, works e = true) ∧ n.run x evs = some m ∧ m.rx = n.rx ∧ m.sites.length = n.sites.length ∧ (∀ s ∈ m.sites, Writes s) ∧
      ∀ (i : Nat) s, i < k → m.sites[i]? = some s → s.inbox = [] ∧ (s.client.queue = [] ∨ s.gone) := by
  induction k with
  | zero => exact ⟨[], n, by simp, rfl, rfl, rfl, h, fun i s hi => absurd hi (Nat.not_lt_zero _)⟩
  | succ k ih =>
    obtain ⟨evs, m, h1, h2, h3, h4, h5, h6⟩ := ih (by omega)
    have hlt : k < m.sites.length := by omega
    have hi : m.sites[k]? = some m.sites[k] := List.getElem?_eq_getElem hlt
    have one : ∃ evs s', (∀ e ∈ evs, works e = true) ∧ m.run x evs = some { m with sites := m.sites.set k s' } ∧ Writes s' ∧ s'.inbox = [] ∧ (s'.client.queue = [] ∨ s'.gone) := by
      rcases h5 _ (List.mem_of_getElem? hi) with ⟨⟨c, hc⟩, ho⟩ | hg
      · obtain ⟨evs', s', g1, g2, g3, g4, g5⟩ := flush_site (x := x) m k _ hi c hc ho
        exact ⟨evs', s', g1, g2, .inl ⟨⟨c, g4⟩, by rw [g3]; simp⟩, g5, .inl g3⟩
      · obtain ⟨evs', s', g1, g2, g3, g4⟩ := flush_gone (x := x) m k _ hi hg
        exact ⟨evs', s', g1, g2, .inr g3, g4, .inr g3⟩
    obtain ⟨evs', s', g1, g2, g3, g4, g5⟩ := one
    refine ⟨evs ++ evs', { m with sites := m.sites.set k s' }, ?_, by simp [run_append, h2, g2], h3, by simp [h4], ?_, ?_⟩
    · intro e he
      rcases List.mem_append.mp he with he | he
      · exact h1 e he
      · exact g1 e he
    · intro s hs
      rcases List.mem_or_eq_of_mem_set hs with hs | rfl
      · exact h5 s hs
      · exact g3
    · intro i s hik hs
      simp only [get_set hi] at hs
      split at hs
      · cases hs; exact ⟨g4, g5⟩
      · exact h6 i s (by omega) hs

theorem drains {x : Ext} (n : Net) (h : ∀ s ∈ n.sites, Writes s) :
    ∃ evs m, (∀ e ∈ evs, works e = true) ∧ n.run x evs = some m ∧ m.rx = [] ∧ m.sites.length = n.sites.length ∧ ∀ s ∈ m.sites, s.inbox = [] ∧ (s.client.queue = [] ∨ s.gone) := by
  generalize hr : n.rx = r
  induction r generalizing n with
  | nil =>
    obtain ⟨evs, m, h1, h2, h3, h4, -, h6⟩ := flush_sites (x := x) n h _ (Nat.le_refl _)
    refine ⟨evs, m, h1, h2, h3.trans hr, h4, fun s hs => ?_⟩
    obtain ⟨i, hi, rfl⟩ := List.mem_iff_getElem.mp hs
    exact h6 i _ (by omega) (List.getElem?_eq_getElem hi)
  | cons p r ih =>
    obtain ⟨evs, m, h1, h2, h3, h4, h5, h6⟩ := flush_sites (x := x) n h _ (Nat.le_refl _)
    have hempty : ∀ s ∈ m.sites, s.inbox = [] ∧ (s.client.queue = [] ∨ s.gone) := by
      intro s hs
      obtain ⟨i, hi, rfl⟩ := List.mem_iff_getElem.mp hs
      exact h6 i _ (by omega) (List.getElem?_eq_getElem hi)
    have hstep : ∃ m', m.step x .route = some m' ∧ m'.rx = r ∧ m'.sites.length = m.sites.length ∧ ∀ s ∈ m'.sites, Writes s := by
      simp only [Net.step, Net.route, h3, hr]
      have wr : ∀ s : Site, ∀ i, Writes s → Writes { s with inbox := i } := fun s i hw => hw
      cases p with
      | data src dst bid bytes =>
        simp only
        cases target dst with
        | none => exact ⟨_, rfl, rfl, rfl, h5⟩
        | some id =>
          simp only
          cases hi : m.sites[id]? with
          | none => exact ⟨_, rfl, rfl, rfl, h5⟩
          | some s =>
            have hs := List.mem_of_getElem? hi
            simp only [(hempty s hs).1, List.length_nil, if_pos (show 0 < capacity by decide)]
            refine ⟨_, rfl, rfl, by simp, fun t ht => ?_⟩
            rcases List.mem_or_eq_of_mem_set ht with ht | rfl
            · exact h5 t ht
            · exact wr s _ (h5 s hs)
      | beacon eid addr block =>
        refine ⟨_, rfl, rfl, by simp [spread], fun t ht => ?_⟩
        simp only [spread, List.mem_mapIdx] at ht
        obtain ⟨i, hi, rfl⟩ := ht
        have := h5 _ (List.getElem_mem hi)
        split
        · exact this
        · split
          · exact wr _ _ this
          · exact this
      | _ => exact ⟨_, rfl, rfl, rfl, h5⟩
    obtain ⟨m', k1, k2, k3, k4⟩ := hstep
    obtain ⟨evs', m'', g1, g2, g3, g4, g5⟩ := ih m' k4 k2
    refine ⟨evs ++ .route :: evs', m'', ?_, ?_, g3, by omega, g5⟩
    · intro e he
      rcases List.mem_append.mp he with he | he
      · exact h1 e he
      · rcases List.mem_cons.mp he with rfl | he
        · rfl
        · exact g1 e he
    · simp only [run_append, h2, Option.bind_some, Net.run, k1, g2]

end Dtn.ConnectN
