import Verif.Lemmas.Announcer
import Verif.Props.Discovery
/-! Properties C54, C60, C80, C81 and C82: discovery destinations and announcements. -/

namespace Dtn.Props
open Announcer Spec.Announcer
open Discovery (Outcome F32 buildService Beacon writeBeacon fromSlice receive Rx)

variable {A : Type} [DecidableEq A]

/-- Four addresses for the examples. -/
def exNet : Net (Fin 4) where
  parse s :=
    if s = "224.0.0.26:3003" then some 0
    else if s = "[FF02::1]:3003" || s = "[ff02::1]:3003" then some 1
    else if s = "10.0.0.1:3003" then some 2
    else if s = "10.0.0.1:4000" then some 3
    else none
  print := fun
    | 0 => "224.0.0.26:3003"
    | 1 => "[ff02::1]:3003"
    | 2 => "10.0.0.1:3003"
    | 3 => "10.0.0.1:4000"
  isV4 a := a ≠ 1

theorem exNet_std : Std exNet where
  parse_print := by decide
  v4 := ⟨0, by decide⟩
  v6 := ⟨1, by decide⟩

/-! ## C60 -/

omit [DecidableEq A] in
/-- C60, missing: see below. An address of an enabled family, with or without port, becomes a destination in printed form
with sequence number zero; the other destinations stay. -/
theorem C60_added_partial (net : Net A) (cfg : Config) (s : String) (a : A) (hm : Means net s a)
    (he : Enabled net cfg a) :
    ∃ cfg', cfg.addDestination net s = .ok cfg' ∧ AList.get? cfg'.dests (net.print a) = some 0 ∧
      ∀ k, k ≠ net.print a → AList.get? cfg'.dests k = AList.get? cfg.dests k := by
  have hst : cfg.store net a = { cfg with dests := AList.insert cfg.dests (net.print a) 0 } := by
    unfold Config.store
    rcases he with ⟨h1, h2⟩ | ⟨h1, h2⟩ <;> simp [h1, h2]
  refine ⟨cfg.store net a, ?_, ?_, ?_⟩
  · unfold Config.addDestination
    rcases hm with h | ⟨h1, h2⟩
    · rw [h]
    · rw [h1, h2]
  · rw [hst]; exact AList.get?_insert_self _ _ _
  · intro k hk
    rw [hst]; exact AList.get?_insert_of_ne _ _ hk

example : Means exNet "10.0.0.1" 2 ∧ Enabled exNet { host := .none } 2 ∧ Means exNet "10.0.0.1:4000" 3 := by
  refine ⟨.inr (by decide), .inl (by decide), .inl (by decide)⟩

omit [DecidableEq A] in
/-- C60: an address of a disabled family does not become a destination. -/
theorem C60_disabled_family (net : Net A) (cfg : Config) (s : String) (a : A) (hm : Means net s a)
    (he : ¬Enabled net cfg a) : cfg.addDestination net s = .ok cfg := by
  have hst : cfg.store net a = cfg := by
    unfold Config.store
    unfold Enabled at he
    cases h1 : net.isV4 a <;> simp only [h1] at he ⊢
    · cases h2 : cfg.v6
      · rfl
      · exact absurd (.inr ⟨trivial, h2⟩) he
    · cases h2 : cfg.v4
      · rfl
      · exact absurd (.inl ⟨trivial, h2⟩) he
  unfold Config.addDestination
  rcases hm with h | ⟨h1, h2⟩
  · rw [h]; exact congrArg _ hst
  · rw [h1, h2]; exact congrArg _ hst

example : Means exNet "[FF02::1]:3003" 1 ∧ ¬Enabled exNet { host := .none } 1 :=
  ⟨.inl (by decide), by simp [Enabled, exNet]⟩

omit [DecidableEq A] in
/-- C60: however many destinations are added, all of them are stored in printed form, belong to an enabled family and
have sequence number zero. -/
theorem C60_normalised (net : Net A) (cfg cfg' : Config) (l : List String) (h0 : cfg.dests = [])
    (h : cfg.addAll net l = .ok cfg') :
    AList.WF cfg'.dests ∧ cfg'.v4 = cfg.v4 ∧ cfg'.v6 = cfg.v6 ∧
    ∀ k n, (k, n) ∈ cfg'.dests → n = 0 ∧ ∃ a, net.print a = k ∧ Enabled net cfg a := by
  have key : ∀ (l : List String) (cur : Config), AList.WF cur.dests → cur.v4 = cfg.v4 → cur.v6 = cfg.v6 →
      (∀ k n, (k, n) ∈ cur.dests → n = 0 ∧ ∃ a, net.print a = k ∧ Enabled net cfg a) →
      cur.addAll net l = .ok cfg' →
      AList.WF cfg'.dests ∧ cfg'.v4 = cfg.v4 ∧ cfg'.v6 = cfg.v6 ∧
      ∀ k n, (k, n) ∈ cfg'.dests → n = 0 ∧ ∃ a, net.print a = k ∧ Enabled net cfg a := by
    intro l
    induction l with
    | nil =>
      intro cur h1 h2 h3 h4 h5
      cases h5
      exact ⟨h1, h2, h3, h4⟩
    | cons s l ih =>
      intro cur h1 h2 h3 h4 h5
      have hstore : ∀ a, AList.WF (cur.store net a).dests ∧ (cur.store net a).v4 = cfg.v4 ∧ (cur.store net a).v6 = cfg.v6 ∧
          ∀ k n, (k, n) ∈ (cur.store net a).dests → n = 0 ∧ ∃ a, net.print a = k ∧ Enabled net cfg a := by
        intro a
        have hins : Enabled net cfg a → ∀ k n, (k, n) ∈ AList.insert cur.dests (net.print a) 0 →
            n = 0 ∧ ∃ a, net.print a = k ∧ Enabled net cfg a := by
          intro he k n hk
          rcases mem_insert hk with ⟨e1, e2⟩ | ⟨_, hk⟩
          · exact ⟨e2, a, e1.symm, he⟩
          · exact h4 k n hk
        unfold Config.store
        cases hf : net.isV4 a with
        | true =>
          rw [if_pos rfl]
          cases hv : cur.v4 with
          | true =>
            rw [if_pos rfl]
            exact ⟨h1.insert _ _, hv.symm.trans h2, h3, hins (.inl ⟨hf, by rw [← h2, hv]⟩)⟩
          | false => exact ⟨h1, h2, h3, h4⟩
        | false =>
          rw [if_neg (by decide)]
          cases hv : cur.v6 with
          | true =>
            rw [if_pos rfl]
            exact ⟨h1.insert _ _, h2, hv.symm.trans h3, hins (.inr ⟨hf, by rw [← h3, hv]⟩)⟩
          | false => exact ⟨h1, h2, h3, h4⟩
      unfold Config.addAll at h5
      cases hadd : cur.addDestination net s with
      | err => rw [hadd] at h5; cases h5
      | panic => rw [hadd] at h5; cases h5
      | ok c =>
        rw [hadd] at h5
        have : ∃ a, c = cur.store net a := by
          unfold Config.addDestination at hadd
          split at hadd
          · exact ⟨_, (Outcome.ok.inj hadd).symm⟩
          · split at hadd
            · exact ⟨_, (Outcome.ok.inj hadd).symm⟩
            · cases hadd
        obtain ⟨a, rfl⟩ := this
        obtain ⟨g1, g2, g3, g4⟩ := hstore a
        exact ih _ g1 g2 g3 g4 h5
  exact key l cfg (by rw [h0]; simp [AList.WF, AList.keys]) rfl rfl (by rw [h0]; simp) h

example : (Config.addAll exNet { host := .none } ["10.0.0.1", "10.0.0.1:4000", "[FF02::1]:3003"]) =
    .ok { host := .none, dests := [("10.0.0.1:4000", 0), ("10.0.0.1:3003", 0)] } := by decide +kernel

/-- C60: configured destinations stay; if there are none, each enabled family gets its default; if no family is enabled
this is an error. After a successful check there always is a destination. -/
theorem C60_defaults (cfg : Config) :
    (cfg.dests ≠ [] → cfg.checkDestinations = .ok cfg) ∧
    (cfg.dests = [] → (cfg.v4 = true ∨ cfg.v6 = true) → ∃ cfg', cfg.checkDestinations = .ok cfg' ∧ cfg'.dests ≠ [] ∧
      ∀ k n, (k, n) ∈ cfg'.dests ↔ n = 0 ∧ ((cfg.v4 = true ∧ k = "224.0.0.26:3003") ∨ (cfg.v6 = true ∧ k = "[FF02::1]:3003"))) ∧
    (cfg.dests = [] → cfg.v4 = false → cfg.v6 = false → cfg.checkDestinations = .err) := by
  refine ⟨?_, ?_, ?_⟩
  · intro h
    unfold Config.checkDestinations
    cases hd : cfg.dests with
    | nil => exact absurd hd h
    | cons _ _ => rfl
  · intro h hv
    unfold Config.checkDestinations
    rw [h]
    cases h4 : cfg.v4 <;> cases h6 : cfg.v6
    · simp [h4, h6] at hv
    all_goals
      refine ⟨_, rfl, by simp [AList.insert], ?_⟩
      intro k n
      simp [AList.insert, AList.erase]
    all_goals constructor
    all_goals rintro h
    all_goals first | exact ⟨h.2, h.1⟩ | skip
    · rcases h with ⟨h1, h2⟩ | ⟨h1, h2⟩
      · exact ⟨h2, .inr h1⟩
      · exact ⟨h2, .inl h1⟩
    · rcases h with ⟨h1, h2 | h2⟩
      · exact .inr ⟨h2, h1⟩
      · exact .inl ⟨h2, h1⟩
  · intro h h4 h6
    unfold Config.checkDestinations
    rw [h, h4, h6]
    rfl

example : ({ host := .none, v6 := true } : Config).checkDestinations =
    .ok { host := .none, v6 := true, dests := [("[FF02::1]:3003", 0), ("224.0.0.26:3003", 0)] } := by decide +kernel

omit [DecidableEq A] in
/-- C60 fails: a text that is no address panics instead of being rejected. In particular this holds for every IPv6 address
given without port and brackets, because `:3003` is appended without brackets. -/
theorem C60_unparsable_violated (net : Net A) (cfg : Config) (s : String) (h : ∀ a, ¬Means net s a) :
    cfg.addDestination net s = .panic := by
  unfold Config.addDestination
  cases h1 : net.parse s with
  | some a => exact absurd (.inl h1) (h a)
  | none =>
    dsimp only
    cases h2 : net.parse (s ++ ":3003") with
    | some a => exact absurd (.inr ⟨h1, h2⟩) (h a)
    | none => rfl

example : ∀ a, ¬Means exNet "ff02::1" a := by
  rintro a (h | ⟨_, h⟩)
  · exact absurd h (by revert a; decide)
  · exact absurd h (by revert a; decide)

/-! ## C54 -/

theorem counts_start (net : Net A) (cfg : Config) (clas : List (String × Nat)) (a : A) (c : Nat)
    (hone : cfg.v4 = false ∨ cfg.v6 = false) (hw : AList.WF cfg.dests)
    (hcan : ∀ k n, (k, n) ∈ cfg.dests → ∃ b, net.print b = k) (hc : c < 4294967296)
    (hget : AList.get? cfg.dests (net.print a) = some c) : Counts net a c (start cfg clas) := by
  refine ⟨?_, hw, hcan, rfl, ?_, ?_⟩
  · rcases hone with h | h
    · exact .inl (by simp [start, h])
    · exact .inr (by simp [start, h])
  · show AList.get? cfg.dests _ = _
    rw [hget]
    simp [numbers, start, Nat.mod_eq_of_lt hc]
  · intro f n v hf hv
    exfalso
    have : n.pending = [] := by
      cases f
      · simp only [start, St.ann] at hf
        split at hf
        · cases hf; rfl
        · cases hf
      · simp only [start, St.ann] at hf
        split at hf
        · cases hf; rfl
        · cases hf
    rw [this] at hv
    simp [AList.get?] at hv

/-- C54, missing: both address families at once and destinations that are not in printed form (see below). With one
family, the beacons to a destination are numbered consecutively from its initial number on, whatever other destinations
there are and in whatever order they are served. -/
theorem C54_consecutive_partial (net : Net A) (hstd : Std net) (pf : List Char → Option F32) (cfg : Config)
    (clas : List (String × Nat)) (evs : List (Ev A)) (a : A) (c : Nat)
    (hone : cfg.v4 = false ∨ cfg.v6 = false) (hw : AList.WF cfg.dests)
    (hcan : ∀ k n, (k, n) ∈ cfg.dests → ∃ b, net.print b = k) (hc : c < 4294967296)
    (hget : AList.get? cfg.dests (net.print a) = some c) :
    ∃ k, numbers (run net pf (start cfg clas) evs).sent a = consecutive c k :=
  ⟨_, ((counts_start net cfg clas a c hone hw hcan hc hget).run hstd.parse_print evs).nums⟩

/-- C54, for configurations with destinations given by the user: the numbers are 0, 1, 2, … . -/
theorem C54_configured_destinations_partial (net : Net A) (hstd : Std net) (pf : List Char → Option F32) (cfg cfg' : Config)
    (l : List String) (clas : List (String × Nat)) (evs : List (Ev A)) (a : A) (h0 : cfg.dests = [])
    (hadd : cfg.addAll net l = .ok cfg') (hone : cfg.v4 = false ∨ cfg.v6 = false)
    (hmem : net.print a ∈ AList.keys cfg'.dests) :
    ∃ k, numbers (run net pf (start cfg' clas) evs).sent a = consecutive 0 k := by
  obtain ⟨h1, h2, h3, h4⟩ := C60_normalised net cfg cfg' l h0 hadd
  obtain ⟨v, hv⟩ := (AList.mem_keys_iff _ _).mp hmem
  have hv0 := (h4 _ _ (AList.mem_of_get? hv)).1
  rw [hv0] at hv
  refine C54_consecutive_partial net hstd pf cfg' clas evs a 0 (by rw [h2, h3]; exact hone) h1 ?_ (by omega) hv
  intro k n hk
  obtain ⟨_, b, hb, _⟩ := h4 k n hk
  exact ⟨b, hb⟩

/-- A run for the examples: two rounds with two destinations, served in different orders. -/
def exAnnounce : St (Fin 4) :=
  run exNet exF32 (start { host := .dtn "n1" "", dests := [("10.0.0.1:4000", 0), ("224.0.0.26:3003", 4294967295)] }
    [("mtcp", 16162)]) [.round .v4, .serve .v4 3, .serve .v4 0, .round .v4, .serve .v4 0, .serve .v4 3, .round .v4, .serve .v4 3]

example : numbers exAnnounce.sent 3 = consecutive 0 3 ∧ numbers exAnnounce.sent 3 = [0, 1, 2] ∧
    numbers exAnnounce.sent 0 = consecutive 4294967295 2 ∧ numbers exAnnounce.sent 0 = [4294967295, 0] := by decide +kernel

/-- C54: a round that is begun serves every destination. -/
theorem C54_round_serves_all (net : Net A) (pf : List Char → Option F32) (s : St A) (f : Fam) (n : Ann A)
    (hf : s.ann f = some n) (ha : n.alive = true) (hp : n.pending = []) (b : Beacon) (hb : build pf s = some b)
    (hparse : ∀ k n, (k, n) ∈ s.cfg.dests → ∃ a, net.parse k = some a) :
    ∃ n', (step net pf s (.round f)).ann f = some n' ∧ n'.alive = true ∧
      ∀ k v a, (k, v) ∈ s.cfg.dests → net.parse k = some a → ∃ w, AList.get? n'.pending a = some w := by
  obtain ⟨r, hr⟩ := snapshot_some hparse
  refine ⟨{ n with pkt := b, pending := r }, ?_, ha, ?_⟩
  · simp only [step, hf, ha, hp, hb, hr]
    simp
  · intro k v a hk hpk
    exact snapshot_complete hr hk hpk

example : (exAnnounce.ann .v4).map (fun n => (n.pending, n.alive)) = some ([(0, 1)], true) := by decide +kernel

/-- C54 fails for the default IPv6 destination: it is stored in upper case but counted under the printed form in lower
case, so all its beacons carry number zero. -/
theorem C54_default_v6_violated (net : Net A) (hstd : Std net) (pf : List Char → Option F32) (cfg cfg' : Config)
    (h0 : cfg.dests = []) (h6 : cfg.v6 = true) (hcheck : cfg.checkDestinations = .ok cfg')
    (clas : List (String × Nat)) (evs : List (Ev A)) (a : A) (ha : net.parse "[FF02::1]:3003" = some a) :
    ∀ n ∈ numbers (run net pf (start cfg' clas) evs).sent a, n = 0 := by
  obtain ⟨b, hb1, hb2, hb3⟩ := hstd.v6
  rw [ha] at hb1
  cases hb1
  obtain ⟨d, hd, -, hmem⟩ := (C60_defaults cfg).2.1 h0 (.inr h6)
  rw [hcheck] at hd
  cases hd
  have hst : Stuck net a 0 (start cfg' clas : St A) := by
    refine ⟨?_, ?_, by simp [numbers, start]⟩
    · intro k n hk hp
      have := (hmem k n).mp hk
      refine ⟨?_, this.1⟩
      rw [hb3]
      rcases this.2 with ⟨_, h⟩ | ⟨_, h⟩
      · rw [h]; decide
      · rw [h]; decide
    · intro f n v hf hv
      exfalso
      have : n.pending = [] := by
        cases f
        · simp only [start, St.ann] at hf
          split at hf
          · cases hf; rfl
          · cases hf
        · simp only [start, St.ann] at hf
          split at hf
          · cases hf; rfl
          · cases hf
      rw [this] at hv
      simp [AList.get?] at hv
  exact (hst.run hstd.parse_print evs).sent

example : numbers (run exNet exF32 (start { host := .dtn "n1" "", v4 := false, v6 := true, dests := [("[FF02::1]:3003", 0)] } [])
    [.round .v6, .serve .v6 1, .round .v6, .serve .v6 1, .round .v6, .serve .v6 1]).sent 1 = [0, 0, 0] := by decide +kernel

/-- C54 fails with both address families: both tasks count every destination, also those their socket cannot reach. The
beacons that leave the node for an IPv4 destination then skip numbers. -/
theorem C54_two_families_violated (net : Net A) (hstd : Std net) (pf : List Char → Option F32) (a : A)
    (h4 : net.isV4 a = true) (host : EID) :
    ∃ evs : List (Ev A), numbers (accepted net
      (run net pf (start { host, v6 := true, dests := [(net.print a, 0)] } []) evs).sent) a = [0, 2] := by
  refine ⟨[.round .v4, .serve .v4 a, .round .v6, .serve .v6 a, .round .v4, .serve .v4 a], ?_⟩
  have hp := hstd.parse_print a
  simp [run, step, start, St.ann, St.setAnn, build, snapshot, hp, AList.get?, AList.insert, AList.erase, updateBsn, accepted,
    numbers, h4, Beacon.setBsn]

example : Std exNet ∧ exNet.isV4 2 = true := ⟨exNet_std, by decide⟩

/-! ## C80 -/

/-- C80, missing: services outside the documented limits. As long as all registered services are within the limits, a
task never stops announcing. -/
theorem C80_announcing_goes_on_partial (net : Net A) (pf : List Char → Option F32) (s : St A) (evs : List (Ev A)) (f : Fam)
    (n : Ann A) (hf : s.ann f = some n) (ha : n.alive = true)
    (hparse : ∀ k n, (k, n) ∈ s.cfg.dests → ∃ a, net.parse k = some a)
    (hs : ∀ tag text, (tag, text) ∈ s.services → ∃ v, Spec.Discovery.Allowed pf tag text v)
    (hev : ∀ tag text, .service tag text ∈ evs → ∃ v, Spec.Discovery.Allowed pf tag text v) :
    ∃ n', (run net pf s evs).ann f = some n' ∧ n'.alive = true := by
  induction evs generalizing s n with
  | nil => exact ⟨n, hf, ha⟩
  | cons ev evs ih =>
    have hserv : ∀ tag text, (tag, text) ∈ (step net pf s ev).services → ∃ v, Spec.Discovery.Allowed pf tag text v := by
      intro tag text hm
      rw [step_services] at hm
      cases ev with
      | service t p =>
        rcases mem_insert hm with ⟨e1, e2⟩ | ⟨_, hm⟩
        · rw [e1, e2]; exact hev t p (by simp)
        · exact hs tag text hm
      | _ => exact hs tag text hm
    have hev' : ∀ tag text, .service tag text ∈ evs → ∃ v, Spec.Discovery.Allowed pf tag text v :=
      fun tag text hm => hev tag text (by simp [hm])
    have hbuild : ∃ b, build pf s = some b := by
      apply build_some
      intro tag text hm
      obtain ⟨v, hv⟩ := hs tag text hm
      exact C53_allowed_accepted pf tag text v hv
    have goal : ∀ n', (step net pf s ev).ann f = some n' → n'.alive = true →
        (∀ k n, (k, n) ∈ (step net pf s ev).cfg.dests → ∃ a, net.parse k = some a) →
        ∃ n', (run net pf s (ev :: evs)).ann f = some n' ∧ n'.alive = true :=
      fun n' h1 h2 h3 => ih (step net pf s ev) n' h1 h2 h3 hserv hev'
    have hc := step_change net pf s ev
    generalize ht : step net pf s ev = t at hc goal
    cases hc with
    | same h1 h2 h3 => exact goal n (by rw [h3]; exact hf) ha (by rw [h1]; exact hparse)
    | @begin g m pkt pending hg hal _ _ _ =>
      by_cases hfg : f = g
      · exact goal { m with pkt, pending } (by simp [hfg]) hal (by simpa using hparse)
      · exact goal n (by simp [hfg, hf]) ha (by simpa using hparse)
    | @dies g m hg _ _ hnone =>
      obtain ⟨b, hb⟩ := hbuild
      obtain ⟨r, hr⟩ := snapshot_some hparse
      rcases hnone with h | h
      · rw [hb] at h; cases h
      · rw [hr] at h; cases h
    | @serve g m a bsn _ hg hget hcfg hann hsent =>
      have hp' : ∀ k n, (k, n) ∈ t.cfg.dests → ∃ a, net.parse k = some a := by
        rw [hcfg]
        intro k v hk
        rcases updateBsn_mem hk with ⟨e, x, hx, _⟩ | ⟨hk, _⟩
        · rw [e]; exact hparse _ x (AList.mem_of_get? hx)
        · exact hparse k v hk
      by_cases hfg : f = g
      · have : n = m := by
          rw [hfg, hg] at hf
          exact (Option.some.inj hf).symm
        exact goal { m with pkt := m.pkt.setBsn bsn, pending := AList.erase m.pending a } (by rw [hann]; simp [hfg])
          (this ▸ ha) hp'
      · exact goal n (by rw [hann]; simp [hfg, hf]) ha hp'

example : Spec.Discovery.Allowed exF32 63 "hello" (.str "hello") ∧
    ((run exNet exF32 (start { host := .dtn "n1" "", dests := [("10.0.0.1:4000", 0)] } [])
      [.service 63 "hello", .round .v4, .serve .v4 3]).sent.map fun d => (d.dest, d.pkt.block.services)) =
      [(3, [(63, [104, 101, 108, 108, 111])])] := by
  refine ⟨.str (by decide +kernel), by decide +kernel⟩

/-- C80 fails: once a service outside the limits is registered, which is not checked, the next round of each task panics
and no beacon is sent any more. -/
theorem C80_announcing_stops_violated (net : Net A) (pf : List Char → Option F32) (s : St A) (f : Fam) (n : Ann A)
    (tag : Nat) (text : String) (h : ∀ v, ¬Spec.Discovery.Allowed pf tag text v) (hf : s.ann f = some n) (hp : n.pending = [])
    (evs : List (Ev A)) :
    ∀ d ∈ (run net pf (step net pf (step net pf s (.service tag text)) (.round f)) evs).sent,
      d.fam = f → d ∈ s.sent := by
  have hbad : ∀ r, buildService pf tag text ≠ .ok r := by
    intro r hr
    obtain ⟨t, p⟩ := r
    obtain ⟨_, v, hv, _⟩ := C53_accepted_decodes pf tag text t p hr
    exact h v hv
  have dead : ∀ (evs : List (Ev A)) (t : St A) (m : Ann A), t.ann f = some m → m.alive = false → m.pending = [] →
      ∀ d ∈ (run net pf t evs).sent, d.fam = f → d ∈ t.sent := by
    intro evs
    induction evs with
    | nil => intro t m _ _ _ d hd _; exact hd
    | cons ev evs ih =>
      intro t m hm hal hpe d hd hdf
      have hc := step_change net pf t ev
      have goal : ∀ u m', step net pf t ev = u → u.ann f = some m' → m'.alive = false → m'.pending = [] →
          (d ∈ u.sent → d ∈ t.sent) → d ∈ t.sent := by
        intro u m' hu h1 h2 h3 h4
        apply h4
        refine ih u m' h1 h2 h3 d ?_ hdf
        rw [← hu]; exact hd
      generalize hu : step net pf t ev = u at hc
      cases hc with
      | same h1 h2 h3 => exact goal u m hu (by rw [h3]; exact hm) hal hpe (by rw [h2]; exact id)
      | @begin g m' pkt pending hg hal' _ _ _ =>
        have hfg : f ≠ g := by
          intro e
          rw [← e, hm] at hg
          cases hg
          rw [hal] at hal'; cases hal'
        exact goal _ m hu (by simp [hfg, hm]) hal hpe (by simp)
      | @dies g m' hg hal' _ hnone =>
        have hfg : f ≠ g := by
          intro e
          rw [← e, hm] at hg
          cases hg
          rw [hal] at hal'; cases hal'
        exact goal _ m hu (by simp [hfg, hm]) hal hpe (by simp)
      | @serve g m' a bsn _ hg hget hcfg hann hsent =>
        have hfg : f ≠ g := by
          intro e
          rw [← e, hm] at hg
          cases hg
          rw [hpe] at hget
          simp [AList.get?] at hget
        refine goal u m hu (by rw [hann]; simp [hfg, hm]) hal hpe ?_
        intro hdu
        rw [hsent] at hdu
        rcases List.mem_append.mp hdu with h | h
        · exact h
        · rw [List.mem_singleton] at h
          rw [h] at hdf
          exact absurd hdf.symm hfg
  have hs1 : (step net pf s (.service tag text)).ann f = some n := by
    cases f <;> exact hf
  have hb : build pf (step net pf s (.service tag text)) = none :=
    build_none (tag := tag) (text := text) (by simp [step, AList.insert]) hbad
  intro d hd hdf
  cases hal : n.alive with
  | false =>
    have : step net pf (step net pf s (.service tag text)) (.round f) = step net pf s (.service tag text) := by
      rw [step]
      simp only [hs1, hal]
      rfl
    rw [this] at hd
    exact dead evs _ n hs1 hal hp d hd hdf
  | true =>
    have : step net pf (step net pf s (.service tag text)) (.round f) =
        (step net pf s (.service tag text)).setAnn f { n with alive := false } := by
      rw [step]
      simp only [hs1, hal, hp, hb]
      rfl
    rw [this] at hd
    have := dead evs _ { n with alive := false } (by simp) rfl hp d hd hdf
    simpa [step] using this

example : ∀ v, ¬Spec.Discovery.Allowed exF32 191 "101" v := by
  intro v hv
  have := C53_allowed_accepted exF32 191 "101" v hv
  obtain ⟨p, hp⟩ := this
  have : buildService exF32 191 "101" = .err := by decide +kernel
  rw [this] at hp
  cases hp

/-! ## C81 -/

/-- C81, missing: services of the configuration (see below). Every beacon sent describes the node as it was at the
beginning of the round: its id, its convergence layers with ports, its registered services and the interval. -/
theorem C81_beacons_describe_the_node_partial (net : Net A) (pf : List Char → Option F32) (cfg : Config)
    (clas : List (String × Nat)) (evs : List (Ev A)) :
    ∀ d ∈ (run net pf (start cfg clas) evs).sent,
      ∃ pre, pre <+: evs ∧ Describes pf (run net pf (start cfg clas) pre) d.pkt := by
  intro d hd
  obtain ⟨pre, h1, h2, _⟩ := (origin net pf cfg clas evs).2 d hd
  exact ⟨pre, h1, h2⟩

example : exAnnounce.sent.map (fun d => (d.pkt.eid, d.pkt.block.clas)) =
    List.replicate 5 (.dtn "n1" "", [("mtcp", some 16162)]) := by decide +kernel

/-- C81 fails: services given in the configuration file or on the command line are never announced, whatever they are;
only services registered at run time are. -/
theorem C81_configured_services_violated (net : Net A) (pf : List Char → Option F32) (cfg : Config)
    (clas : List (String × Nat)) (evs : List (Ev A)) (hev : ∀ tag text, .service tag text ∉ evs) :
    ∀ d ∈ (run net pf (start cfg clas) evs).sent, ∀ tag, AList.get? d.pkt.block.services tag = none := by
  intro d hd tag
  obtain ⟨pre, hpre, hdesc⟩ := C81_beacons_describe_the_node_partial net pf cfg clas evs d hd
  have hnone : ∀ (l : List (Ev A)) (s : St A), s.services = [] → (∀ tag text, .service tag text ∉ l) →
      (run net pf s l).services = [] := by
    intro l
    induction l with
    | nil => intro s h _; exact h
    | cons ev l ih =>
      intro s h hl
      refine ih _ ?_ fun t x hm => hl t x (by simp [hm])
      rw [step_services]
      cases ev with
      | service t x => exact absurd (by simp) (hl t x)
      | _ => exact h
  have h0 := hnone pre (start cfg clas) rfl fun t x hm => hev t x (hpre.subset hm)
  cases hg : AList.get? d.pkt.block.services tag with
  | none => rfl
  | some p =>
    obtain ⟨text, ht, _⟩ := (hdesc.services tag p).mp hg
    rw [h0] at ht
    simp [AList.get?] at ht

example : ((run exNet exF32 (start { host := .dtn "n1" "", dests := [("10.0.0.1:4000", 0)], services := [(63, "hello")] } [])
    [.round .v4, .serve .v4 3]).sent.map fun d => d.pkt.block) = [{}] := by decide +kernel

/-! ## C82 -/

omit [DecidableEq A] in
/-- Services of built beacons can be read. -/
theorem described_readable {pf : List Char → Option F32} {s : St A} {b : Beacon} (h : Describes pf s b)
    (ht : Spec.Discovery.Typed b) : ∀ sv ∈ b.block.services, Spec.Discovery.Readable sv.1 sv.2 := by
  intro sv hsv
  have hw : AList.WF b.block.services := ht.services.2.1
  have hget := hw.get?_of_mem (k := sv.1) (v := sv.2) hsv
  obtain ⟨text, _, hb⟩ := (h.services sv.1 sv.2).mp hget
  obtain ⟨_, v, _, hv⟩ := C53_accepted_decodes pf sv.1 text sv.1 sv.2 hb
  rw [← Discovery.carries_iff] at hv
  by_cases hr : Spec.Discovery.Readable sv.1 sv.2
  · exact hr
  · rw [Discovery.convertOne_not_readable hr] at hv
    cases hv

theorem mem_collect {l : List (Nat × Bytes)} {x : Nat × Bytes} (h : x ∈ Discovery.collect l) : x ∈ l := by
  have key : ∀ (l : List (Nat × Bytes)) (acc : AList Nat Bytes),
      x ∈ l.foldl (fun m kv => AList.insert m kv.1 kv.2) acc → x ∈ l ∨ x ∈ acc := by
    intro l
    induction l with
    | nil => intro acc h; exact .inr h
    | cons kv l ih =>
      intro acc h
      rcases ih _ h with h | h
      · exact .inl (by simp [h])
      · rcases mem_insert (j := x.1) (w := x.2) h with ⟨h1, h2⟩ | ⟨_, h⟩
        · exact .inl (by rw [List.mem_cons]; exact .inl (Prod.ext h1 h2))
        · exact .inr h
  rcases key l [] h with h | h
  · exact h
  · simp at h

theorem allowed_unique {pf : List Char → Option F32} {tag s v w} (h : Spec.Discovery.Allowed pf tag s v)
    (g : Spec.Discovery.Allowed pf tag s w) : v = w := by
  cases h with
  | str => cases g; rfl
  | geo h1 h2 h3 =>
    cases g with
    | geo g1 g2 g3 =>
      cases Discovery.Splits.unique h1 g1
      rw [h2] at g2
      rw [h3] at g3
      cases g2; cases g3; rfl
  | battery h1 h2 h3 =>
    cases g with
    | battery g1 g2 g3 =>
      have e1 := Discovery.parseI8_iff.mpr ⟨h1, by omega, by omega⟩
      rw [Discovery.parseI8_iff.mpr ⟨g1, by omega, by omega⟩] at e1
      cases e1; rfl
  | address => cases g; rfl

/-- C82, missing: intervals with a fraction of a second, which arrive rounded down. Every beacon that a node sends and
another node receives makes the other node list it as a peer, with its id, the address the beacon came from and exactly
its convergence layers, ports and services at the beginning of the round, and the interval in whole seconds. -/
theorem C82_neighbour_learns_partial (net : Net A) (pf : List Char → Option F32) (cfg : Config)
    (clas : List (String × Nat)) (evs : List (Ev A)) (d : Sent A) (hd : d ∈ (run net pf (start cfg clas) evs).sent)
    (ht : Spec.Discovery.Typed d.pkt) (rx : Rx) (now : Nat) (src : PeerAddress) (n : String)
    (ha : rx.alive = true) (hne : d.pkt.eid ≠ rx.host) (hn : d.pkt.eid.node = some n) :
    ∃ pre p, pre <+: evs ∧ AList.get? (receive rx now src (writeBeacon d.pkt)).peers n = some p ∧
      p.eid = (run net pf (start cfg clas) pre).cfg.host ∧ p.addr = src ∧
      p.claList = (run net pf (start cfg clas) pre).clas.map (fun c => (c.1, some c.2)) ∧
      p.lastContact = now ∧ p.fails = 0 ∧
      p.period = (if (run net pf (start cfg clas) pre).cfg.enablePeriod
        then some ((run net pf (start cfg clas) pre).cfg.interval / 1000 * 1000) else none) ∧
      (receive rx now src (writeBeacon d.pkt)).alive = true ∧
      ∃ svc, AList.get? (receive rx now src (writeBeacon d.pkt)).services n = some svc ∧
        ∀ tag v, (tag, v) ∈ svc ↔ ∃ text, AList.get? (run net pf (start cfg clas) pre).services tag = some text ∧
          Spec.Discovery.Allowed pf tag text v := by
  obtain ⟨pre, hpre, hdesc, hbuilt⟩ := (origin net pf cfg clas evs).2 d hd
  have hread := described_readable hdesc ht
  have hf := Discovery.built_flags hbuilt
  have hslice : fromSlice (writeBeacon d.pkt) = .ok (Discovery.back d.pkt) := by
    refine Discovery.fromSlice_write ht ?_ ?_
    · intro _ he
      rw [hf.2.2.1]
      have : ¬(d.pkt.block.clas = [] ∧ d.pkt.block.services = []) := by
        rw [← Discovery.isEmpty_iff, he]; decide
      by_cases hc : d.pkt.block.clas = []
      · exact .inr fun hs => this ⟨hc, hs⟩
      · exact .inl hc
    · intro _ he h1
      rw [hf.2.2.1] at h1
      have := (Discovery.isEmpty_iff d.pkt.block).mp he
      rcases h1 with h1 | h1
      · exact h1 this.1
      · exact h1 this.2
  have hclas : (Discovery.back d.pkt).block.clas = d.pkt.block.clas := by
    unfold Discovery.back
    cases he : d.pkt.block.isEmpty with
    | true => simp [((Discovery.isEmpty_iff d.pkt.block).mp he).1]
    | false => simp
  have hservs : ∀ sv ∈ (Discovery.back d.pkt).block.services, Spec.Discovery.Readable sv.1 sv.2 := by
    intro sv hsv
    unfold Discovery.back at hsv
    cases he : d.pkt.block.isEmpty with
    | true => simp [he] at hsv
    | false =>
      simp only [he] at hsv
      exact hread sv (mem_collect hsv)
  have h := C55_beacon_recorded_partial rx now src (writeBeacon d.pkt) (Discovery.back d.pkt) n ha hslice hservs
    hne hn
  have hget : ∀ tag p, (tag, p) ∈ (Discovery.back d.pkt).block.services ↔
      ∃ text, AList.get? (run net pf (start cfg clas) pre).services tag = some text ∧ buildService pf tag text = .ok (tag, p) := by
    intro tag p
    rw [← hdesc.services tag p]
    have hw : AList.WF d.pkt.block.services := ht.services.2.1
    unfold Discovery.back
    cases he : d.pkt.block.isEmpty with
    | true => simp [((Discovery.isEmpty_iff d.pkt.block).mp he).2]
    | false =>
      simp only [Bool.false_eq_true, if_false]
      constructor
      · intro hm
        exact hw.get?_of_mem (mem_collect hm)
      · intro hm
        rw [← Discovery.get?_collect hw] at hm
        exact AList.mem_of_get? hm
  obtain ⟨svc, hsvc, hin⟩ := h.2.2.2.1
  refine ⟨pre, _, hpre, h.2.2.1, hdesc.eid, rfl, ?_, rfl, rfl, ?_, h.1, svc, hsvc, ?_⟩
  · show (Discovery.back d.pkt).block.clas = _
    rw [hclas, hdesc.clas]
  · show (Discovery.back d.pkt).period = _
    have : (Discovery.back d.pkt).period = d.pkt.period.map fun ms => ms / 1000 * 1000 := rfl
    rw [this, hdesc.period]
    cases (run net pf (start cfg clas) pre).cfg.enablePeriod <;> rfl
  · intro tag v
    rw [hin]
    constructor
    · rintro ⟨p, hp, hc⟩
      obtain ⟨text, h1, h2⟩ := (hget tag p).mp hp
      obtain ⟨_, v', h3, h4⟩ := C53_accepted_decodes pf tag text tag p h2
      cases Discovery.carries_unique hc h4
      exact ⟨text, h1, h3⟩
    · rintro ⟨text, h1, h2⟩
      obtain ⟨p, hp⟩ := C53_allowed_accepted pf tag text v h2
      obtain ⟨_, v', h3, h4⟩ := C53_accepted_decodes pf tag text tag p hp
      rw [allowed_unique h3 h2] at h4
      exact ⟨p, (hget tag p).mpr ⟨text, h1, hp⟩, h4⟩

example : ((exAnnounce.sent.map fun d =>
    (AList.get? (receive { host := .dtn "me" "" } 5 (.ipv4 "10.0.0.1") (writeBeacon d.pkt)).peers "n1").map fun p => (p.eid, p.claList))) =
    List.replicate 5 (some (.dtn "n1" "", [("mtcp", some 16162)])) := by decide +kernel

end Dtn.Props
