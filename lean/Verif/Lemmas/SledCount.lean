import Verif.Lemmas.SledGood
import Verif.Lemmas.SledResume
import Verif.Lemmas.ProcWeights
/-! Counting, for a node with the persistent store (see `Lemmas/ProcCount.lean`). -/

namespace Dtn.OnSled
open Proc Spec
open Routing (Notification Answer)

/-- The allowances suffice, also if a received bundle is refused. -/
structure Enough (W : Weights) : Prop extends W.OK where
  refused : ∀ b, W.ev (.called (.receive b)) ≤ 0

variable {W : Weights}

/-- These ids are in the database. -/
def Known (K : List String) (n : Node) : Prop := ∀ bid ∈ K, n.store.getMetadata bid ≠ none

theorem Known.base {K : List String} {n m : Node} (h : Known K n) (b : Base n m) : Known K m := fun bid hb => b.known bid (h bid hb)

/-- The task adds at most weight `d`, if these ids are in the database. -/
def AddsOn (W : Weights) : List String → Prog → Int → Prop
  | _, .done _, d => 0 ≤ d
  | _, .panic, d => 0 ≤ d
  | K, .act f k, d => (W.strict → 0 ≤ d) ∧ ∀ m, m.store.Inv → Known K m →
      ∃ d' K', Known K' (f m) ∧ AddsOn W K' (k m) d' ∧ W.total (f m) + d' ≤ W.total m + d
  | K, .route bp k, d => (W.strict → 0 ≤ d) ∧
      ∀ a, (∀ x, a = some x → W.answers x) → ∃ d', AddsOn W K (k a) d' ∧ W.ev (.asked bp a) + d' ≤ d
  | K, .choose k, d => (W.strict → 0 ≤ d) ∧ ∀ b, AddsOn W K (k b) d
  | K, .fresh k, d => (W.strict → 0 ≤ d) ∧ ∀ s, AddsOn W K (k s) d
  | K, .spawn t k, d => ∃ d1 d2, AddsOn W K t d1 ∧ AddsOn W K k d2 ∧ d1 + d2 ≤ d ∧ (W.strict → 0 ≤ d)
  | K, .wait _ k, d => AddsOn W K k d

variable {K : List String}

theorem AddsOn.nonneg {p : Prog} : ∀ {d : Int}, AddsOn W K p d → W.strict → 0 ≤ d := by
  induction p with
  | done | panic => intro d h _; exact h
  | act | route | choose | fresh => intro d h; exact h.1
  | spawn => intro d h; obtain ⟨_, _, _, _, _, h⟩ := h; exact h
  | wait c k ih => intro d h; exact ih h

theorem AddsOn.mono {p : Prog} : ∀ {d d' : Int}, AddsOn W K p d → d ≤ d' → AddsOn W K p d' := by
  induction p with
  | done | panic => intro d d' h hd; exact Int.le_trans h hd
  | act f k ih =>
    intro d d' h hd
    refine ⟨fun s => Int.le_trans (h.1 s) hd, fun m i hk => ?_⟩
    obtain ⟨e, K', h0, h1, h2⟩ := h.2 m i hk
    exact ⟨e, K', h0, h1, by omega⟩
  | route bp k ih =>
    intro d d' h hd
    refine ⟨fun s => Int.le_trans (h.1 s) hd, fun a ha => ?_⟩
    obtain ⟨e, h1, h2⟩ := h.2 a ha
    exact ⟨e, h1, by omega⟩
  | choose k ih => intro d d' h hd; exact ⟨fun s => Int.le_trans (h.1 s) hd, fun b => ih b (h.2 b) hd⟩
  | fresh k ih => intro d d' h hd; exact ⟨fun s => Int.le_trans (h.1 s) hd, fun b => ih b (h.2 b) hd⟩
  | spawn t k iht ihk =>
    intro d d' h hd
    obtain ⟨a, b, h1, h2, h3, h4⟩ := h
    exact ⟨a, b, h1, h2, by omega, fun s => Int.le_trans (h4 s) hd⟩
  | wait c k ih => intro d d' h hd; exact ih h hd

theorem AddsOn.more {p : Prog} : ∀ {K K' : List String} {d : Int}, AddsOn W K p d → (∀ bid ∈ K, bid ∈ K') → AddsOn W K' p d := by
  induction p with
  | done | panic => intro K K' d h _; exact h
  | act f k ih => intro K K' d h hs; exact ⟨h.1, fun m i hk => h.2 m i fun bid hb => hk bid (hs bid hb)⟩
  | route bp k ih =>
    intro K K' d h hs
    refine ⟨h.1, fun a ha => ?_⟩
    obtain ⟨e, h1, h2⟩ := h.2 a ha
    exact ⟨e, ih a h1 hs, h2⟩
  | choose k ih => intro K K' d h hs; exact ⟨h.1, fun b => ih b (h.2 b) hs⟩
  | fresh k ih => intro K K' d h hs; exact ⟨h.1, fun b => ih b (h.2 b) hs⟩
  | spawn t k iht ihk =>
    intro K K' d h hs
    obtain ⟨a, b, h1, h2, h3, h4⟩ := h
    exact ⟨a, b, iht h1 hs, ihk h2 hs, h3, h4⟩
  | wait c k ih => intro K K' d h hs; exact ih h hs

theorem AddsOn.of {p : Prog} : ∀ {d : Int}, Adds W p d → AddsOn W [] p d := by
  induction p with
  | done | panic => intro d h; exact h
  | act f k ih =>
    intro d h
    refine ⟨h.1, fun m i _ => ?_⟩
    obtain ⟨e, h1, h2⟩ := h.2 m i
    exact ⟨e, [], (by intro bid hb; cases hb), ih m h1, h2⟩
  | route bp k ih =>
    intro d h
    refine ⟨h.1, fun a ha => ?_⟩
    obtain ⟨e, h1, h2⟩ := h.2 a ha
    exact ⟨e, ih a h1, h2⟩
  | choose k ih => intro d h; exact ⟨h.1, fun b => ih b (h.2 b)⟩
  | fresh k ih => intro d h; exact ⟨h.1, fun b => ih b (h.2 b)⟩
  | spawn t k iht ihk =>
    intro d h
    obtain ⟨a, b, h1, h2, h3, h4⟩ := h
    exact ⟨a, b, iht h1, ihk h2, h3, h4⟩
  | wait c k ih => intro d h; exact ih h

/-- All tasks together add at most `d`. -/
def AddsAllOn (W : Weights) (n : Node) : List Prog → Int → Prop
  | [], d => 0 ≤ d
  | p :: ps, d => ∃ d1 d2 K, Known K n ∧ AddsOn W K p d1 ∧ AddsAllOn W n ps d2 ∧ d1 + d2 ≤ d

theorem AddsAllOn.mono {n : Node} {ps : List Prog} : ∀ {d d' : Int}, AddsAllOn W n ps d → d ≤ d' → AddsAllOn W n ps d' := by
  cases ps with
  | nil => intro d d' h hd; exact Int.le_trans h hd
  | cons p ps =>
    intro d d' h hd
    obtain ⟨a, b, K, h0, h1, h2, h3⟩ := h
    exact ⟨a, b, K, h0, h1, h2, by omega⟩

theorem AddsAllOn.base {n m : Node} {ps : List Prog} (hb : Base n m) : ∀ {d : Int}, AddsAllOn W n ps d → AddsAllOn W m ps d := by
  induction ps with
  | nil => intro d h; exact h
  | cons p ps ih =>
    intro d h
    obtain ⟨a, b, K, h0, h1, h2, h3⟩ := h
    exact ⟨a, b, K, h0.base hb, h1, ih h2, h3⟩

theorem AddsAllOn.nonneg {n : Node} {ps : List Prog} : ∀ {d : Int}, AddsAllOn W n ps d → W.strict → 0 ≤ d := by
  induction ps with
  | nil => intro d h _; exact h
  | cons p ps ih =>
    intro d h s
    obtain ⟨a, b, K, h0, h1, h2, h3⟩ := h
    have := h1.nonneg s
    have := ih h2 s
    omega

theorem AddsAllOn.append {n : Node} {ps qs : List Prog} : ∀ {d : Int},
    AddsAllOn W n (ps ++ qs) d ↔ ∃ d1 d2, AddsAllOn W n ps d1 ∧ AddsAllOn W n qs d2 ∧ d1 + d2 ≤ d := by
  induction ps with
  | nil =>
    intro d
    constructor
    · intro h; exact ⟨0, d, Int.le_refl _, h, by omega⟩
    · rintro ⟨a, b, h1, h2, h3⟩
      have : 0 ≤ a := h1
      exact AddsAllOn.mono h2 (by omega)
  | cons p ps ih =>
    intro d
    constructor
    · rintro ⟨a, b, K, h0, h1, h2, h3⟩
      obtain ⟨c, e, h4, h5, h6⟩ := ih.mp h2
      exact ⟨a + c, e, ⟨a, c, K, h0, h1, h4, by omega⟩, h5, by omega⟩
    · rintro ⟨a, b, ⟨c, e, K, h0, h1, h2, h3⟩, h4, h5⟩
      exact ⟨c, e + b, K, h0, h1, ih.mpr ⟨e, b, h2, h4, by omega⟩, by omega⟩

theorem AddsAllOn.taskStep {n n' : Node} {p : Prog} {ps : List Prog} {d : Int} (h : TaskStep n p n' ps) (inv : n.store.Inv)
    (hK : Known K n) (hp : AddsOn W K p d) (ha : ∀ bp a, Event.asked bp (some a) ∈ n'.events → W.answers a) :
    ∃ d', AddsAllOn W n' ps d' ∧ W.total n' + d' ≤ W.total n + d := by
  cases h with
  | done => have : 0 ≤ d := hp; exact ⟨0, Int.le_refl _, by omega⟩
  | panic => have : 0 ≤ d := hp; exact ⟨0, Int.le_refl _, by omega⟩
  | act f k =>
    obtain ⟨d', K', h0, h1, h2⟩ := hp.2 n inv hK
    exact ⟨d', ⟨d', 0, K', h0, h1, Int.le_refl _, by omega⟩, h2⟩
  | route bp k a =>
    obtain ⟨d', h1, h2⟩ := hp.2 a (fun x hx => ha bp x (by subst hx; simp [Node.log]))
    refine ⟨d', ⟨d', 0, K, hK, h1, Int.le_refl _, by omega⟩, ?_⟩
    rw [total_log]; omega
  | choose k b => exact ⟨d, ⟨d, 0, K, hK, hp.2 b, Int.le_refl _, by omega⟩, Int.le_refl _⟩
  | fresh k b => exact ⟨d, ⟨d, 0, K, hK, hp.2 b, Int.le_refl _, by omega⟩, Int.le_refl _⟩
  | spawn t k =>
    obtain ⟨a, b, h1, h2, h3, _⟩ := hp
    exact ⟨a + b, ⟨b, a, K, hK, h2, ⟨a, 0, K, hK, h1, Int.le_refl _, by omega⟩, by omega⟩, by omega⟩
  | wait c k hc => exact ⟨d, ⟨d, 0, K, hK, hp, Int.le_refl _, by omega⟩, Int.le_refl _⟩

theorem on_act {f : Node → Node} {k : Node → Prog} {d : Int} (hd : W.strict → 0 ≤ d) (hb : ∀ m, m.store.Inv → Base m (f m))
    (hf : ∀ m, W.total (f m) ≤ W.total m) (hk : ∀ m, m.store.Inv → AddsOn W K (k m) d) : AddsOn W K (.act f k) d :=
  ⟨hd, fun m i h => ⟨d, K, h.base (hb m i), hk m i, by have := hf m; omega⟩⟩

theorem on_read {k : Node → Prog} {d : Int} (hd : W.strict → 0 ≤ d) (hk : ∀ m, m.store.Inv → AddsOn W K (k m) d) :
    AddsOn W K (.read k) d :=
  on_act hd (fun m _ => .refl m) (fun _ => Int.le_refl _) hk

theorem on_log {e : Event} {k : Prog} {d : Int} (hd : W.strict → 0 ≤ d) (hk : AddsOn W K k (d - W.ev e)) :
    AddsOn W K (.set (fun n => n.log e) k) d :=
  ⟨hd, fun m _ h => ⟨_, K, h.base (.log m e), hk, by rw [total_log]; omega⟩⟩

theorem on_stat {f : Node → Stats} {k : Prog} {d w : Int} (hd : W.strict → 0 ≤ d)
    (hf : ∀ m, W.total { m with stats := f m } = W.total m + w) (hk : AddsOn W K k (d - w)) :
    AddsOn W K (.set (fun m => { m with stats := f m }) k) d :=
  ⟨hd, fun m _ h => ⟨_, K, h.base (.stats m _), hk, by rw [hf]; omega⟩⟩

theorem on_spawnTransfers (ok : W.OK) {bid : String} {mk : Sender → Transfer} {k : Prog} {d : Int} (ss : List Sender)
    (h : ∀ s ∈ ss, (mk s).stored.id = bid ∧ ∃ a, W.answers a ∧ (mk s).to ∈ a.clas) (hk : AddsOn W K k d) :
    AddsOn W K (spawnTransfers bid mk ss k) (d + (ss.map fun s => W.trans (mk s)).sum) := by
  induction ss with
  | nil => simpa [spawnTransfers] using hk
  | cons s ss ih =>
    have ih := ih fun s' hs => h s' (by simp [hs])
    refine ⟨_, _, (AddsOn.of (Proc.adds_transferTask ok (h s (by simp)).1 (h s (by simp)).2)).more (by intro bid hb; cases hb), ih, ?_, ?_⟩
    · simp only [List.map_cons, List.sum_cons]; omega
    · intro st
      have h1 := (ok.transLater st).2.2.2.1 (mk s)
      have h2 := ih.nonneg st
      simp only [List.map_cons, List.sum_cons]; omega

theorem on_remove (ok : W.OK) {bid : String} {c : Cause} {k : Bool → Prog} {d : Int} (h0 : 0 ≤ d) (hk : AddsOn W K (k true) d) :
    AddsOn W K (remove bid c k) d := by
  refine ⟨fun _ => h0, fun m i h => ⟨d, K, ?_, ?_, ?_⟩⟩
  · dsimp only; rw [remove_eq i]; exact h.base (.remove m i _ _)
  · dsimp only
    rcases remove_cases m bid k with ⟨h, -⟩ | ⟨h, -⟩
    · rw [h]; exact h0
    · rw [h]; exact hk
  · dsimp only
    rw [remove_eq i]
    have := total_remove ok m bid c
    omega

theorem on_removeKnown (ok : W.OK) {bid : String} {c : Cause} {k : Bool → Prog} {d : Int} (hd : W.strict → 0 ≤ d) (hb : bid ∈ K)
    (hk : AddsOn W K (k true) d) : AddsOn W K (remove bid c k) d := by
  refine ⟨hd, fun m i h => ⟨d, K, ?_, ?_, ?_⟩⟩
  · dsimp only; rw [remove_eq i]; exact h.base (.remove m i _ _)
  · dsimp only
    rcases remove_cases m bid k with ⟨-, hn⟩ | ⟨h, -⟩
    · exact absurd hn (h bid hb)
    · rw [h]; exact hk
  · dsimp only
    rw [remove_eq i]
    have := total_remove ok m bid c
    omega

theorem on_sync (ok : W.OK) {bp : Pack} {c : Cause} {k : Bool → Prog} {d : Int} (h0 : 0 ≤ d) (hk : ∀ o, AddsOn W K (k o) d) :
    AddsOn W K (sync bp k c) d := by
  unfold sync
  split
  · exact on_remove ok h0 (hk _)
  · refine ⟨fun _ => h0, fun m i h => ⟨d, K, ?_, ?_, ?_⟩⟩
    · dsimp only; rw [update_eq]; exact h.base (.update m _)
    · obtain ⟨o, h, -⟩ := update_cases m bp k
      dsimp only; rw [h]; exact hk o
    · dsimp only; rw [update_eq]; exact Int.le_of_eq (congrArg (· + d) (total_eq rfl rfl))

theorem on_getBundle {bid : String} {k : Option Bundle → Prog} {d : Int} (h0 : 0 ≤ d) (hk : ∀ b, b.id = bid → AddsOn W K (k (some b)) d) :
    AddsOn W K (getBundle bid k) d := by
  unfold getBundle
  refine on_read (fun _ => h0) fun m i => ?_
  unfold SledStore.getBundle db
  dsimp only
  cases h : AList.get? m.store.bundles bid with
  | none => exact h0
  | some b => exact hk b (i.bundleId _ _ h)

theorem on_getKnown {bid : String} {k : Option Bundle → Prog} {d : Int} (h0 : 0 ≤ d)
    (hk : ∀ b, b.id = bid → AddsOn W (bid :: K) (k (some b)) d) : AddsOn W K (getBundle bid k) d := by
  refine ⟨fun _ => h0, fun m i h => ?_⟩
  unfold SledStore.getBundle db
  dsimp only
  cases hb : AList.get? m.store.bundles bid with
  | none => exact ⟨d, K, h, h0, Int.le_refl _⟩
  | some b =>
    refine ⟨d, bid :: K, ?_, hk b (i.bundleId _ _ hb), Int.le_refl _⟩
    intro j hj
    rcases List.mem_cons.mp hj with rfl | hj
    · obtain ⟨p, hp⟩ := i.hasMeta _ _ hb
      intro hn
      change m.store.getMetadata j = none at hn
      rw [hn] at hp; cases hp
    · exact h j hj

theorem on_push {b : Bundle} {k : Bool → Prog} {d : Int} (h0 : 0 ≤ d) (hk : ∀ o, AddsOn W K (k o) d) : AddsOn W K (push b k) d := by
  refine ⟨fun _ => h0, fun m i h => ⟨d, K, ?_, by dsimp only; rw [push_cases]; exact hk _, ?_⟩⟩
  · dsimp only
    rw [push_eq]
    split
    · exact h
    · exact h.base (.push m b)
  dsimp only
  rw [push_eq]
  split
  · exact Int.le_refl _
  · rw [total_push]

theorem on_removeIfSingleton (ok : W.OK) {b : Bundle} {k : Prog} {d : Int} (h0 : 0 ≤ d) (hk : AddsOn W K k d) :
    AddsOn W K (removeIfSingleton b k) d := by
  unfold removeIfSingleton
  split
  · exact on_remove ok h0 hk
  · exact on_read (fun _ => h0) fun _ _ => hk

theorem on_removeIfSingletonKnown (ok : W.OK) {b : Bundle} {k : Prog} {d : Int} (hd : W.strict → 0 ≤ d) (hb : b.id ∈ K)
    (hk : AddsOn W K k d) : AddsOn W K (removeIfSingleton b k) d := by
  unfold removeIfSingleton
  split
  · exact on_removeKnown ok hd hb hk
  · exact on_read hd fun _ _ => hk

theorem on_sendReport (ok : W.OK) {bp : Pack} {cause : Bundle} {pos : Pos} {reason : Reason} {k : Prog} {d : Int} (h0 : 0 ≤ d)
    (hk : AddsOn W K k d) : AddsOn W K (sendReport bp cause pos reason k) (d + W.rep pos reason bp.id) := by
  have hr := ok.repNonneg pos reason bp.id
  have hd : 0 ≤ d + W.rep pos reason bp.id := by omega
  have hk' : AddsOn W K k (d + W.rep pos reason bp.id) := hk.mono (by omega)
  unfold sendReport
  split
  · exact hk'
  refine on_getBundle hd fun subject _ => ?_
  refine on_read (fun _ => hd) fun m2 _ => ?_
  split
  · exact hk'
  refine ⟨fun _ => hd, fun bid => ⟨fun _ => hd, fun m3 _ hK => ?_⟩⟩
  dsimp only
  by_cases h : Gone (mkReport m3 subject bid pos).id m3
  · rw [push_cases, push_gone h, decide_eq_true h]
    exact ⟨_, K, hK, hk', Int.le_refl _⟩
  · rw [push_cases, decide_eq_false h]
    obtain ⟨ws, h1, h2⟩ := push_fine h
    rw [h1]
    dsimp only
    rw [h2]
    refine ⟨d, K, hK.base ((Base.push m3 _).trans (.log _ _)), ?_, ?_⟩
    · simpa using on_sync ok (bp := (Pack.ofBundle m3.clock (mkReport m3 subject bid pos)).add .forwardPending) (c := .request) h0 fun _ => hk
    · rw [total_log, total_push]
      have := ok.report (Report.mk bp cause m2.agents.eids subject (mkReport m3 subject bid pos) pos reason)
      dsimp only at this ⊢
      omega

theorem on_reportIf (ok : W.OK) {asked : Bool} {bp : Pack} {b : Bundle} {pos : Pos} {reason : Reason} {k : Prog}
    {d : Int} (h0 : 0 ≤ d) (hk : AddsOn W K k d) : AddsOn W K (reportIf asked bp b pos reason k) (d + W.rep pos reason bp.id) := by
  have hr := ok.repNonneg pos reason bp.id
  unfold reportIf
  refine on_read (fun _ => by omega) fun m _ => ?_
  split
  · exact on_sendReport ok h0 hk
  · exact hk.mono (by omega)

theorem on_delete (ok : W.OK) {bp : Pack} {reason : Reason} {cause : Cause} {k : Bool → Prog} {d : Int} (h0 : 0 ≤ d)
    (hk : ∀ o, AddsOn W K (k o) d) : AddsOn W K (delete bp reason cause k) (d + W.rep .deleted reason bp.id) := by
  have hr := ok.repNonneg .deleted reason bp.id
  unfold delete
  refine on_getBundle (by omega) fun b _ => ?_
  exact on_reportIf ok h0 (on_sync ok h0 hk)

theorem on_adminValid (ok : W.OK) {b : Bundle} {k : Bool → Prog} {d : Int} (h0 : 0 ≤ d) (hk : ∀ o, AddsOn W K (k o) d) :
    AddsOn W K (adminValid b k) d := by
  unfold adminValid
  split
  · exact hk _
  · split
    · exact hk _
    · split
      · refine on_read (fun _ => h0) fun m _ => ?_
        split
        · unfold inspectReport
          split
          · split
            · exact hk _
            · refine on_read (fun _ => h0) fun m _ => ?_
              split
              · exact hk _
              · split
                · exact hk _
                · exact on_remove ok h0 (hk _)
          · exact hk _
        · exact hk _
      · exact hk _

theorem on_giveToAgent (ok : Enough W) {eid : EID} {b : Bundle} {k : Bool → Prog} {d : Int} (hb : b.id ∈ K) (h0 : 0 ≤ d) (hk : ∀ o, AddsOn W K (k o) d) :
    AddsOn W K (giveToAgent eid b k) (d + W.give b.id) := by
  have hg := ok.giveNonneg b.id
  have hc : W.strict → 0 ≤ d + W.delivered := fun s => by have := ok.giveLater s; omega
  unfold giveToAgent
  refine ⟨fun _ => by omega, fun room => ⟨fun _ => by omega, fun m _ hK => ?_⟩⟩
  have count : AddsOn W K (Prog.set (fun n => { n with stats := { n.stats with delivered := n.stats.delivered + 1 } })
      (k true)) (d + W.delivered) :=
    on_stat hc total_delivered ((hk true).mono (by omega))
  cases ha : m.agents.find eid with
  | none =>
    refine ⟨d, K, hK.base (.deliver m _ _ _), by simp only [ha]; exact hk _, ?_⟩
    simp only [Node.deliver, ha]
    omega
  | some a =>
    refine ⟨d + W.delivered, K, hK.base (.deliver m _ _ _), ?_, ?_⟩
    · simp only [ha]
      split
      · exact on_removeIfSingletonKnown ok.toOK hc hb count
      · exact count
    · simp only [Node.deliver, ha]
      rw [total_log]
      have := ok.give eid b (a.push b room).2
      have e : W.total { m with agents := Registry.modify (fun a => (a.push b room).1) eid m.agents } = W.total m :=
        total_eq rfl rfl
      rw [e]
      omega

theorem on_finishDelivery (ok : Enough W) {bp : Pack} {b : Bundle} {k : Bool → Prog} {d : Int} (hb : b.id ∈ K) (h0 : 0 ≤ d)
    (hk : ∀ o, AddsOn W K (k o) d) : AddsOn W K (finishDelivery bp b k) (d + W.give b.id) := by
  have hg := ok.giveNonneg b.id
  unfold finishDelivery
  refine on_sync ok.toOK (by omega) fun o => ?_
  split
  · exact (hk _).mono (by omega)
  · exact on_giveToAgent ok hb h0 hk

theorem on_deliverBundle (ok : Enough W) {bp : Pack} {b : Bundle} {k : Bool → Prog} {d : Int} (hb : b.id ∈ K) (h0 : 0 ≤ d)
    (hk : ∀ o, AddsOn W K (k o) d) :
    AddsOn W K (deliverBundle bp b k) (d + W.give b.id + W.rep .delivered .noInformation bp.id) := by
  have hg := ok.giveNonneg b.id
  have hr := ok.repNonneg .delivered .noInformation bp.id
  unfold deliverBundle
  refine on_sync ok.toOK (by omega) fun o => ?_
  split
  · exact (hk _).mono (by omega)
  refine on_read (fun _ => by omega) fun m _ => ?_
  split
  · have := on_reportIf ok.toOK (asked := b.primary.flags.reqDelivery) (bp := bp.add .localEndpoint) (b := b) (pos := .delivered)
      (reason := .noInformation) (by omega) (on_finishDelivery ok (bp := (bp.add .localEndpoint).clear) (b := b) hb h0 hk)
    exact this
  · exact (on_finishDelivery ok hb h0 hk).mono (by omega)

/-- The larger of the two allowances of a local delivery. -/
theorem on_localDelivery (ok : Enough W) {bp : Pack} {k : Bool → Prog} {d e : Int} (h0 : 0 ≤ d) (hk : ∀ o, AddsOn W K (k o) d)
    (h1 : d + W.give bp.id + W.rep .delivered .noInformation bp.id ≤ e)
    (h2 : d + W.rep .deleted .noInformation bp.id ≤ e) : AddsOn W K (localDelivery bp k) e := by
  have hr := ok.repNonneg .deleted .noInformation bp.id
  unfold localDelivery
  refine on_getKnown (by omega) fun b hid => ?_
  have hk : ∀ o, AddsOn W (bp.id :: K) (k o) d := fun o => (hk o).more fun _ h => List.mem_cons_of_mem _ h
  have hdel : AddsOn W (bp.id :: K) (deliverBundle bp b k) e :=
    (on_deliverBundle ok (by rw [hid]; exact List.mem_cons_self) h0 hk).mono (by rw [hid]; exact h1)
  dsimp only
  split
  · refine on_adminValid ok.toOK (by omega) fun o => ?_
    split
    · exact (on_delete ok.toOK h0 fun _ => hk _).mono h2
    · exact hdel
  · exact hdel

theorem on_afterTransfers (ok : W.OK) {bp : Pack} {b : Bundle} {a : Answer} {g : Nat} {k : Bool → Prog} {d : Int} (h0 : 0 ≤ d)
    (hk : ∀ o, AddsOn W K (k o) d) : AddsOn W K (afterTransfers bp b a g k) (d + W.rep .forwarded .noInformation bp.id) := by
  have hr := ok.repNonneg .forwarded .noInformation bp.id
  unfold afterTransfers
  refine on_read (fun _ => by omega) fun m _ => ?_
  split
  · refine on_reportIf ok h0 ?_
    split
    · exact on_remove ok h0 (hk _)
    · split
      · exact on_adminValid ok h0 fun _ => on_sync ok h0 hk
      · exact hk _
  · exact (hk _).mono (by omega)

theorem on_prepare (ok : W.OK) {bp : Pack} {a : Answer} {k : Bool → Prog} {d e : Int} (ha : W.answers a)
    (hk : ∀ o, AddsOn W K (k o) d) (h0 : 0 ≤ d) (h1 : d ≤ e) (hdel : ∀ r, d + W.rep .deleted r bp.id ≤ e)
    (hsent : ∀ mk : Sender → Transfer, (∀ s, (mk s).stored.id = bp.id ∧ (mk s).to = s) →
      d + (a.clas.map fun s => W.trans (mk s)).sum + W.rep .forwarded .noInformation bp.id ≤ e) :
    AddsOn W K (prepare bp a k) e := by
  have hd : W.strict → 0 ≤ e := fun _ => by omega
  unfold prepare
  refine on_getBundle (by omega) fun b hid => ?_
  have del : ∀ (b' : Bundle) c r (m : Node), b'.primary = b.primary →
      AddsOn W K (delete (Pack.ofBundle m.clock b') r c fun _ => k false) e := by
    intro b' c r m hp
    refine (on_delete ok h0 fun _ => hk _).mono ?_
    have : (Pack.ofBundle m.clock b').id = bp.id := by
      rw [Pack.id_ofBundle, ← hid]; exact congrArg Primary.bid hp
    rw [this]; exact hdel r
  dsimp only
  apply on_read hd
  intro m1 _
  split
  · exact on_read hd fun m2 _ => del _ _ _ _ rfl
  split
  · exact on_read hd fun m2 _ => del _ _ _ _ (raiseHop_primary b)
  apply on_read hd
  intro m2 _
  split
  · exact Int.le_trans h0 h1
  rename_i b2 hb2
  apply on_read hd
  intro m3 _
  split
  · exact Int.le_trans h0 h1
  split
  · refine on_read hd fun m4 _ => del _ _ _ _ ?_
    rw [raiseAge_primary, setPrevious_primary hb2, raiseHop_primary]
  · unfold sendAll
    apply on_act hd (fun m _ => .newGroup m _ _ _) (fun m => Int.le_of_eq (total_eq rfl rfl))
    intro m4 _
    have hs := hsent (fun s => Transfer.mk m4.groups.length b
        (raiseAge m3.clock ((AList.get? (db m3).metadata b.id).map Pack.receivedTime) b2).1 s m1.clock m3.clock
        ((AList.get? (db m3).metadata b.id).map Pack.receivedTime)) fun s => ⟨hid, rfl⟩
    refine AddsOn.mono (on_spawnTransfers ok (d := d + W.rep .forwarded .noInformation bp.id) _ ?_ ?_)
      (Int.le_trans (Int.le_of_eq ?_) hs)
    · intro s hs; exact ⟨hid, a, ha, hs⟩
    · exact on_afterTransfers ok h0 hk
    · rw [Int.add_right_comm]

theorem on_forward (ok : W.OK) {bp : Pack} {k : Bool → Prog} {d : Int} (h0 : 0 ≤ d) (hk : ∀ o, AddsOn W K (k o) d) :
    AddsOn W K (forward bp k) d := by
  unfold forward
  refine on_sync ok h0 fun o => ?_
  split
  · exact hk _
  refine ⟨fun _ => h0, fun answer hans => ?_⟩
  cases answer with
  | none =>
    have := ok.unasked ((bp.add .forwardPending).del .dispatchPending)
    exact ⟨d, hk _, by omega⟩
  | some a =>
    have ha := hans a rfl
    have hA := ok.asked ((bp.add .forwardPending).del .dispatchPending) a ha
    unfold answered
    dsimp only
    split
    · refine ⟨d, ?_, by omega⟩
      split
      · exact on_remove ok h0 (hk _)
      · exact hk _
    · refine ⟨d - W.ev (.asked ((bp.add .forwardPending).del .dispatchPending) (some a)), ?_, by omega⟩
      refine on_prepare ok ha hk h0 (by omega) ?_ ?_
      · intro r
        have := ok.askedDeleted ((bp.add .forwardPending).del .dispatchPending) a r ha
        omega
      · intro mk hmk
        have := ok.askedSent ((bp.add .forwardPending).del .dispatchPending) a mk ha hmk
        omega

theorem on_dispatchRemote (ok : W.OK) {bp : Pack} {k : Bool → Prog} {d : Int} (h0 : 0 ≤ d) (hk : ∀ o, AddsOn W K (k o) d) :
    AddsOn W K (dispatchRemote bp k) d := by
  unfold dispatchRemote
  refine on_read (fun _ => h0) fun m _ => ?_
  split
  · exact ⟨0, d, on_forward ok (Int.le_refl _) fun _ => Int.le_refl _, hk _, by omega, fun _ => h0⟩
  · exact hk _

theorem on_dispatch (ok : Enough W) {bp : Pack} {k : Bool → Prog} {d : Int} (h0 : 0 ≤ d) (hk : ∀ o, AddsOn W K (k o) d) :
    AddsOn W K (dispatch bp k) (d + W.disp bp.id) := by
  have hn := ok.dispNonneg bp.id
  unfold dispatch
  refine on_getBundle (by omega) fun b hid => ?_
  have h1 := ok.disp b
  have h2 := ok.dispDeleted b
  have h3 := ok.giveNonneg b.id
  have h4 := ok.repNonneg .delivered .noInformation b.id
  rw [hid] at h1 h2 h3 h4
  apply on_log (fun _ => by omega)
  refine on_read (fun _ => by omega) fun m1 _ => ?_
  split
  · refine on_localDelivery ok (d := d) h0 ?_ (by omega) (by omega)
    intro o
    split
    · exact hk _
    · exact on_dispatchRemote ok.toOK h0 hk
  · exact (on_dispatchRemote ok.toOK h0 hk).mono (by omega)

theorem on_transmit (ok : Enough W) {bp : Pack} {k : Bool → Prog} {d e : Int} (h0 : 0 ≤ d) (hk : ∀ o, AddsOn W K (k o) d)
    (h1 : d + W.disp bp.id ≤ e) (h2 : d + W.rep .deleted .noInformation bp.id ≤ e) : AddsOn W K (transmit bp k) e := by
  have hn := ok.dispNonneg bp.id
  unfold transmit
  refine on_sync ok.toOK (by omega) fun o => ?_
  split
  · exact (hk _).mono (by omega)
  refine on_read (fun _ => by omega) fun m1 _ => ?_
  split
  · exact (on_delete ok.toOK h0 hk).mono h2
  · exact (on_dispatch ok h0 hk).mono h1

theorem on_finishReceive (ok : Enough W) {b : Bundle} {bp : Pack} {l : List Nat} {k : Bool → Prog} {d : Int} (h0 : 0 ≤ d)
    (hk : ∀ o, AddsOn W K (k o) d) : AddsOn W K (finishReceive b bp l k) (d + W.disp bp.id) := by
  have := ok.dispNonneg bp.id
  unfold finishReceive
  split
  · show 0 ≤ d + W.disp bp.id; omega
  · refine on_push (by omega) fun o => ?_
    split
    · exact (hk _).mono (by omega)
    · exact on_dispatch ok h0 fun _ => hk true

theorem on_scanBlocks (ok : Enough W) {b : Bundle} {bp : Pack} {k : Bool → Prog} {d e : Int} (h0 : 0 ≤ d)
    (hk : ∀ o, AddsOn W K (k o) d) (h1 : d + W.disp bp.id ≤ e) (h2 : d + W.rep .deleted .blockUnintelligible bp.id ≤ e)
    (cs : List Block) : ∀ (index : Nat) (l : List Nat),
    AddsOn W K (scanBlocks b bp k cs index l) (e + Weights.asking cs * W.rep .received .blockUnintelligible bp.id) := by
  have hr := ok.repNonneg .received .blockUnintelligible bp.id
  have hdis := ok.dispNonneg bp.id
  induction cs with
  | nil =>
    intro index l
    exact (on_finishReceive ok h0 hk).mono (by simp [Weights.asking]; omega)
  | cons c cs ih =>
    intro index l
    unfold scanBlocks
    rw [asking_cons]
    split
    · rename_i hc
      have : ¬ (11 ≤ c.btype ∧ c.flags.report = true) := by omega
      rw [if_neg this]
      exact ih _ _
    · rename_i hc
      have hn : 0 ≤ (Weights.asking cs : Int) * W.rep .received .blockUnintelligible bp.id :=
        Int.mul_nonneg (by omega) hr
      have cont : AddsOn W K (if c.flags.deleteBundle then delete bp .blockUnintelligible (.block b c) k
          else scanBlocks b bp k cs (index + 1) (if c.flags.remove then l ++ [index] else l))
          (e + Weights.asking cs * W.rep .received .blockUnintelligible bp.id) := by
        split
        · exact (on_delete ok.toOK h0 hk).mono (by omega)
        · exact ih _ _
      dsimp only
      by_cases hrep : c.flags.report = true
      · rw [if_pos hrep, if_pos (c := 11 ≤ c.btype ∧ c.flags.report = true) ⟨by omega, hrep⟩]
        have e1 : e + ((Weights.asking cs + 1 : Nat) : Int) * W.rep .received .blockUnintelligible bp.id =
            e + Weights.asking cs * W.rep .received .blockUnintelligible bp.id +
              W.rep .received .blockUnintelligible bp.id := by push_cast; ring
        rw [e1]
        refine on_read (fun s => by omega) fun m _ => ?_
        by_cases hs : m.cfg.statusReports = true
        · rw [if_pos hs]; exact on_sendReport ok.toOK (by omega) cont
        · rw [if_neg hs]; exact cont.mono (by omega)
      · rw [if_neg hrep, if_neg (c := 11 ≤ c.btype ∧ c.flags.report = true) (fun h => hrep h.2)]
        exact cont

theorem on_receive (ok : Enough W) {b : Bundle} : AddsOn W K (receive b .done) (-W.ev (.called (.receive b))) := by
  have hf := ok.refused b
  unfold receive
  refine ⟨fun _ => by omega, fun m _ hK => ?_⟩
  dsimp only
  rcases add_eq m b with ⟨-, h1, h2⟩ | ⟨-, -, h1, h2⟩ | ⟨-, -, -, h1, h2⟩
  · rw [h1, h2]
    exact ⟨-W.ev (.called (.receive b)), K, hK, show (0 : Int) ≤ _ by omega, Int.le_refl _⟩
  · rw [h1, h2]
    have h1 := ok.duplicate b
    refine ⟨-W.ev (.called (.receive b)) - W.ev (.duplicate b), K, hK.base (.log m _), ?_, by rw [total_log]; omega⟩
    refine on_stat (w := W.dups) (fun s => by have := (ok.receiveLater s).2.1; omega) total_dups ?_
    show 0 ≤ _; omega
  · rw [h1, h2]
    have h1 := ok.receive b
    have h2 := ok.receiveDeleted b
    refine ⟨-W.ev (.called (.receive b)) - W.ev (.accepted b), K, hK.base ((Base.push m b).trans (.log _ _)), ?_, by rw [total_log, total_push]; omega⟩
    have hr := ok.repNonneg .received .noInformation b.id
    have hs := ok.repNonneg .deleted .blockUnintelligible b.id
    have hu := ok.repNonneg .received .blockUnintelligible b.id
    have hdis := ok.dispNonneg b.id
    have hn : 0 ≤ (Weights.asking b.canonicals : Int) * W.rep .received .blockUnintelligible b.id :=
      Int.mul_nonneg (by omega) hu
    have rest : 0 ≤ -W.ev (.called (.receive b)) - W.ev (.accepted b) - W.incoming := by omega
    refine on_stat (w := W.incoming) (fun s => by have := (ok.receiveLater s).1; omega) total_incoming ?_
    refine on_read (fun _ => rest) fun m1 _ => ?_
    refine on_sync ok.toOK rest fun o => ?_
    split
    · exact rest
    · have hscan := fun (bp : Pack) => on_scanBlocks (K := K) ok (b := b) (bp := bp) (k := .done) (d := 0)
        (e := max (W.disp bp.id) (W.rep .deleted .blockUnintelligible bp.id)) (Int.le_refl _) (fun _ => Int.le_refl _)
        (by omega) (by omega) b.canonicals 0 []
      refine (on_reportIf ok.toOK ?_ (hscan _)).mono ?_
      · simp only [Pack.id_add, Pack.id_ofBundle]; omega
      · simp only [Pack.id_add, Pack.id_ofBundle]
        omega

theorem on_sweep (ok : W.OK) {k : Prog} {d : Int} (h0 : 0 ≤ d) (hk : AddsOn W K k d) (ms : List Pack) : AddsOn W K (sweep ms k) d := by
  induction ms with
  | nil => exact hk
  | cons p ms ih =>
    unfold sweep
    refine on_read (fun _ => h0) fun m _ => ?_
    split
    · exact on_remove ok h0 ih
    · exact ih

theorem on_collect {k : List Pack → Prog} {d : Int} (h0 : 0 ≤ d) (hk : ∀ l, AddsOn W K (k l) d) (bids : List String) :
    ∀ acc, AddsOn W K (collect bids acc k) d := by
  induction bids with
  | nil => intro acc; exact hk acc
  | cons bid bids ih =>
    intro acc
    unfold collect getMetadata
    refine on_read (fun _ => h0) fun m _ => ?_
    unfold SledStore.getMetadata db
    dsimp only
    cases AList.get? m.store.metadata bid with
    | none => exact h0
    | some p => exact ih _

theorem on_forwardAll (ok : W.OK) (par : Bool) (bps : List Pack) : AddsOn W K (forwardAll par bps) 0 := by
  induction bps with
  | nil => exact Int.le_refl _
  | cons bp bps ih =>
    unfold forwardAll
    split
    · exact ⟨0, 0, on_forward ok (Int.le_refl _) fun _ => Int.le_refl _, ih, by omega, fun _ => Int.le_refl _⟩
    · exact on_forward ok (Int.le_refl _) fun _ => ih

theorem on_task (ok : Enough W) (c : Call) : AddsOn W K (task c) (-W.ev (.called c)) := by
  cases c with
  | receive b => exact on_receive ok
  | send b =>
    have h1 := ok.send b
    have h2 := ok.sendDeleted b
    have h3 := ok.dispNonneg b.id
    have hd : (0 : Int) ≤ -W.ev (.called (.send b)) := by omega
    show AddsOn W K (sendBundle b) _
    unfold sendBundle
    refine on_push hd fun o => ?_
    split
    · exact hd
    · refine on_read (fun _ => hd) fun m _ => ?_
      apply on_transmit ok (d := 0) (Int.le_refl _) (fun _ => Int.le_refl _)
      · rw [Pack.id_ofBundle]; omega
      · rw [Pack.id_ofBundle]; omega
  | remove bid =>
    have := ok.other bid
    have hd : (0 : Int) ≤ -W.ev (.called (.remove bid)) := by omega
    exact on_remove ok.toOK hd hd
  | pop eid =>
    have hp := ok.pop eid
    have hd : (0 : Int) ≤ -W.ev (.called (.pop eid)) := by omega
    show AddsOn W K (popBundle eid) _
    unfold popBundle
    apply on_act (fun _ => hd) (fun m _ => .popAgent m _)
    · intro m
      unfold Node.popAgent
      split
      · exact Int.le_refl _
      · split
        · exact Int.le_refl _
        · rename_i b _
          rw [total_log]
          have := ok.popped eid b
          have e : W.total { m with agents := Registry.modify (fun a => a.pop.1) eid m.agents } = W.total m := total_eq rfl rfl
          omega
    · intro m _
      split
      · exact hd
      · split
        · exact hd
        · exact on_removeIfSingleton ok.toOK hd hd
  | janitor =>
    have hp := ok.janitor
    have hd : (0 : Int) ≤ -W.ev (.called .janitor) := by omega
    refine AddsOn.mono (d := 0) ?_ hd
    show AddsOn W K processBundles 0
    unfold processBundles
    refine on_read (fun _ => Int.le_refl _) fun m _ => ?_
    apply on_sweep ok.toOK (Int.le_refl _)
    refine on_read (fun _ => Int.le_refl _) fun m _ => ?_
    split
    · exact Int.le_refl _
    · refine on_read (fun _ => Int.le_refl _) fun m _ => ?_
      refine on_collect (Int.le_refl _) (fun l => ?_) _ _
      exact on_read (fun _ => Int.le_refl _) fun m _ => on_forwardAll ok.toOK _ _

/-- One step. -/
theorem Enough.step (ok : Enough W) {s t : Sys} (inv : s.node.store.Inv) (hb : Base s.node t.node) (hs : Step s t) {d : Int}
    (h1 : AddsAllOn W s.node s.pool d) (ha : ∀ bp a, Event.asked bp (some a) ∈ t.node.events → W.answers a) :
    ∃ d', AddsAllOn W t.node t.pool d' ∧ W.total t.node + d' ≤ W.total s.node + d := by
  cases hs with
  | task l r p n n' ps h =>
    obtain ⟨d1, d2, h3, h4, h5⟩ := AddsAllOn.append.mp h1
    obtain ⟨d3, d4, K, hK, h6, h7, h8⟩ := h4
    obtain ⟨d5, h9, h10⟩ := AddsAllOn.taskStep h inv hK h6 ha
    refine ⟨d1 + d5 + d4, AddsAllOn.append.mpr ⟨d1 + d5, d4, AddsAllOn.append.mpr ⟨d1, d5, h3.base hb, h9, by omega⟩, h7.base hb,
      by omega⟩, ?_⟩
    dsimp only at h10 ⊢
    omega
  | call n pool c =>
    refine ⟨d + -W.ev (.called c), AddsAllOn.append.mpr ⟨d, -W.ev (.called c), h1.base hb,
      ⟨_, 0, [], (by intro bid h; cases h), on_task ok c, Int.le_refl _, by omega⟩, by omega⟩, ?_⟩
    dsimp only
    rw [total_log]; omega
  | change n n' pool h =>
    refine ⟨d, h1.base hb, ?_⟩
    dsimp only
    rw [total_outside h]

/-- A restart sets the statistics to zero. -/
theorem total_restarted (ok : W.OK) (strict : W.strict) {n m : Node} (clock : Nat) (he : m.events = n.events) :
    W.total (restarted m clock) ≤ W.total n := by
  have r := ok.receiveLater strict
  have t := ok.transLater strict
  have h1 : 0 ≤ W.incoming * (n.stats.incoming : Int) := Int.mul_nonneg r.1 (by omega)
  have h2 : 0 ≤ W.dups * (n.stats.dups : Int) := Int.mul_nonneg r.2.1 (by omega)
  have h3 : 0 ≤ W.outgoing * (n.stats.outgoing : Int) := Int.mul_nonneg t.1 (by omega)
  have h4 : 0 ≤ W.failed * (n.stats.failed : Int) := Int.mul_nonneg t.2.1 (by omega)
  have h5 : 0 ≤ W.delivered * (n.stats.delivered : Int) := Int.mul_nonneg (ok.giveLater strict) (by omega)
  simp only [Weights.total, restarted, he, Int.natCast_zero, Int.mul_zero]
  omega

/-- At any time, in any history. -/
theorem Enough.always (ok : Enough W) (strict : W.strict) {cfg : Config} {clock : Nat} {s : Sys}
    (run : Reaches ⟨Node.start cfg clock, []⟩ s)
    (ha : ∀ bp a, Event.asked bp (some a) ∈ s.node.events → W.answers a) : W.total s.node ≤ 0 := by
  suffices h : ∃ d, AddsAllOn W s.node s.pool d ∧ W.total s.node + d ≤ 0 by
    obtain ⟨d, h1, h2⟩ := h
    have := h1.nonneg strict
    omega
  induction run with
  | refl => exact ⟨0, Int.le_refl _, by simp [Weights.total, Node.start]⟩
  | @step t u hr hst ih =>
    have b := (between hr (.step (.refl _) hst)).2.1.base
    obtain ⟨d, h1, h2⟩ := ih (fun bp a h => ha bp a (b.events _ h))
    obtain ⟨d', h3, h4⟩ := ok.step (sled_good hr).1.inv b hst h1 ha
    exact ⟨d', h3, by omega⟩
  | @restart n pool clock hr ih =>
    obtain ⟨d, h1, h2⟩ := ih ha
    have := h1.nonneg strict
    have e : W.total (restarted n clock) ≤ W.total n := total_restarted ok.toOK strict clock rfl
    exact ⟨0, Int.le_refl _, by dsimp only at h2 ⊢; omega⟩
  | @cut n pool clock op k hw hr ih =>
    obtain ⟨d, h1, h2⟩ := ih ha
    have := h1.nonneg strict
    have e : W.total (restarted (setDb n ((db n).crashStep op k)) clock) ≤ W.total n :=
      total_restarted ok.toOK strict clock rfl
    exact ⟨0, Int.le_refl _, by dsimp only at h2 ⊢; omega⟩

/-- From a state in which no task is running to another one, without a stop of the process. -/
theorem Enough.ended (ok : Enough W) {cfg : Config} {clock : Nat} {n m : Node} {I : Node → Prop}
    (before : Reaches ⟨Node.start cfg clock, []⟩ ⟨n, []⟩) (run : SledThroughout I ⟨n, []⟩ ⟨m, []⟩)
    (ha : ∀ bp a, Event.asked bp (some a) ∈ m.events → W.answers a) : W.total m ≤ W.total n := by
  suffices h : ∀ t, SledThroughout I ⟨n, []⟩ t → (∀ bp a, Event.asked bp (some a) ∈ t.node.events → W.answers a) →
      ∃ d, AddsAllOn W t.node t.pool d ∧ W.total t.node + d ≤ W.total n by
    obtain ⟨d, h1, h2⟩ := h _ run ha
    have : 0 ≤ d := h1
    dsimp only at h2
    omega
  intro t run ha
  induction run with
  | refl => exact ⟨0, Int.le_refl _, by dsimp only; omega⟩
  | @step t u hr hst _ ih =>
    have bt := before.join hr.reaches
    have b := (between bt (.step (.refl _) hst)).2.1.base
    obtain ⟨d, h1, h2⟩ := ih (fun bp a h => ha bp a (b.events _ h))
    obtain ⟨d', h3, h4⟩ := ok.step (sled_good bt).1.inv b hst h1 ha
    exact ⟨d', h3, by omega⟩

end Dtn.OnSled
