import Verif.Lemmas.ProcGood
import Mathlib.Tactic.Ring
import Mathlib.Algebra.BigOperators.Group.List.Basic
/-! Counting: weights of events and statistics, and how much of them a task may still add. -/

namespace Dtn.Proc
open Routing (Notification Answer)

/-- Weights of events and statistics, and allowances for parts of the programs. -/
structure Weights where
  ev : Event → Int := fun _ => 0
  incoming : Int := 0
  dups : Int := 0
  outgoing : Int := 0
  delivered : Int := 0
  failed : Int := 0
  /-- allowance for one status report about a bundle -/
  rep : Pos → Reason → String → Int := fun _ _ _ => 0
  /-- allowance for giving a bundle to an agent -/
  give : String → Int := fun _ => 0
  /-- allowance for dispatching a bundle -/
  disp : String → Int := fun _ => 0
  /-- allowance for a transfer -/
  trans : Transfer → Int := fun _ => 0
  /-- the router's answers that are considered -/
  answers : Answer → Prop := fun _ => True
  /-- is the bound to hold at any time, not only when all tasks have ended? -/
  strict : Prop := False

namespace Weights

/-- Weight of the history and statistics of a node. -/
def total (W : Weights) (n : Node) : Int :=
  (n.events.map W.ev).sum + W.incoming * n.stats.incoming + W.dups * n.stats.dups + W.outgoing * n.stats.outgoing +
    W.delivered * n.stats.delivered + W.failed * n.stats.failed

/-- The number of unknown blocks that ask for a report. -/
def asking (cs : List Block) : Nat := cs.countP fun c => decide (11 ≤ c.btype) && c.flags.report

/-- The allowances suffice. -/
structure OK (W : Weights) : Prop where
  removed : ∀ bid c, W.ev (.removed bid c) ≤ 0
  popped : ∀ e b, W.ev (.popped e b) ≤ 0
  repNonneg : ∀ p r i, 0 ≤ W.rep p r i
  report : ∀ r, W.ev (.report r) ≤ W.rep r.pos r.reason r.pack.id
  giveNonneg : ∀ i, 0 ≤ W.give i
  give : ∀ e b ch, W.ev (.delivered e b ch) + W.delivered ≤ W.give b.id
  giveLater : W.strict → 0 ≤ W.delivered
  dispNonneg : ∀ i, 0 ≤ W.disp i
  disp : ∀ b, W.ev (.note (.incomingBundle b)) + W.rep .delivered .noInformation b.id + W.give b.id ≤ W.disp b.id
  dispDeleted : ∀ b, W.ev (.note (.incomingBundle b)) + W.rep .deleted .noInformation b.id ≤ W.disp b.id
  succeeded : ∀ t node, t.to.nextHop.node = some node →
    W.ev (.sending t) + W.ev (.outcome t true) + W.outgoing + W.ev (.note (.sendingSucceeded t.stored.id node)) ≤ W.trans t
  failed : ∀ t node, t.to.nextHop.node = some node →
    W.ev (.sending t) + W.ev (.outcome t false) + W.failed + W.ev (.note (.sendingFailed t.stored.id node)) ≤ W.trans t
  unnamedSucceeded : ∀ t, t.to.nextHop.node = none → (∃ a, W.answers a ∧ t.to ∈ a.clas) →
    W.ev (.sending t) + W.ev (.outcome t true) + W.outgoing ≤ W.trans t
  unnamedFailed : ∀ t, t.to.nextHop.node = none → (∃ a, W.answers a ∧ t.to ∈ a.clas) →
    W.ev (.sending t) + W.ev (.outcome t false) + W.failed ≤ W.trans t
  transLater : W.strict → 0 ≤ W.outgoing ∧ 0 ≤ W.failed ∧ (∀ t ok, 0 ≤ W.ev (.outcome t ok)) ∧ (∀ t, 0 ≤ W.trans t) ∧
    ∀ i node, 0 ≤ W.ev (.note (.sendingSucceeded i node)) ∧ 0 ≤ W.ev (.note (.sendingFailed i node))
  unasked : ∀ bp, W.ev (.asked bp none) ≤ 0
  asked : ∀ bp a, W.answers a → W.ev (.asked bp (some a)) ≤ 0
  askedDeleted : ∀ bp a r, W.answers a → W.ev (.asked bp (some a)) + W.rep .deleted r bp.id ≤ 0
  askedSent : ∀ bp a (mk : Sender → Transfer), W.answers a → (∀ s, (mk s).stored.id = bp.id ∧ (mk s).to = s) →
    W.ev (.asked bp (some a)) + (a.clas.map fun s => W.trans (mk s)).sum + W.rep .forwarded .noInformation bp.id ≤ 0
  receive : ∀ b, W.ev (.called (.receive b)) + W.ev (.accepted b) + W.incoming + W.rep .received .noInformation b.id +
    asking b.canonicals * W.rep .received .blockUnintelligible b.id + W.disp b.id ≤ 0
  receiveDeleted : ∀ b, W.ev (.called (.receive b)) + W.ev (.accepted b) + W.incoming +
    W.rep .received .noInformation b.id + asking b.canonicals * W.rep .received .blockUnintelligible b.id +
    W.rep .deleted .blockUnintelligible b.id ≤ 0
  duplicate : ∀ b, W.ev (.called (.receive b)) + W.ev (.duplicate b) + W.dups ≤ 0
  receiveLater : W.strict → 0 ≤ W.incoming ∧ 0 ≤ W.dups ∧ ∀ b, W.ev (.called (.receive b)) ≤ 0
  send : ∀ b, W.ev (.called (.send b)) + W.disp b.id ≤ 0
  sendDeleted : ∀ b, W.ev (.called (.send b)) + W.rep .deleted .noInformation b.id ≤ 0
  other : ∀ bid, W.ev (.called (.remove bid)) ≤ 0
  pop : ∀ e, W.ev (.called (.pop e)) ≤ 0
  janitor : W.ev (.called .janitor) ≤ 0

end Weights

/-- The task adds at most weight `d`. -/
def Adds (W : Weights) : Prog → Int → Prop
  | .done _, d => 0 ≤ d
  | .panic, d => 0 ≤ d
  | .act f k, d => (W.strict → 0 ≤ d) ∧
      ∀ m, m.store.Inv → ∃ d', Adds W (k m) d' ∧ W.total (f m) + d' ≤ W.total m + d
  | .route bp k, d => (W.strict → 0 ≤ d) ∧
      ∀ a, (∀ x, a = some x → W.answers x) → ∃ d', Adds W (k a) d' ∧ W.ev (.asked bp a) + d' ≤ d
  | .choose k, d => (W.strict → 0 ≤ d) ∧ ∀ b, Adds W (k b) d
  | .fresh k, d => (W.strict → 0 ≤ d) ∧ ∀ s, Adds W (k s) d
  | .spawn t k, d => ∃ d1 d2, Adds W t d1 ∧ Adds W k d2 ∧ d1 + d2 ≤ d ∧ (W.strict → 0 ≤ d)
  | .wait _ k, d => Adds W k d

variable {W : Weights}

theorem Adds.nonneg {p : Prog} : ∀ {d : Int}, Adds W p d → W.strict → 0 ≤ d := by
  induction p with
  | done | panic => intro d h _; exact h
  | act | route | choose | fresh => intro d h; exact h.1
  | spawn => intro d h; obtain ⟨_, _, _, _, _, h⟩ := h; exact h
  | wait c k ih => intro d h; exact ih h

theorem Adds.mono {p : Prog} : ∀ {d d' : Int}, Adds W p d → d ≤ d' → Adds W p d' := by
  induction p with
  | done | panic => intro d d' h hd; exact Int.le_trans h hd
  | act f k ih =>
    intro d d' h hd
    refine ⟨fun s => Int.le_trans (h.1 s) hd, fun m i => ?_⟩
    obtain ⟨e, h1, h2⟩ := h.2 m i
    exact ⟨e, h1, by omega⟩
  | route bp k ih =>
    intro d d' h hd
    refine ⟨fun s => Int.le_trans (h.1 s) hd, fun a ha => ?_⟩
    obtain ⟨e, h1, h2⟩ := h.2 a ha
    exact ⟨e, h1, by omega⟩
  | choose k ih => intro d d' h hd; exact ⟨fun s => Int.le_trans (h.1 s) hd, fun b => ih b (h.2 b) hd⟩
  | fresh k ih => intro d d' h hd; exact ⟨fun s => Int.le_trans (h.1 s) hd, fun b => ih b (h.2 b) hd⟩
  | spawn t k iht ihk =>
    intro d d' h hd
    obtain ⟨a, b, h1, h2, h3, h4⟩ := h
    exact ⟨a, b, h1, h2, by omega, fun s => Int.le_trans (h4 s) hd⟩
  | wait c k ih => intro d d' h hd; exact ih h hd

/-- All tasks together add at most `d`. -/
def AddsAll (W : Weights) : List Prog → Int → Prop
  | [], d => 0 ≤ d
  | p :: ps, d => ∃ d1 d2, Adds W p d1 ∧ AddsAll W ps d2 ∧ d1 + d2 ≤ d

theorem AddsAll.mono {ps : List Prog} : ∀ {d d' : Int}, AddsAll W ps d → d ≤ d' → AddsAll W ps d' := by
  cases ps with
  | nil => intro d d' h hd; exact Int.le_trans h hd
  | cons p ps =>
    intro d d' h hd
    obtain ⟨a, b, h1, h2, h3⟩ := h
    exact ⟨a, b, h1, h2, by omega⟩

theorem AddsAll.nonneg {ps : List Prog} : ∀ {d : Int}, AddsAll W ps d → W.strict → 0 ≤ d := by
  induction ps with
  | nil => intro d h _; exact h
  | cons p ps ih =>
    intro d h s
    obtain ⟨a, b, h1, h2, h3⟩ := h
    have := h1.nonneg s
    have := ih h2 s
    omega

theorem AddsAll.append {ps qs : List Prog} : ∀ {d : Int},
    AddsAll W (ps ++ qs) d ↔ ∃ d1 d2, AddsAll W ps d1 ∧ AddsAll W qs d2 ∧ d1 + d2 ≤ d := by
  induction ps with
  | nil =>
    intro d
    constructor
    · intro h; exact ⟨0, d, Int.le_refl _, h, by omega⟩
    · rintro ⟨a, b, h1, h2, h3⟩
      have : 0 ≤ a := h1
      exact AddsAll.mono h2 (by omega)
  | cons p ps ih =>
    intro d
    constructor
    · rintro ⟨a, b, h1, h2, h3⟩
      obtain ⟨c, e, h4, h5, h6⟩ := ih.mp h2
      exact ⟨a + c, e, ⟨a, c, h1, h4, by omega⟩, h5, by omega⟩
    · rintro ⟨a, b, ⟨c, e, h1, h2, h3⟩, h4, h5⟩
      exact ⟨c, e + b, h1, ih.mpr ⟨e, b, h2, h4, by omega⟩, by omega⟩

theorem total_log (n : Node) (e : Event) : W.total (n.log e) = W.total n + W.ev e := by
  simp only [Weights.total, Node.log, List.map_append, List.sum_append, List.map_cons, List.map_nil, List.sum_cons,
    List.sum_nil]
  omega

theorem AddsAll.taskStep {n n' : Node} {p : Prog} {ps : List Prog} {d : Int} (h : TaskStep n p n' ps) (inv : n.store.Inv)
    (hp : Adds W p d) (ha : ∀ bp a, Event.asked bp (some a) ∈ n'.events → W.answers a) :
    ∃ d', AddsAll W ps d' ∧ W.total n' + d' ≤ W.total n + d := by
  cases h with
  | done => have : 0 ≤ d := hp; exact ⟨0, Int.le_refl _, by omega⟩
  | panic => have : 0 ≤ d := hp; exact ⟨0, Int.le_refl _, by omega⟩
  | act f k =>
    obtain ⟨d', h1, h2⟩ := hp.2 n inv
    exact ⟨d', ⟨d', 0, h1, Int.le_refl _, by omega⟩, h2⟩
  | route bp k a =>
    obtain ⟨d', h1, h2⟩ := hp.2 a (fun x hx => ha bp x (by subst hx; simp [Node.log]))
    refine ⟨d', ⟨d', 0, h1, Int.le_refl _, by omega⟩, ?_⟩
    rw [total_log]; omega
  | choose k b => exact ⟨d, ⟨d, 0, hp.2 b, Int.le_refl _, by omega⟩, Int.le_refl _⟩
  | fresh k b => exact ⟨d, ⟨d, 0, hp.2 b, Int.le_refl _, by omega⟩, Int.le_refl _⟩
  | spawn t k =>
    obtain ⟨a, b, h1, h2, h3, _⟩ := hp
    exact ⟨a + b, ⟨b, a, h2, ⟨a, 0, h1, Int.le_refl _, by omega⟩, by omega⟩, by omega⟩
  | wait c k hc => exact ⟨d, ⟨d, 0, hp, Int.le_refl _, by omega⟩, Int.le_refl _⟩

/-! ### Actions -/

theorem total_eq {n m : Node} (he : m.events = n.events) (hs : m.stats = n.stats) : W.total m = W.total n := by
  simp only [Weights.total, he, hs]

theorem total_remove (ok : W.OK) (n : Node) (bid : String) (c : Cause) : W.total (n.remove bid c) ≤ W.total n := by
  unfold Node.remove
  split
  · rw [total_log]
    have := ok.removed bid c
    have e : W.total { n with store := (n.store.remove bid).1 } = W.total n := total_eq rfl rfl
    omega
  · exact Int.le_of_eq (total_eq rfl rfl)

theorem total_sync (ok : W.OK) (n : Node) (bp : Pack) (c : Cause) : W.total (n.sync bp c) ≤ W.total n := by
  unfold Node.sync
  split
  · exact total_remove ok n _ _
  · exact Int.le_of_eq (total_eq rfl rfl)

theorem total_removeIfSingleton (ok : W.OK) (n : Node) (b : Bundle) : W.total (n.removeIfSingleton b) ≤ W.total n := by
  unfold Node.removeIfSingleton
  split
  · exact total_remove ok n _ _
  · exact Int.le_refl _

theorem total_push (n : Node) (b : Bundle) : W.total (n.push b) = W.total n := total_eq rfl rfl

theorem adds_act {f : Node → Node} {k : Node → Prog} {d : Int} (hd : W.strict → 0 ≤ d)
    (hf : ∀ m, W.total (f m) ≤ W.total m) (hk : ∀ m, m.store.Inv → Adds W (k m) d) : Adds W (.act f k) d :=
  ⟨hd, fun m i => ⟨d, hk m i, by have := hf m; omega⟩⟩

theorem adds_set {f : Node → Node} {k : Prog} {d : Int} (hf : ∀ m, W.total (f m) ≤ W.total m) (hk : Adds W k d) :
    Adds W (.set f k) d :=
  adds_act hk.nonneg hf fun _ _ => hk

theorem adds_read {k : Node → Prog} {d : Int} (hd : W.strict → 0 ≤ d) (hk : ∀ m, m.store.Inv → Adds W (k m) d) :
    Adds W (.read k) d :=
  adds_act hd (fun _ => Int.le_refl _) hk

theorem adds_log {e : Event} {k : Prog} {d : Int} (hd : W.strict → 0 ≤ d) (hk : Adds W k (d - W.ev e)) :
    Adds W (.set (fun n => n.log e) k) d :=
  ⟨hd, fun m _ => ⟨_, hk, by rw [total_log]; omega⟩⟩

theorem adds_stat {f : Node → Node} {k : Prog} {d w : Int} (hd : W.strict → 0 ≤ d)
    (hf : ∀ m, W.total (f m) = W.total m + w) (hk : Adds W k (d - w)) : Adds W (.set f k) d :=
  ⟨hd, fun m _ => ⟨_, hk, by rw [hf]; omega⟩⟩

/-! ### Programs -/

theorem adds_sendReport (ok : W.OK) {bp : Pack} {cause : Bundle} {pos : Pos} {reason : Reason} {k : Prog} {d : Int}
    (hk : Adds W k d) : Adds W (sendReport bp cause pos reason k) (d + W.rep pos reason bp.id) := by
  have hr := ok.repNonneg pos reason bp.id
  have hd : W.strict → 0 ≤ d + W.rep pos reason bp.id := fun s => by have := hk.nonneg s; omega
  have hk' : Adds W k (d + W.rep pos reason bp.id) := hk.mono (by omega)
  unfold sendReport
  split
  · exact hk'
  apply adds_read hd
  intro m _
  split
  · exact hk'
  rename_i subject _
  apply adds_read hd
  intro m2 _
  split
  · exact hk'
  refine ⟨hd, fun bid => ⟨hd, fun m3 _ => ⟨d, ?_, ?_⟩⟩⟩
  · exact adds_set (fun m4 => total_sync ok m4 _ _) hk
  · rw [total_log, total_push]
    have := ok.report (Report.mk bp cause m2.agents.eids subject (mkReport m3 subject bid pos) pos reason)
    dsimp only at this ⊢
    omega

theorem adds_reportIf (ok : W.OK) {asked : Bool} {bp : Pack} {b : Bundle} {pos : Pos} {reason : Reason} {k : Prog}
    {d : Int} (hk : Adds W k d) : Adds W (reportIf asked bp b pos reason k) (d + W.rep pos reason bp.id) := by
  have hr := ok.repNonneg pos reason bp.id
  have hd : W.strict → 0 ≤ d + W.rep pos reason bp.id := fun s => by have := hk.nonneg s; omega
  unfold reportIf
  apply adds_read hd
  intro m _
  split
  · exact adds_sendReport ok hk
  · exact hk.mono (by omega)

theorem adds_delete (ok : W.OK) {bp : Pack} {reason : Reason} {cause : Cause} {k : Bool → Prog} {d : Int}
    (hk : ∀ o, Adds W (k o) d) : Adds W (delete bp reason cause k) (d + W.rep .deleted reason bp.id) := by
  have hr := ok.repNonneg .deleted reason bp.id
  have hd : W.strict → 0 ≤ d + W.rep .deleted reason bp.id := fun s => by have := (hk true).nonneg s; omega
  unfold delete
  apply adds_read hd
  intro m _
  split
  · exact (hk _).mono (by omega)
  · apply adds_reportIf ok
    exact adds_act (hk true).nonneg (fun m => total_sync ok m _ _) fun m _ => hk _

theorem adds_inspectReport (ok : W.OK) {b : Bundle} {r : AdminRecord} {k : Prog} {d : Int} (hk : Adds W k d) :
    Adds W (inspectReport b r k) d := by
  unfold inspectReport
  split
  · split
    · exact hk
    · apply adds_read hk.nonneg
      intro m _
      split
      · exact hk
      · split
        · exact hk
        · exact adds_set (fun m => total_remove ok m _ _) hk
  · exact hk

theorem adds_adminValid (ok : W.OK) {b : Bundle} {k : Bool → Prog} {d : Int} (hk : ∀ o, Adds W (k o) d) :
    Adds W (adminValid b k) d := by
  unfold adminValid
  split
  · exact hk _
  · split
    · exact hk _
    · split
      · apply adds_read (hk true).nonneg
        intro m _
        split
        · exact adds_inspectReport ok (hk _)
        · exact hk _
      · exact hk _

theorem adds_contraindicated (ok : W.OK) {bp : Pack} {k : Bool → Prog} {d : Int} (hk : ∀ o, Adds W (k o) d) :
    Adds W (contraindicated bp k) d :=
  adds_act (hk true).nonneg (fun m => total_sync ok m _ _) fun _ _ => hk _

theorem total_delivered (n : Node) :
    W.total { n with stats := { n.stats with delivered := n.stats.delivered + 1 } } = W.total n + W.delivered := by
  simp only [Weights.total]; push_cast; ring

theorem total_incoming (n : Node) :
    W.total { n with stats := { n.stats with incoming := n.stats.incoming + 1 } } = W.total n + W.incoming := by
  simp only [Weights.total]; push_cast; ring

theorem total_dups (n : Node) :
    W.total { n with stats := { n.stats with dups := n.stats.dups + 1 } } = W.total n + W.dups := by
  simp only [Weights.total]; push_cast; ring

theorem total_outgoing (n : Node) :
    W.total { n with stats := { n.stats with outgoing := n.stats.outgoing + 1 } } = W.total n + W.outgoing := by
  simp only [Weights.total]; push_cast; ring

theorem total_failed (n : Node) :
    W.total { n with stats := { n.stats with failed := n.stats.failed + 1 } } = W.total n + W.failed := by
  simp only [Weights.total]; push_cast; ring

theorem adds_giveToAgent (ok : W.OK) {eid : EID} {b : Bundle} {k : Bool → Prog} {d : Int} (hk : ∀ o, Adds W (k o) d) :
    Adds W (giveToAgent eid b k) (d + W.give b.id) := by
  have hg := ok.giveNonneg b.id
  have hd : W.strict → 0 ≤ d + W.give b.id := fun s => by have := (hk true).nonneg s; omega
  have hdel : W.strict → 0 ≤ d + W.delivered := fun s => by
    have := (hk true).nonneg s; have := ok.giveLater s; omega
  unfold giveToAgent
  refine ⟨hd, fun room => ⟨hd, fun m _ => ?_⟩⟩
  have count : Adds W (Prog.set (fun n => { n with stats := { n.stats with delivered := n.stats.delivered + 1 } })
      (k true)) (d + W.delivered) :=
    adds_stat hdel total_delivered ((hk true).mono (by omega))
  cases ha : m.agents.find eid with
  | none =>
    refine ⟨d, by simp only [ha]; exact hk _, ?_⟩
    simp only [Node.deliver, ha]
    omega
  | some a =>
    refine ⟨d + W.delivered, ?_, ?_⟩
    · simp only [ha]
      split
      · exact adds_set (fun m => total_removeIfSingleton ok m _) count
      · exact count
    · simp only [Node.deliver, ha]
      rw [total_log]
      have := ok.give eid b (a.push b room).2
      have e : W.total { m with agents := Registry.modify (fun a => (a.push b room).1) eid m.agents } = W.total m :=
        total_eq rfl rfl
      rw [e]
      omega

theorem adds_finishDelivery (ok : W.OK) {bp : Pack} {b : Bundle} {k : Bool → Prog} {d : Int}
    (hk : ∀ o, Adds W (k o) d) : Adds W (finishDelivery bp b k) (d + W.give b.id) := by
  have hg := ok.giveNonneg b.id
  have hd : W.strict → 0 ≤ d + W.give b.id := fun s => by have := (hk true).nonneg s; omega
  unfold finishDelivery
  apply adds_act hd (fun m => total_sync ok m _ _)
  intro m _
  split
  · exact (hk _).mono (by omega)
  · exact adds_giveToAgent ok hk

theorem adds_deliverBundle (ok : W.OK) {bp : Pack} {b : Bundle} {k : Bool → Prog} {d : Int}
    (hk : ∀ o, Adds W (k o) d) :
    Adds W (deliverBundle bp b k) (d + W.give b.id + W.rep .delivered .noInformation bp.id) := by
  have hg := ok.giveNonneg b.id
  have hr := ok.repNonneg .delivered .noInformation bp.id
  have hd : W.strict → 0 ≤ d + W.give b.id + W.rep .delivered .noInformation bp.id := fun s => by
    have := (hk true).nonneg s; omega
  unfold deliverBundle
  apply adds_act hd (fun m => total_sync ok m _ _)
  intro m _
  split
  · exact (hk _).mono (by omega)
  apply adds_read hd
  intro m _
  split
  · have := adds_reportIf ok (asked := b.primary.flags.reqDelivery) (bp := bp.add .localEndpoint) (b := b) (pos := .delivered)
      (reason := .noInformation) (adds_finishDelivery ok (bp := (bp.add .localEndpoint).clear) (b := b) hk)
    exact this
  · exact (adds_finishDelivery ok hk).mono (by omega)

/-- The larger of the two allowances of a local delivery. -/
theorem adds_localDelivery (ok : W.OK) {bp : Pack} {k : Bool → Prog} {d e : Int} (hk : ∀ o, Adds W (k o) d)
    (h1 : d + W.give bp.id + W.rep .delivered .noInformation bp.id ≤ e)
    (h2 : d + W.rep .deleted .noInformation bp.id ≤ e) : Adds W (localDelivery bp k) e := by
  have hr := ok.repNonneg .deleted .noInformation bp.id
  have hd : W.strict → 0 ≤ e := fun s => by have := (hk true).nonneg s; omega
  unfold localDelivery
  apply adds_read hd
  intro m i
  split
  · exact (hk _).mono (by omega)
  · rename_i b hb
    have hid := i.bundleId _ _ hb
    have hdel : Adds W (deliverBundle bp b k) e := (adds_deliverBundle ok hk).mono (by rw [hid]; exact h1)
    split
    · apply adds_adminValid ok
      intro o
      split
      · exact (adds_delete ok fun _ => hk _).mono h2
      · exact hdel
    · exact hdel

theorem adds_transferTask (ok : W.OK) {bid : String} {t : Transfer} (hid : t.stored.id = bid)
    (ha : ∃ a, W.answers a ∧ t.to ∈ a.clas) : Adds W (transferTask bid t) (W.trans t) := by
  subst hid
  have endq : ∀ (d : Int) (p : Prog), p = .done true ∨ p = .panic → 0 ≤ d →
      Adds W (.set (fun n => n.endTask t.group) p) d := by
    intro d p hp hd
    refine adds_set (fun m => Int.le_of_eq (total_eq rfl rfl)) ?_
    rcases hp with rfl | rfl <;> exact hd
  unfold transferTask
  refine adds_log (fun s => (ok.transLater s).2.2.2.1 t) ?_
  have hnode : ∀ o, W.strict → 0 ≤ W.trans t - W.ev (.sending t) - W.ev (.outcome t o) - (if o then W.outgoing else W.failed) := by
    intro o s
    obtain ⟨-, -, -, -, h⟩ := ok.transLater s
    cases hn : t.to.nextHop.node with
    | none =>
      have h1 := ok.unnamedSucceeded t hn ha
      have h2 := ok.unnamedFailed t hn ha
      cases o <;> simp <;> omega
    | some node =>
      have h1 := ok.succeeded t node hn
      have h2 := ok.failed t node hn
      have h3 := h t.stored.id node
      cases o <;> simp <;> omega
  have hstat : ∀ o, W.strict → 0 ≤ W.trans t - W.ev (.sending t) - W.ev (.outcome t o) := by
    intro o s
    have := hnode o s
    obtain ⟨h1, h2, -⟩ := ok.transLater s
    cases o <;> simp at this <;> omega
  have hsend : W.strict → 0 ≤ W.trans t - W.ev (.sending t) := by
    intro s
    have := hstat true s
    have := (ok.transLater s).2.2.1 t true
    omega
  refine ⟨hsend, fun o => adds_log hsend ?_⟩
  cases o
  · simp only [Bool.not_false, if_true]
    apply adds_stat (hstat false) total_failed
    cases hn : t.to.nextHop.node with
    | none => exact endq _ _ (.inr rfl) (by have := ok.unnamedFailed t hn ha; omega)
    | some node =>
      have hf := ok.failed t node hn
      apply adds_log (by simpa using hnode false)
      refine adds_act (fun s => by omega) (fun m => Int.le_of_eq (total_eq rfl rfl)) fun m _ => ?_
      refine adds_set (fun m => Int.le_of_eq (total_eq rfl rfl)) ?_
      exact endq _ _ (.inl rfl) (by omega)
  · simp only [Bool.not_true, Bool.false_eq_true, if_false]
    apply adds_stat (hstat true) total_outgoing
    refine adds_set (fun m => Int.le_of_eq (total_eq rfl rfl)) ?_
    cases hn : t.to.nextHop.node with
    | none => exact endq _ _ (.inr rfl) (by have := ok.unnamedSucceeded t hn ha; omega)
    | some node =>
      have hf := ok.succeeded t node hn
      apply adds_log (by simpa using hnode true)
      exact endq _ _ (.inl rfl) (by omega)

theorem adds_spawnTransfers (ok : W.OK) {bid : String} {mk : Sender → Transfer} {k : Prog} {d : Int} (ss : List Sender)
    (h : ∀ s ∈ ss, (mk s).stored.id = bid ∧ ∃ a, W.answers a ∧ (mk s).to ∈ a.clas) (hk : Adds W k d) :
    Adds W (spawnTransfers bid mk ss k) (d + (ss.map fun s => W.trans (mk s)).sum) := by
  induction ss with
  | nil => simpa [spawnTransfers] using hk
  | cons s ss ih =>
    have ih := ih fun s' hs => h s' (by simp [hs])
    refine ⟨_, _, adds_transferTask ok (h s (by simp)).1 (h s (by simp)).2, ih, ?_, ?_⟩
    · simp only [List.map_cons, List.sum_cons]; omega
    · intro st
      have h1 := (ok.transLater st).2.2.2.1 (mk s)
      have h2 := ih.nonneg st
      simp only [List.map_cons, List.sum_cons]; omega

theorem adds_afterTransfers (ok : W.OK) {bp : Pack} {b : Bundle} {a : Answer} {g : Nat} {k : Bool → Prog} {d : Int}
    (hk : ∀ o, Adds W (k o) d) : Adds W (afterTransfers bp b a g k) (d + W.rep .forwarded .noInformation bp.id) := by
  have hr := ok.repNonneg .forwarded .noInformation bp.id
  have hd : W.strict → 0 ≤ d + W.rep .forwarded .noInformation bp.id := fun s => by have := (hk true).nonneg s; omega
  unfold afterTransfers
  apply adds_read hd
  intro m _
  split
  · apply adds_reportIf ok
    split
    · exact adds_act (hk true).nonneg (fun m => total_remove ok m _ _) fun _ _ => hk _
    · split
      · exact adds_adminValid ok fun _ => adds_contraindicated ok hk
      · exact hk _
  · exact (hk _).mono (by omega)

theorem adds_prepare (ok : W.OK) {bp : Pack} {a : Answer} {k : Bool → Prog} {d e : Int} (ha : W.answers a)
    (hk : ∀ o, Adds W (k o) d) (h0 : 0 ≤ d) (h1 : d ≤ e) (hdel : ∀ r, d + W.rep .deleted r bp.id ≤ e)
    (hsent : ∀ mk : Sender → Transfer, (∀ s, (mk s).stored.id = bp.id ∧ (mk s).to = s) →
      d + (a.clas.map fun s => W.trans (mk s)).sum + W.rep .forwarded .noInformation bp.id ≤ e) :
    Adds W (prepare bp a k) e := by
  have hd : W.strict → 0 ≤ e := fun s => by have := (hk true).nonneg s; omega
  unfold prepare
  apply adds_read hd
  intro m i
  split
  · exact (hk _).mono h1
  rename_i b hb
  have hid := i.bundleId _ _ hb
  have del : ∀ (b' : Bundle) c r (m : Node), b'.primary = b.primary →
      Adds W (delete (Pack.ofBundle m.clock b') r c fun _ => k false) e := by
    intro b' c r m hp
    refine (adds_delete ok fun _ => hk _).mono ?_
    have : (Pack.ofBundle m.clock b').id = bp.id := by
      rw [Pack.id_ofBundle, ← hid]; exact congrArg Primary.bid hp
    rw [this]; exact hdel r
  apply adds_read hd
  intro m1 _
  split
  · exact adds_read hd fun m2 _ => del _ _ _ _ rfl
  dsimp only
  split
  · exact adds_read hd fun m2 _ => del _ _ _ _ (raiseHop_primary b)
  apply adds_read hd
  intro m2 _
  split
  · exact Int.le_trans h0 h1
  rename_i b2 hb2
  apply adds_read hd
  intro m3 _
  split
  · refine adds_read hd fun m4 _ => del _ _ _ _ ?_
    rw [raiseAge_primary, setPrevious_primary hb2, raiseHop_primary]
  · unfold sendAll
    apply adds_act hd (fun m => Int.le_of_eq (total_eq rfl rfl))
    intro m4 _
    have hs := hsent (fun s => Transfer.mk m4.groups.length b
        (raiseAge m3.clock ((m3.store.getMetadata b.id).map Pack.receivedTime) b2).1 s m1.clock m3.clock
        ((m3.store.getMetadata b.id).map Pack.receivedTime)) fun s => ⟨hid, rfl⟩
    refine Adds.mono (adds_spawnTransfers ok (d := d + W.rep .forwarded .noInformation bp.id) _ ?_ ?_)
      (Int.le_trans (Int.le_of_eq ?_) hs)
    · intro s hs; exact ⟨hid, a, ha, hs⟩
    · exact adds_afterTransfers ok hk
    · rw [Int.add_right_comm]

theorem adds_forward (ok : W.OK) {bp : Pack} {k : Bool → Prog} {d : Int} (h0 : 0 ≤ d) (hk : ∀ o, Adds W (k o) d) :
    Adds W (forward bp k) d := by
  unfold forward
  apply adds_act (hk true).nonneg (fun m => total_sync ok m _ _)
  intro m _
  split
  · exact hk _
  refine ⟨(hk true).nonneg, fun answer hans => ?_⟩
  cases answer with
  | none =>
    have := ok.unasked ((bp.add .forwardPending).del .dispatchPending)
    exact ⟨d, hk _, by omega⟩
  | some a =>
    have ha := hans a rfl
    have hA := ok.asked ((bp.add .forwardPending).del .dispatchPending) a ha
    dsimp only
    split
    · refine ⟨d, ?_, by omega⟩
      split
      · exact adds_act (hk true).nonneg (fun m => total_remove ok m _ _) fun _ _ => hk _
      · exact hk _
    · refine ⟨d - W.ev (.asked ((bp.add .forwardPending).del .dispatchPending) (some a)), ?_, by omega⟩
      refine adds_prepare ok ha hk h0 (by omega) ?_ ?_
      · intro r
        have := ok.askedDeleted ((bp.add .forwardPending).del .dispatchPending) a r ha
        omega
      · intro mk hmk
        have := ok.askedSent ((bp.add .forwardPending).del .dispatchPending) a mk ha hmk
        omega

theorem adds_dispatchRemote (ok : W.OK) {bp : Pack} {k : Bool → Prog} {d : Int} (hk : ∀ o, Adds W (k o) d) :
    Adds W (dispatchRemote bp k) d := by
  unfold dispatchRemote
  apply adds_read (hk true).nonneg
  intro m _
  split
  · exact ⟨0, d, adds_forward ok (Int.le_refl _) fun _ => Int.le_refl _, hk _, by omega, (hk true).nonneg⟩
  · exact hk _

theorem adds_dispatch (ok : W.OK) {bp : Pack} {k : Bool → Prog} {d : Int} (h0 : 0 ≤ d) (hk : ∀ o, Adds W (k o) d) :
    Adds W (dispatch bp k) (d + W.disp bp.id) := by
  have hn := ok.dispNonneg bp.id
  have hd : W.strict → 0 ≤ d + W.disp bp.id := fun s => by have := (hk true).nonneg s; omega
  unfold dispatch
  apply adds_read hd
  intro m i
  split
  · show 0 ≤ d + W.disp bp.id; omega
  · rename_i b hb
    have hid := i.bundleId _ _ hb
    have h1 := ok.disp b
    have h2 := ok.dispDeleted b
    have h3 := ok.giveNonneg b.id
    have h4 := ok.repNonneg .delivered .noInformation b.id
    rw [hid] at h1 h2 h3 h4
    apply adds_log hd
    have hd' : W.strict → 0 ≤ d + W.disp bp.id - W.ev (.note (.incomingBundle b)) := fun s => by
      have := (hk true).nonneg s; omega
    apply adds_read hd'
    intro m1 _
    split
    · refine adds_localDelivery ok (d := d) ?_ (by omega) (by omega)
      intro o
      split
      · exact hk _
      · exact adds_dispatchRemote ok hk
    · exact (adds_dispatchRemote ok hk).mono (by omega)

theorem adds_transmit (ok : W.OK) {bp : Pack} {k : Bool → Prog} {d e : Int} (h0 : 0 ≤ d) (hk : ∀ o, Adds W (k o) d)
    (h1 : d + W.disp bp.id ≤ e) (h2 : d + W.rep .deleted .noInformation bp.id ≤ e) : Adds W (transmit bp k) e := by
  have hn := ok.dispNonneg bp.id
  have hd : W.strict → 0 ≤ e := fun s => by have := (hk true).nonneg s; omega
  unfold transmit
  apply adds_act hd (fun m => total_sync ok m _ _)
  intro m _
  split
  · exact (hk _).mono (by omega)
  apply adds_read hd
  intro m1 _
  split
  · exact (adds_delete ok hk).mono h2
  · exact (adds_dispatch ok h0 hk).mono h1

theorem adds_finishReceive (ok : W.OK) {b : Bundle} {bp : Pack} {l : List Nat} {k : Bool → Prog} {d : Int} (h0 : 0 ≤ d)
    (hk : ∀ o, Adds W (k o) d) : Adds W (finishReceive b bp l k) (d + W.disp bp.id) := by
  unfold finishReceive
  split
  · have := ok.dispNonneg bp.id
    show 0 ≤ d + W.disp bp.id; omega
  · exact adds_set (fun m => Int.le_of_eq (total_push _ _)) (adds_dispatch ok h0 fun _ => hk true)

theorem asking_cons (c : Block) (cs : List Block) :
    Weights.asking (c :: cs) = Weights.asking cs + if 11 ≤ c.btype ∧ c.flags.report = true then 1 else 0 := by
  simp [Weights.asking, List.countP_cons]

theorem adds_scanBlocks (ok : W.OK) {b : Bundle} {bp : Pack} {k : Bool → Prog} {d e : Int} (h0 : 0 ≤ d)
    (hk : ∀ o, Adds W (k o) d) (h1 : d + W.disp bp.id ≤ e) (h2 : d + W.rep .deleted .blockUnintelligible bp.id ≤ e)
    (cs : List Block) : ∀ (index : Nat) (l : List Nat),
    Adds W (scanBlocks b bp k cs index l) (e + Weights.asking cs * W.rep .received .blockUnintelligible bp.id) := by
  have hr := ok.repNonneg .received .blockUnintelligible bp.id
  induction cs with
  | nil =>
    intro index l
    exact (adds_finishReceive ok h0 hk).mono (by simp [Weights.asking]; omega)
  | cons c cs ih =>
    intro index l
    unfold scanBlocks
    rw [asking_cons]
    split
    · rename_i hc
      have : ¬ (11 ≤ c.btype ∧ c.flags.report = true) := by omega
      rw [if_neg this]
      exact ih _ _
    · rename_i hc
      have hn : 0 ≤ (Weights.asking cs : Int) * W.rep .received .blockUnintelligible bp.id :=
        Int.mul_nonneg (by omega) hr
      have cont : Adds W (if c.flags.deleteBundle then delete bp .blockUnintelligible (.block b c) k
          else scanBlocks b bp k cs (index + 1) (if c.flags.remove then l ++ [index] else l))
          (e + Weights.asking cs * W.rep .received .blockUnintelligible bp.id) := by
        split
        · exact (adds_delete ok hk).mono (by omega)
        · exact ih _ _
      dsimp only
      by_cases hrep : c.flags.report = true
      · rw [if_pos hrep, if_pos (c := 11 ≤ c.btype ∧ c.flags.report = true) ⟨by omega, hrep⟩]
        have e1 : e + ((Weights.asking cs + 1 : Nat) : Int) * W.rep .received .blockUnintelligible bp.id =
            e + Weights.asking cs * W.rep .received .blockUnintelligible bp.id +
              W.rep .received .blockUnintelligible bp.id := by push_cast; ring
        rw [e1]
        apply adds_read (fun s => by have := cont.nonneg s; omega)
        intro m _
        by_cases hs : m.cfg.statusReports = true
        · rw [if_pos hs]; exact adds_sendReport ok cont
        · rw [if_neg hs]; exact cont.mono (by omega)
      · rw [if_neg hrep, if_neg (c := 11 ≤ c.btype ∧ c.flags.report = true) (fun h => hrep h.2)]
        exact cont

theorem adds_receive (ok : W.OK) {b : Bundle} : Adds W (receive b .done) (-W.ev (.called (.receive b))) := by
  have hd : W.strict → 0 ≤ -W.ev (.called (.receive b)) := fun s => by
    have := (ok.receiveLater s).2.2 b; omega
  unfold receive
  refine ⟨hd, fun m _ => ?_⟩
  unfold Node.addIfUnknown
  dsimp only
  split
  · have h1 := ok.receive b
    have h2 := ok.receiveDeleted b
    refine ⟨-W.ev (.called (.receive b)) - W.ev (.accepted b), ?_, ?_⟩
    · have hr := ok.repNonneg .received .noInformation b.id
      have hs := ok.repNonneg .deleted .blockUnintelligible b.id
      have hu := ok.repNonneg .received .blockUnintelligible b.id
      have hn : 0 ≤ (Weights.asking b.canonicals : Int) * W.rep .received .blockUnintelligible b.id :=
        Int.mul_nonneg (by omega) hu
      have rest : 0 ≤ -W.ev (.called (.receive b)) - W.ev (.accepted b) - W.incoming := by omega
      refine adds_stat (w := W.incoming) (fun s => by have := (ok.receiveLater s).1; omega) total_incoming ?_
      refine adds_read (fun _ => rest) fun m1 _ => ?_
      refine adds_act (fun _ => rest) (fun m => total_sync ok m _ _) fun m2 _ => ?_
      split
      · exact rest
      · have hscan := fun (bp : Pack) => adds_scanBlocks ok (b := b) (bp := bp) (k := .done) (d := 0)
          (e := max (W.disp bp.id) (W.rep .deleted .blockUnintelligible bp.id)) (Int.le_refl _) (fun _ => Int.le_refl _)
          (by omega) (by omega) b.canonicals 0 []
        refine (adds_reportIf ok (hscan _)).mono ?_
        simp only [Pack.id_add, Pack.id_ofBundle]
        omega
    · rw [total_log]
      have e : W.total { m with store := (m.store.addIfUnknown m.clock b).1 } = W.total m := total_eq rfl rfl
      omega
  · have h1 := ok.duplicate b
    refine ⟨-W.ev (.called (.receive b)) - W.ev (.duplicate b), ?_, ?_⟩
    · refine adds_stat (w := W.dups) (fun s => by have := (ok.receiveLater s).2.1; omega) total_dups ?_
      show 0 ≤ _; omega
    · rw [total_log]
      have e : W.total { m with store := (m.store.addIfUnknown m.clock b).1 } = W.total m := total_eq rfl rfl
      omega

theorem adds_sweep (ok : W.OK) {k : Prog} {d : Int} (hk : Adds W k d) (ms : List Pack) : Adds W (sweep ms k) d := by
  induction ms with
  | nil => exact hk
  | cons p ms ih =>
    unfold sweep
    apply adds_read hk.nonneg
    intro m _
    split
    · exact adds_set (fun m => total_remove ok m _ _) ih
    · exact ih

theorem adds_collect {k : List Pack → Prog} {d : Int} (hk : ∀ l, Adds W (k l) d) (bids : List String) :
    ∀ acc, Adds W (collect bids acc k) d := by
  induction bids with
  | nil => intro acc; exact hk acc
  | cons bid bids ih =>
    intro acc
    unfold collect
    apply adds_read (hk []).nonneg
    intro m _
    split <;> exact ih _

theorem adds_forwardAll (ok : W.OK) (par : Bool) (bps : List Pack) : Adds W (forwardAll par bps) 0 := by
  induction bps with
  | nil => exact Int.le_refl _
  | cons bp bps ih =>
    unfold forwardAll
    split
    · exact ⟨0, 0, adds_forward ok (Int.le_refl _) fun _ => Int.le_refl _, ih, by omega, fun _ => Int.le_refl _⟩
    · exact adds_forward ok (Int.le_refl _) fun _ => ih

theorem adds_call (ok : W.OK) (c : Call) : Adds W c.prog (-W.ev (.called c)) := by
  cases c with
  | receive b => exact adds_receive ok
  | send b =>
    have h1 := ok.send b
    have h2 := ok.sendDeleted b
    have h3 := ok.dispNonneg b.id
    apply adds_set (fun m => Int.le_of_eq (total_push _ _))
    apply adds_read (fun s => by omega)
    intro m _
    apply adds_transmit ok (d := 0) (Int.le_refl _) (fun _ => Int.le_refl _)
    · rw [Pack.id_ofBundle]; omega
    · rw [Pack.id_ofBundle]; omega
  | remove bid =>
    have := ok.other bid
    apply adds_set (fun m => total_remove ok m _ _)
    show 0 ≤ _; omega
  | pop eid =>
    have hp := ok.pop eid
    have hd : (0 : Int) ≤ -W.ev (.called (.pop eid)) := by omega
    show Adds W (popBundle eid) _
    unfold popBundle
    apply adds_act (fun _ => hd)
    · intro m
      unfold Node.popAgent
      split
      · exact Int.le_refl _
      · split
        · exact Int.le_refl _
        · rename_i b _
          rw [total_log]
          have := ok.popped eid b
          have e : W.total { m with agents := Registry.modify (fun a => a.pop.1) eid m.agents } = W.total m := total_eq rfl rfl
          omega
    · intro m _
      split
      · exact hd
      · split
        · exact hd
        · refine adds_set (fun m => total_removeIfSingleton ok m _) ?_
          exact hd
  | janitor =>
    have hp := ok.janitor
    have hd : (0 : Int) ≤ -W.ev (.called .janitor) := by omega
    refine Adds.mono (d := 0) ?_ hd
    show Adds W processBundles 0
    unfold processBundles
    apply adds_read (fun _ => Int.le_refl _)
    intro m _
    apply adds_sweep ok
    apply adds_read (fun _ => Int.le_refl _)
    intro m _
    split
    · exact Int.le_refl _
    · apply adds_read (fun _ => Int.le_refl _)
      intro m _
      apply adds_collect
      intro l
      apply adds_read (fun _ => Int.le_refl _)
      intro m _
      exact adds_forwardAll ok _ _

theorem base_step {cfg : Config} {clock : Nat} {s t : Sys} (run : Reaches .any ⟨Node.start cfg clock, []⟩ s)
    (h : Step .any s t) : Base s.node t.node := by
  have hcall : ∀ c, World.any.call c → ∀ n, Good n → (Base n (n.log (.called c)) ∧ Good (n.log (.called c))) ∧
      RG Good Base c.prog (fun _ _ => True) (n.log (.called c)) :=
    fun c _ n i => ⟨⟨Base.log _ _, Good.acts.called n c i⟩, rg_call Good.acts c⟩
  have hch : ∀ n m, World.any.change n m → Good n → Base n m ∧ Good m :=
    fun n m h i => ⟨Base.outside h, Good.outside h i⟩
  have h1 := RG.reaches (I := Good) (G := Base) Base.refl (fun _ _ _ => Base.trans) hcall hch run (Good.start _ _) (by simp)
  exact (RG.reaches (I := Good) (G := Base) Base.refl (fun _ _ _ => Base.trans) hcall hch (.step (.refl s) h) h1.2.1 h1.2.2).1

theorem total_outside {n m : Node} (h : Outside n m) : W.total m = W.total n := by
  cases h <;> exact total_eq rfl rfl

/-- The weight of a node and of what its tasks may still add is never positive, for an execution in which the router
gives only answers that are considered. -/
theorem Weights.OK.reaches (ok : W.OK) {cfg : Config} {clock : Nat} {s : Sys}
    (run : Reaches .any ⟨Node.start cfg clock, []⟩ s)
    (ha : ∀ bp a, Event.asked bp (some a) ∈ s.node.events → W.answers a) :
    ∃ d, AddsAll W s.pool d ∧ W.total s.node + d ≤ 0 := by
  generalize hs : (⟨Node.start cfg clock, []⟩ : Sys) = s0 at run
  induction run with
  | refl => subst hs; exact ⟨0, Int.le_refl _, by simp [Weights.total, Node.start]⟩
  | @step t u hr hst ih =>
    subst hs
    have hsub := (base_step hr hst).events
    obtain ⟨d, h1, h2⟩ := ih (fun bp a h => ha bp a (hsub _ h))
    have inv := (good_always hr).1.inv
    cases hst with
    | task l r p n n' ps h =>
      obtain ⟨d1, d2, h3, h4, h5⟩ := AddsAll.append.mp h1
      obtain ⟨d3, d4, h6, h7, h8⟩ := h4
      obtain ⟨d5, h9, h10⟩ := AddsAll.taskStep h inv h6 ha
      refine ⟨d1 + d5 + d4, AddsAll.append.mpr ⟨d1 + d5, d4, AddsAll.append.mpr ⟨d1, d5, h3, h9, by omega⟩, h7, by omega⟩, ?_⟩
      dsimp only at h2 h10 ⊢
      omega
    | call n pool c h =>
      refine ⟨d + -W.ev (.called c), AddsAll.append.mpr ⟨d, -W.ev (.called c), h1, ⟨_, 0, adds_call ok c, Int.le_refl _, by omega⟩,
        by omega⟩, ?_⟩
      dsimp only at h2 ⊢
      rw [total_log]; omega
    | change n n' pool h =>
      refine ⟨d, h1, ?_⟩
      dsimp only at h2 ⊢
      rw [total_outside h]; exact h2

/-- All tasks have ended. -/
theorem Weights.OK.ended (ok : W.OK) {cfg : Config} {clock : Nat} {s : Sys}
    (run : Reaches .any ⟨Node.start cfg clock, []⟩ s) (idle : s.pool = [])
    (ha : ∀ bp a, Event.asked bp (some a) ∈ s.node.events → W.answers a) : W.total s.node ≤ 0 := by
  obtain ⟨d, h1, h2⟩ := ok.reaches run ha
  rw [idle] at h1
  have : 0 ≤ d := h1
  omega

/-- At any time. -/
theorem Weights.OK.always (ok : W.OK) (strict : W.strict) {cfg : Config} {clock : Nat} {s : Sys}
    (run : Reaches .any ⟨Node.start cfg clock, []⟩ s)
    (ha : ∀ bp a, Event.asked bp (some a) ∈ s.node.events → W.answers a) : W.total s.node ≤ 0 := by
  obtain ⟨d, h1, h2⟩ := ok.reaches run ha
  have := h1.nonneg strict
  omega

theorem sum_ite (p : Event → Bool) (l : List Event) :
    (l.map fun e => if p e then (1 : Int) else 0).sum = l.countP p := by
  induction l with
  | nil => rfl
  | cons e l ih =>
    simp only [List.map_cons, List.sum_cons, ih, List.countP_cons]
    split
    · simp; omega
    · simp

theorem sum_sub (f g : Event → Int) (l : List Event) :
    (l.map fun e => f e - g e).sum = (l.map f).sum - (l.map g).sum := by
  induction l with
  | nil => rfl
  | cons e l ih => simp only [List.map_cons, List.sum_cons, ih]; omega

theorem sum_add (f g : Event → Int) (l : List Event) :
    (l.map fun e => f e + g e).sum = (l.map f).sum + (l.map g).sum := by
  induction l with
  | nil => rfl
  | cons e l ih => simp only [List.map_cons, List.sum_cons, ih]; omega

theorem sum_neg (f : Event → Int) (l : List Event) : (l.map fun e => -f e).sum = -(l.map f).sum := by
  induction l with
  | nil => rfl
  | cons e l ih => simp only [List.map_cons, List.sum_cons, ih]; omega

theorem sum_cast (f : Event → Nat) (l : List Event) : (l.map fun e => (f e : Int)).sum = ((l.map f).sum : Nat) := by
  induction l with
  | nil => rfl
  | cons e l ih => simp only [List.map_cons, List.sum_cons, ih]; push_cast; rfl

end Dtn.Proc
