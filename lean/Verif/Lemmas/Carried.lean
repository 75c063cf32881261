import Verif.Lemmas.ProcWill
import Verif.Lemmas.Relay
/-! What the node owes to the bundles it has taken on. -/

namespace Dtn.Proc
open Routing (Notification Answer)
open Spec

attribute [local irreducible] RG

variable {I D : Node → Prop} {n m n0 : Node} {b : Bundle} {host : EID}

/-! ### Transfers -/

/-- A copy has been handed over since `n0`. -/
def Sent (n0 : Node) (host : EID) (b : Bundle) (s : Sender) (m : Node) : Prop :=
  n0.events <+: m.events ∧ ∃ t, .sending t ∈ newEvents n0 m ∧ t.to = s ∧ t.stored = b ∧ Copied host t

theorem Sent.mono {s : Sender} (h : Sent n0 host b s n) (hb : Base n m) : Sent n0 host b s m := by
  obtain ⟨h0, t, ht, h⟩ := h
  exact ⟨h0.trans hb.past, t, newEvents_right h0 hb.past ht, h⟩

/-- What holds while a bundle is being sent. -/
structure Leaving (n0 : Node) (host : EID) (b : Bundle) (m : Node) : Prop where
  past : n0.events <+: m.events
  cfg : m.cfg.hostEid = host
  stored : m.store.getBundle b.id = some b
  alive : StillAlive b m

theorem will_transfer {s : Sender} {bid : String} {t : Transfer} (hI : ∀ m, I m → n0.events <+: m.events) (ht : t.to = s)
    (hs : t.stored = b) (hc : Copied host t) : Will I (Sent n0 host b s) (transferTask bid t) n := by
  refine will_act fun m bm im bf _ => .inl ⟨(hI m im).trans (List.prefix_append _ _), t, ?_, ht, hs, hc⟩
  exact newEvents_left (hI m im) (List.prefix_append _ _) (by rw [newEvents_eq (es := [_]) rfl]; simp)

theorem will_spawnTransfers {s : Sender} {bid : String} {mk : Sender → Transfer} {k : Prog} (hI : ∀ m, I m → n0.events <+: m.events)
    (ht : (mk s).to = s) (hb : (mk s).stored = b) (hc : Copied host (mk s)) {ss : List Sender} (hs : s ∈ ss) :
    Will I (Sent n0 host b s) (spawnTransfers bid mk ss k) n := by
  induction ss with
  | nil => cases hs
  | cons x ss ih =>
    rcases List.mem_cons.mp hs with rfl | hs
    · exact .inl (will_transfer hI ht hb hc)
    · exact .inr (ih hs)

/-- Once the router has named a neighbour, a copy is owed to it. -/
theorem will_answered {bp : Pack} {a : Answer} {s : Sender} {k : Bool → Prog} (hI : ∀ m, I m → Leaving n0 host b m)
    (leave : CanLeave b) (hid : bp.id = b.id) (hs : s ∈ a.clas) : Will I (Sent n0 host b s) (answered bp k (some a)) n := by
  unfold answered
  dsimp only
  have hne : a.clas.isEmpty = false := by
    cases h : a.clas with
    | nil => rw [h] at hs; cases hs
    | cons => rfl
  rw [hne]
  simp only [Bool.false_eq_true, if_false]
  unfold prepare
  refine will_read fun m1 _ i1 => ?_
  rw [hid, (hI m1 i1).stored]
  dsimp only
  refine will_read fun m2 _ i2 => ?_
  have hal : ∀ m, I m → lifetimeExceeded m.dtnNow b.primary = false := by
    intro m i
    have := (hI m i).alive.1
    unfold lifetimeExceeded
    split
    · rfl
    · rename_i hc
      rw [decide_eq_false_iff_not, Nat.mod_eq_of_lt (by unfold u64; exact leave.lifetime)]
      have := this hc
      omega
  rw [hal m2 i2]
  have hops : (raiseHop b).2 = false := room_hops leave.hops
  simp only [Bool.false_eq_true, if_false, hops]
  refine will_read fun m3 _ i3 => ?_
  rw [(hI m3 i3).cfg]
  cases hb2 : setPrevious host (raiseHop b).1 with
  | none => exact absurd hb2 (readable_set leave.previous host)
  | some b2 =>
    dsimp only
    refine will_read fun m4 _ i4 => ?_
    have hp : b2.primary = b.primary := (setPrevious_primary hb2).trans (raiseHop_primary b)
    have hage : bundleAge b2 = bundleAge b := by
      apply bundleAge_congr
      rw [setPrevious_first hb2 age_ne_prev (by rw [raiseHop_howMany]; exact leave.age), raiseHop_first hop_ne_age.symm]
    have young : tooOld (raiseAge m4.clock ((m4.store.getMetadata b.id).map Pack.receivedTime) b2).1
        (raiseAge m4.clock ((m4.store.getMetadata b.id).map Pack.receivedTime) b2).2 = false := by
      cases hm : m4.store.getMetadata b.id with
      | none => unfold raiseAge; simp [tooOld]
      | some p =>
        obtain ⟨h1, h2⟩ := (hI m4 i4).alive.2 p hm
        exact inTime_young (n := { m4 with clock := p.receivedTime }) (m := m4)
          ⟨(hI m4 i4).alive.1, leave.lifetime, h2⟩ hp hage (Nat.le_refl _) h1 (Nat.le_refl _)
    rw [young]
    simp only [Bool.false_eq_true, if_false]
    unfold sendAll
    refine will_act fun m5 _ i5 _ _ => .inr ?_
    dsimp only
    refine will_spawnTransfers (fun m i => (hI m i).past) ?_ ?_ ?_ hs
    · rfl
    · rfl
    exact ⟨hal m2 i2, hops, b2, hb2, rfl, young⟩

/-! ### Questions to the router -/

/-- The router has been asked about the bundle since `n0`. -/
def AskedFor (n0 : Node) (bid : String) (m : Node) : Prop :=
  n0.events <+: m.events ∧ ∃ bp a, bp.id = bid ∧ .asked bp a ∈ newEvents n0 m

theorem AskedFor.mono {bid : String} (h : AskedFor n0 bid n) (hb : Base n m) : AskedFor n0 bid m := by
  obtain ⟨h0, bp, a, hid, ha⟩ := h
  exact ⟨h0.trans hb.past, bp, a, hid, newEvents_right h0 hb.past ha⟩

theorem will_forward {bid : String} {bp : Pack} {k : Bool → Prog} (hI : ∀ m, I m → n0.events <+: m.events)
    (hD : ∀ m, AskedFor n0 bid m → D m) (hid : bp.id = bid) (hknown : n.store.getMetadata bid ≠ none) :
    Will I D (forward bp k) n := by
  unfold forward
  refine will_act fun m bm im _ _ => .inr ?_
  have hok : (m.store.sync (fwdPack bp)).2 = true :=
    sync_ok (hasAny_of (fwdPack_has bp)) (by rw [fwdPack_id, hid]; exact bm.known _ hknown)
  have hp : (bp.add .forwardPending).del .dispatchPending = fwdPack bp := rfl
  rw [hp, hok]
  simp only [Bool.not_true, Bool.false_eq_true, if_false]
  refine fun m2 _ i2 a => .inl (hD _ ⟨(hI m2 i2).trans (List.prefix_append _ _), fwdPack bp, a, hid, ?_⟩)
  exact newEvents_left (hI m2 i2) (List.prefix_append _ _) (by rw [newEvents_eq (es := [_]) rfl]; simp)

/-- What holds while the node deals with a bundle. -/
structure Held (n0 : Node) (b : Bundle) (m : Node) : Prop where
  good : Good m
  past : n0.events <+: m.events
  kept : ∀ c, .removed b.id c ∉ newEvents n0 m

/-- What holds while the node deals with a bundle for another node. -/
structure Passing (n0 : Node) (b : Bundle) (m : Node) : Prop extends Held n0 b m where
  remote : b.primary.destination.nodeId ≠ m.cfg.hostEid.nodeId
  notHere : b.primary.destination ∉ m.agents.eids

theorem Held.stored (hn : n0.events <+: n.events) (hm : Held n0 b m) (hb : Base n m) (h : n.store.getBundle b.id ≠ none) :
    m.store.getBundle b.id ≠ none := by
  rcases hb.kept _ h with h | ⟨c, hc⟩
  · exact h
  · exact absurd (newEvents_left hn hb.past hc) (hm.kept c)

theorem will_dispatch (hI : ∀ m, I m → Passing n0 b m) (hD : ∀ m, AskedFor n0 b.id m → D m)
    (t : Nat) (k : Bool → Prog) (n : Node) (hn : n0.events <+: n.events)
    (hs : n.store.getBundle b.id ≠ none) : Will I D (dispatch ((Pack.ofBundle t b).add .dispatchPending) k) n := by
  generalize hbp : (Pack.ofBundle t b).add .dispatchPending = bp
  have hid : bp.id = b.id := by rw [← hbp]; simp
  have hdest : bp.destination = b.primary.destination := by rw [← hbp]; rfl
  unfold dispatch
  refine will_read fun m1 b1 i1 => ?_
  have h1 := (hI m1 i1).toHeld.stored hn b1 hs
  rw [hid]
  cases hb : m1.store.getBundle b.id with
  | none => exact absurd hb h1
  | some b' =>
    dsimp only
    refine will_set fun m2 b2 i2 b2' _ => ?_
    refine will_read fun m3 b3 i3 => ?_
    rw [hdest, show m3.agents.has b.primary.destination = false by
      rw [← Bool.not_eq_true, Registry.has_iff]; exact (hI m3 i3).notHere]
    simp only [Bool.false_eq_true, if_false]
    unfold dispatchRemote
    refine will_read fun m4 b4 i4 => ?_
    rw [show m4.isLocal bp.destination = false by
      unfold Node.isLocal; rw [hdest]; simpa using (hI m4 i4).remote]
    simp only [Bool.not_false, if_true]
    exact .inl (will_forward (fun m i => (hI m i).past) hD hid
      (((b2'.trans b3).trans b4).known _ (known_of_stored (hI m1 i1).good.inv h1)))

/-! ### Reception -/

theorem scan_walk {P : Prog → Prop} {S : Prog → Prop} {J : Node → Prop} (W : Calm (fun _ _ => True) J S P) {b : Bundle} {bp : Pack}
    {k : Bool → Prog} (hk : P (finishReceive b bp [] k)) (cs : List Block)
    (hcs : ∀ x ∈ cs, UnknownBlock x → x.flags.remove = false ∧ x.flags.deleteBundle = false) :
    ∀ index, P (scanBlocks b bp k cs index []) := by
  induction cs with
  | nil => intro _; exact hk
  | cons c cs ih =>
    intro index
    have ih := ih fun x hx => hcs x (List.mem_cons_of_mem _ hx)
    unfold Proc.scanBlocks
    split
    · exact ih _
    · rename_i hty
      obtain ⟨h1, h2⟩ := hcs c List.mem_cons_self (by unfold UnknownBlock; omega)
      simp only [h1, h2, Bool.false_eq_true, if_false]
      split
      · refine W.read fun m => ?_
        split
        · exact W.sendReport (ih _)
        · exact ih _
      · exact ih _

/-- Every received bundle is dispatched, once it has been accepted. -/
theorem will_receive {bp : Node → Pack} (hbp : ∀ m, bp m = (Pack.ofBundle m.clock b).add .dispatchPending) {f : Stats → Stats} {k : Bool → Prog}
    (hI : ∀ m, I m → Held n0 b m)
    (hD : ∀ t k n, n0.events <+: n.events → n.store.getBundle b.id ≠ none → Will I D (dispatch ((Pack.ofBundle t b).add .dispatchPending) k) n)
    (hn : n0.events <+: n.events)
    (hcs : ∀ x ∈ b.canonicals, UnknownBlock x → x.flags.remove = false ∧ x.flags.deleteBundle = false)
    (hst : n.store.getBundle b.id ≠ none) :
    Will I D (.set (fun n => { n with stats := f n.stats }) <| .read fun n =>
      .act (fun n' => n'.sync (bp n)) fun n' => if !(n'.store.sync (bp n)).2 then k false
        else reportIf b.primary.flags.reqReception (bp n) b .received .noInformation <| scanBlocks b (bp n) k b.canonicals 0 []) n := by
  refine will_set fun m2 b2 i2 b2' _ => will_read fun m3 b3 i3 => ?_
  have b3' := b2'.trans b3
  have hst3 := (hI m3 i3).stored hn b3' hst
  have hk3 := known_of_stored (hI m3 i3).good.inv hst3
  have hany : (bp m3).hasAny = true := by
    rw [hbp]; exact hasAny_of (c := .dispatchPending) (by simp [Pack.has_add])
  refine will_act fun m4 b4 i4 b4' _ => .inr ?_
  rw [show (m4.store.sync (bp m3)).2 = true from sync_ok hany (by rw [hbp]; exact b4.known _ hk3)]
  simp only [Bool.not_true, Bool.false_eq_true, if_false]
  have W := (will_walks (I := I) (D := D) m3).calm fun _ _ => trivial
  refine W.reportIf (scan_walk W ?_ _ hcs _) _ b4'
  intro n1 hn1
  unfold finishReceive removeBlocks
  dsimp only
  refine will_set fun m5 b5 i5 b5' i5' => ?_
  rw [hbp]
  refine hD _ _ _ (hI _ i5').past ?_
  exact (hI _ i5').stored hn (b3'.trans (hn1.trans b5')) hst

/-- Every submitted bundle is dispatched, if its source is registered. -/
theorem will_send (hI : ∀ m, I m → Held n0 b m)
    (hD : ∀ t k n, n0.events <+: n.events → n.store.getBundle b.id ≠ none → Will I D (dispatch ((Pack.ofBundle t b).add .dispatchPending) k) n)
    (hsrc : ∀ m, I m → b.primary.source = .none ∨ b.primary.source ∈ m.agents.eids) (hn : n0.events <+: n.events)
    (hst : n.store.getBundle b.id ≠ none) : Will I D (.read fun n => transmit (Pack.ofBundle n.clock b) .done) n := by
  refine will_read fun m2 b2 i2 => ?_
  have hst2 := (hI m2 i2).stored hn b2 hst
  have hk2 := known_of_stored (hI m2 i2).good.inv hst2
  unfold transmit
  refine will_act fun m3 b3 i3 b3' _ => .inr ?_
  rw [show (m3.store.sync ((Pack.ofBundle m2.clock b).add .dispatchPending)).2 = true from
    sync_ok (hasAny_of (c := .dispatchPending) (by simp [Pack.has_add])) (by exact b3.known _ hk2)]
  simp only [Bool.not_true, Bool.false_eq_true, if_false]
  refine will_read fun m4 b4 i4 => ?_
  have hs : ¬ (((Pack.ofBundle m2.clock b).add .dispatchPending).source ≠ .none ∧
      m4.agents.find ((Pack.ofBundle m2.clock b).add .dispatchPending).source = none) := by
    rintro ⟨h1, h2⟩
    rcases hsrc m4 i4 with h | h
    · exact h1 h
    · rw [← Registry.find_isSome, show m4.agents.find b.primary.source = none from h2] at h; cases h
  rw [if_neg hs]
  exact hD _ _ _ (hI _ i4).past ((hI _ i4).stored hn (b2.trans (b3'.trans b4)) hst)

/-- A task that is about to act does so, if the system comes to rest. -/
theorem _root_.Dtn.Spec.Throughout.acts {w : World} {s : Sys} {f : Node → Node} {k : Node → Prog} (run : Throughout w I s ⟨m, []⟩)
    (hp : .act f k ∈ s.pool) : ∃ u v, Throughout w I s u ∧ Step w u v ∧ Throughout w I v ⟨m, []⟩ ∧ v.node = f u.node ∧ k u.node ∈ v.pool := by
  have : ∀ t, Throughout w I s t → Prog.act f k ∈ t.pool ∨
      ∃ u v, Throughout w I s u ∧ Step w u v ∧ Throughout w I v t ∧ v.node = f u.node ∧ k u.node ∈ v.pool := by
    intro t ht
    induction ht with
    | refl => exact .inl hp
    | @step t u hr hs hi ih =>
      rcases ih with ih | ⟨x, y, h1, h2, h3, h4⟩
      · cases hs with
        | task l r p n n' ps h =>
          have hr := hr
          simp only [List.mem_append, List.mem_cons] at ih
          rcases ih with ih | rfl | ih
          · exact .inl (by simp [ih])
          · cases h
            exact .inr ⟨_, _, hr, .task l r _ _ _ _ (.act _ f k), .refl hi, rfl, by simp⟩
          · exact .inl (by simp [ih])
        | call n pool c hc => exact .inl (by simp [ih])
        | change n n' pool hc => exact .inl ih
      · exact .inr ⟨x, y, h1, h2, h3.step hs hi, h4⟩
  rcases this _ run with h | h
  · cases h
  · exact h

/-! ### The janitor -/

/-- What holds while a bundle waits for the janitor. -/
structure Pending (n0 : Node) (bid : String) (m : Node) : Prop where
  good : Good m
  past : n0.events <+: m.events
  active : m.claActive = true
  waits : ∃ p, m.store.getMetadata bid = some p ∧ p.has .forwardPending = true ∧ p.has .deleted = false
  readable : m.cfg.parallel = true ∨ ∀ bid' b', m.store.getBundle bid' = some b' → ReadablePrevious b'

theorem will_collect {bid : String} (hI : ∀ m, I m → Pending n0 bid m) {k : List Pack → Prog}
    (hk : ∀ n packs, (∃ p ∈ packs, p.id = bid) → Will I D (k packs) n) (bids : List String) :
    ∀ acc n, (bid ∈ bids ∨ ∃ p ∈ acc, p.id = bid) → Will I D (collect bids acc k) n := by
  induction bids with
  | nil => intro acc n h; exact hk n acc (by simpa using h)
  | cons x bids ih =>
    intro acc n h
    refine will_read fun m _ im => ?_
    obtain ⟨p, h1, h2, h3⟩ := (hI m im).waits
    by_cases hx : x = bid
    · subst hx
      rw [h1]
      simp only [h3, Bool.false_eq_true, if_false]
      exact ih _ _ (.inr ⟨p, by simp, (hI m im).good.inv.metaId _ _ h1⟩)
    · have h' : bid ∈ bids ∨ ∃ p ∈ acc, p.id = bid := by
        rcases h with h | h
        · rcases List.mem_cons.mp h with h | h
          · exact absurd h.symm hx
          · exact .inl h
        · exact .inr h
      cases m.store.getMetadata x with
      | none => exact ih _ _ h'
      | some q =>
        refine ih _ _ (h'.imp id ?_)
        rintro ⟨p, hp, hid⟩
        refine ⟨p, ?_, hid⟩
        split
        · exact hp
        · simp [hp]

theorem will_forwardAll {bid : String} (hI : ∀ m, I m → Pending n0 bid m) (hD : ∀ m, AskedFor n0 bid m → D m) {par : Bool}
    (hpar : par = true ∨ ∀ m, I m → ∀ bid' b', m.store.getBundle bid' = some b' → ReadablePrevious b') (bps : List Pack) :
    ∀ n, n.store.getMetadata bid ≠ none → (∃ p ∈ bps, p.id = bid) → Will I D (forwardAll par bps) n := by
  induction bps with
  | nil => rintro n _ ⟨p, hp, -⟩; cases hp
  | cons bp bps ih =>
    rintro n hknown ⟨p, hp, hid⟩
    unfold forwardAll
    by_cases hb : bp.id = bid
    · split
      · exact .inl (will_forward (fun m i => (hI m i).past) hD hb hknown)
      · exact will_forward (fun m i => (hI m i).past) hD hb hknown
    · have hrest : ∃ p ∈ bps, p.id = bid := by
        rcases List.mem_cons.mp hp with rfl | hp
        · exact absurd hid hb
        · exact ⟨p, hp, hid⟩
      split
      · exact .inr (ih n hknown hrest)
      · rename_i hp
        have hread := hpar.resolve_left hp
        have W := (will_walks (I := I) (D := D) n).calm fun _ _ => trivial
        refine W.forward ?_ (fun _ n1 b1 => ih n1 (b1.known _ hknown) hrest) n (.refl _)
        intro m b' host im hb' hnone
        exact absurd hnone (readable_set (hread m im.2 _ _ hb') host)

/-- Every bundle that waits to be forwarded is taken to the router. -/
theorem will_janitor {bid : String} {par : Bool} (hI : ∀ m, I m → Pending n0 bid m) (hcfg : ∀ m, I m → m.cfg.parallel = par)
    (hD : ∀ m, AskedFor n0 bid m → D m) : Will I D processBundles n := by
  unfold processBundles
  refine will_read fun m1 _ i1 => ?_
  have W := (will_walks (I := I) (D := D) m1).calm fun _ _ => trivial
  refine W.sweep ?_ _ m1 (.refl _)
  intro n1 _
  refine will_read fun m2 _ i2 => ?_
  rw [(hI m2 i2).active]
  simp only [Bool.not_true, Bool.false_eq_true, if_false]
  refine will_read fun m3 _ i3 => ?_
  refine will_collect hI ?_ _ _ _ (.inl ?_)
  · intro n4 packs hp
    refine will_read fun m5 _ i5 => ?_
    refine will_forwardAll hI hD ?_ _ _ ?_ ?_
    · rw [hcfg m5 i5]
      cases hp : par with
      | true => exact .inl rfl
      | false =>
        right
        intro m im bid' b' hb'
        rcases (hI m im).readable with h | h
        · rw [hcfg m im, hp] at h; cases h
        · exact h _ _ hb'
    · obtain ⟨p, h, -⟩ := (hI m5 i5).waits
      rw [h]; simp
    · obtain ⟨p, hp, hid⟩ := hp
      exact ⟨p, (List.mergeSort_perm _ _).mem_iff.mpr hp, hid⟩
  · obtain ⟨p, h1, h2, -⟩ := (hI m3 i3).waits
    exact (mem_forwarding_iff (hI m3 i3).good.inv _).mpr ⟨p, h1, h2⟩

end Dtn.Proc
