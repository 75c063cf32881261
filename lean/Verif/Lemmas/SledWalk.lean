import Verif.Lemmas.SledNode
import Verif.Lemmas.ProcGood
/-! The programs of a node with the persistent store make the same actions as those of `Lemmas/ProcWalk.lean`, in the same
circumstances. -/

namespace Dtn.OnSled
open Proc
open Routing (Notification Answer)
open Spec (Justified Permitted AsksFor HasRecord Carries UnknownBlock)

/-- The program follows the rules of `Acts`. -/
def Walks (I : Node → Prop) (p : Prog) (n : Node) : Prop := RG I Base p (fun _ _ => True) n

variable {I : Node → Prop} {n : Node}

namespace Walks

theorem read {k : Node → Prog} (h : ∀ m, Base n m → I m → Walks I (k m) m) : Walks I (.read k) n := rg_read h

theorem act {f : Node → Node} {k : Node → Prog} (h : ∀ m, Base n m → I m → Base m (f m) ∧ I (f m))
    (hk : ∀ m, Base n m → I m → Base n (f m) → Walks I (k m) (f m)) : Walks I (.act f k) n := rg_act h hk

theorem set {f : Node → Node} {k : Prog} (h : ∀ m, Base n m → I m → Base m (f m) ∧ I (f m))
    (hk : Walks I k n) : Walks I (.set f k) n := rg_set h hk

theorem mono {m : Node} {p : Prog} (h : Walks I p n) (g : Base n m) : Walks I p m := rg_mono h g

theorem choose {k : Bool → Prog} (h : ∀ b, Walks I (k b) n) : Walks I (.choose k) n := h

theorem fresh {k : String → Prog} (h : ∀ b, Walks I (k b) n) : Walks I (.fresh k) n := h

theorem spawn {t k : Prog} (ht : Walks I t n) (h : Walks I k n) : Walks I (.spawn t k) n := ⟨ht, h⟩

theorem wait {c : Node → Bool} {k : Prog} (h : ∀ m, Base n m → I m → c m = true → Walks I k m) : Walks I (.wait c k) n := h

theorem route {bp : Pack} {k : Option Answer → Prog} (h : ∀ m a, Base n m → I m → I (m.log (.asked bp a)))
    (hk : ∀ m a, Base n m → I m → Walks I (k a) (m.log (.asked bp a))) : Walks I (.route bp k) n := rg_route h hk

theorem done (ok : Bool) : Walks I (.done ok) n := rg_end (.inr ⟨_, rfl⟩)

theorem panic : Walks I .panic n := rg_end (.inl rfl)

end Walks

attribute [local irreducible] Walks

theorem walk_remove (A : Acts I) {bid : String} {c : Cause} {k : Bool → Prog}
    (hj : ∀ m, Base n m → I m → Justified m.events m.cfg bid c) (hk : Walks I (k true) n) : Walks I (remove bid c k) n := by
  unfold remove
  have hf : ∀ m, I m → removed m bid c = m.remove bid c := fun m i => remove_eq (A.inv m i) bid c
  apply Walks.act
  · intro m g i
    rw [hf m i]
    exact ⟨Base.remove _ (A.inv _ i) _ _, A.remove _ _ _ i (hj m g i)⟩
  · intro m g i g'
    rcases remove_cases m bid k with ⟨h, -⟩ | ⟨h, -⟩
    · rw [h]; exact Walks.panic
    · rw [h]; exact hk.mono g'

theorem walk_sync (A : Acts I) {bp : Pack} {c : Cause} {k : Bool → Prog} (h : bp.hasAny = true)
    (hk : ∀ ok, Walks I (k ok) n) : Walks I (sync bp k c) n := by
  unfold sync
  rw [h]
  simp only [Bool.not_true, Bool.false_eq_true, if_false]
  apply Walks.act
  · intro m g i; rw [update_eq]; exact ⟨Base.update _ _, A.update _ _ i⟩
  · intro m g i g'
    obtain ⟨o, h, -⟩ := update_cases m bp k
    rw [h]; exact (hk o).mono g'

theorem walk_getBundle (A : Acts I) {bid : String} {k : Option Bundle → Prog}
    (hk : ∀ m b, Base n m → I m → m.store.getBundle bid = some b → b.id = bid → Walks I (k (some b)) m) : Walks I (getBundle bid k) n := by
  unfold getBundle
  apply Walks.read
  intro m g i
  unfold SledStore.getBundle db
  dsimp only
  cases h : AList.get? m.store.bundles bid with
  | none => exact Walks.panic
  | some b => exact hk m b g i h ((A.inv m i).bundleId _ _ h)

theorem walk_push (A : Acts I) {b : Bundle} {k : Bool → Prog} (hk : ∀ ok, Walks I (k ok) n) : Walks I (push b k) n := by
  unfold push
  have hf : ∀ m, I m → Base m (write m ((db m).pushW m.clock b)) ∧ I (write m ((db m).pushW m.clock b)) := by
    intro m i
    rw [push_eq]
    split
    · exact ⟨Base.refl _, i⟩
    · exact ⟨Base.push _ _, A.push _ _ i⟩
  apply Walks.act
  · intro m _ i; exact hf m i
  · intro m g i g'
    rw [push_cases]
    exact (hk _).mono g'

theorem walk_removeIfSingleton (A : Acts I) {b : Bundle} {k : Prog}
    (hg : b.primary.destination.isNonSingleton = false → ∀ m, Base n m → I m → Justified m.events m.cfg b.id (.given b))
    (hk : Walks I k n) : Walks I (removeIfSingleton b k) n := by
  unfold removeIfSingleton
  split
  · rename_i h
    exact walk_remove A (hg (by simpa using h)) hk
  · exact Walks.read fun m g _ => hk.mono g

theorem walk_sendReport (A : Acts I) {bp : Pack} {cause : Bundle} {pos : Pos} {reason : Reason} {k : Prog}
    (hc : cause.id = bp.id) (hask : AsksFor cause pos reason)
    (hadm : reason ≠ .blockUnintelligible ∨ pos ≠ .received → cause.isAdmin = false)
    (hcfg : n.cfg.statusReports = true) (hk : Walks I k n) : Walks I (sendReport bp cause pos reason k) n := by
  unfold sendReport
  split
  · exact hk
  · rename_i hb
    simp only [Bool.or_eq_true, decide_eq_true_eq, not_or, Bool.not_eq_true] at hb
    apply walk_getBundle A
    intro m1 subject g1 i1 _ hsid
    apply Walks.read
    intro m2 g2 i2
    have g02 := g1.trans g2
    split
    · exact hk.mono g02
    · rename_i hnl
      apply Walks.fresh
      intro bid
      have act : ∀ m, Base m2 m → I m → ∀ m', m' = (match (db m).pushW m.clock (mkReport m subject bid pos) with
            | .ok ws => (setDb m ((db m).applyAll ws)).log
                (.report { pack := bp, cause, endpoints := m2.agents.eids, subject, report := mkReport m subject bid pos, pos, reason })
            | _ => m) → Base m m' ∧ I m' := by
        rintro m3 g3 i3 m' rfl
        by_cases h : Gone (mkReport m3 subject bid pos).id m3
        · rw [push_gone h]; exact ⟨Base.refl _, i3⟩
        · obtain ⟨ws, h1, h2⟩ := push_fine h
          rw [h1]
          dsimp only
          rw [h2]
          refine ⟨(Base.push m3 _).trans (Base.log _ _), ?_⟩
          refine A.report m3 (Report.mk bp cause m2.agents.eids subject (mkReport m3 subject bid pos) pos reason) i3 ?_
          exact ⟨by rw [(g02.trans g3).cfg]; exact hcfg, hb.1, hadm, hb.2,
            eids_has _ _ (by simpa using hnl), hask, hc, hsid, rfl, rfl, rfl⟩
      apply Walks.act
      · intro m3 g3 i3
        exact act m3 g3 i3 _ rfl
      · intro m3 g3 i3 g3'
        rw [push_cases]
        split
        · apply walk_sync A
          · exact (Pack.hasAny_iff _).mpr ⟨.forwardPending, by simp [Pack.has_add]⟩
          · exact fun _ => hk.mono (g02.trans g3')
        · exact hk.mono (g02.trans g3')

theorem walk_reportIf (A : Acts I) {asked : Bool} {bp : Pack} {b : Bundle} {pos : Pos} {reason : Reason} {k : Prog}
    (hc : b.id = bp.id) (hask : asked = true → AsksFor b pos reason) (hk : Walks I k n) :
    Walks I (reportIf asked bp b pos reason k) n := by
  unfold reportIf
  apply Walks.read
  intro m g i
  split
  · rename_i h
    simp only [Bool.and_eq_true, Bool.not_eq_true'] at h
    exact walk_sendReport A hc (hask h.1.1) (fun _ => h.1.2) h.2 (hk.mono g)
  · exact hk.mono g

theorem walk_delete (A : Acts I) {bp : Pack} {reason : Reason} {cause : Cause} {k : Bool → Prog}
    (hj : ∀ m, Base n m → Justified m.events m.cfg bp.id cause) (hk : ∀ ok, Walks I (k ok) n) : Walks I (delete bp reason cause k) n := by
  unfold delete
  apply walk_getBundle A
  intro m b g i _ hid
  apply walk_reportIf A hid (fun h => by cases reason <;> exact h)
  by_cases h : bp.clear.hasAny = true
  · exact walk_sync A h fun ok => (hk ok).mono g
  · unfold sync
    rw [Bool.not_eq_true] at h
    rw [h]
    simp only [Bool.not_false, if_true, Pack.id_clear]
    exact walk_remove A (fun m1 g1 _ => hj m1 (g.trans g1)) ((hk _).mono g)

theorem walk_inspectReport (A : Acts I) {b : Bundle} {r : AdminRecord} {k : Prog} (hb : Carries n.cfg b r) (hk : Walks I k n) :
    Walks I (inspectReport b r k) n := by
  unfold inspectReport
  split
  · rename_i sips ref
    split
    · exact hk
    · apply Walks.read
      intro m g i
      split
      · exact hk.mono g
      · split
        · exact hk.mono g
        · rename_i hl
          exact walk_remove A (fun m1 g1 _ => ⟨by rw [(g.trans g1).cfg]; exact hb, sips, rfl, by simpa using hl⟩) (hk.mono g)
  · exact hk

theorem walk_adminValid (A : Acts I) {b : Bundle} {k : Bool → Prog}
    (ht : HasRecord n.cfg b → Walks I (k true) n) (hf : ¬ HasRecord n.cfg b → Walks I (k false) n) : Walks I (adminValid b k) n := by
  unfold adminValid
  split
  · rename_i h; apply hf; rintro ⟨_, h', -⟩; simp [h'] at h
  · rename_i hadm
    split
    · rename_i h; apply hf; rintro ⟨_, -, c, hc, -⟩; rw [h] at hc; cases hc
    · rename_i blk hblk
      split
      · rename_i bytes hdata
        apply Walks.read
        intro m g i
        split
        · rename_i ar har
          have hc : Carries m.cfg b ar := ⟨by simpa using hadm, blk, hblk, bytes, hdata, har⟩
          apply walk_inspectReport A hc
          rw [g.cfg] at hc
          exact (ht ⟨ar, hc⟩).mono g
        · rename_i har
          refine (hf ?_).mono g
          rintro ⟨r, -, c, hc, bytes', hd, hr⟩
          rw [hblk] at hc; cases hc
          rw [hdata] at hd; cases hd
          rw [g.cfg] at har; rw [har] at hr; cases hr
      · rename_i hd
        apply hf; rintro ⟨r, -, c, hc, bytes', hdd, hr⟩
        rw [hblk] at hc; cases hc
        exact hd _ hdd

theorem walk_contraindicated (A : Acts I) {bp : Pack} {k : Bool → Prog} (hk : ∀ ok, Walks I (k ok) n) :
    Walks I (contraindicated bp k) n :=
  walk_sync A ((Pack.hasAny_iff _).mpr ⟨.contraindicated, by simp [Pack.has_add]⟩) hk

theorem walk_giveToAgent (A : Acts I) {eid : EID} {b : Bundle} {k : Bool → Prog} (hk : ∀ ok, Walks I (k ok) n) :
    Walks I (giveToAgent eid b k) n := by
  unfold giveToAgent
  apply Walks.choose
  intro room
  apply Walks.act
  · intro m g i; exact ⟨Base.deliver _ _ _ _, A.deliver _ _ _ _ i⟩
  · intro m g i g'
    have count : Walks I (Prog.set (fun n => { n with stats := { n.stats with delivered := n.stats.delivered + 1 } })
        (k true)) (m.deliver eid b room) := by
      apply Walks.set
      · intro m1 _ i1; exact ⟨Base.stats _ _, A.stats _ _ i1⟩
      · exact (hk _).mono g'
    split
    · exact (hk _).mono g'
    · rename_i a ha
      dsimp only
      split
      · rename_i ch hch
        refine walk_removeIfSingleton A (fun hd m1 g1 _ => ⟨rfl, hd, .inl ⟨eid, ch, ?_⟩⟩) count
        apply g1.events
        simp only [Node.deliver, ha, hch]
        exact mem_log _ _
      · exact count

theorem walk_finishDelivery (A : Acts I) {bp : Pack} {b : Bundle} {k : Bool → Prog} (h : bp.hasAny = true)
    (hk : ∀ ok, Walks I (k ok) n) : Walks I (finishDelivery bp b k) n := by
  unfold finishDelivery
  apply walk_sync A h
  intro ok
  split
  · exact hk _
  · exact walk_giveToAgent A hk

theorem walk_deliverBundle (A : Acts I) {bp : Pack} {b : Bundle} {k : Bool → Prog} (hid : b.id = bp.id)
    (hk : ∀ ok, Walks I (k ok) n) : Walks I (deliverBundle bp b k) n := by
  unfold deliverBundle
  apply walk_sync A
  · exact (Pack.hasAny_iff _).mpr ⟨.localEndpoint, by simp [Pack.has_add]⟩
  intro ok
  split
  · exact hk _
  apply Walks.read
  intro m2 g _
  split
  · refine walk_reportIf A hid (fun h => h) ?_
    apply walk_finishDelivery A
    · exact (Pack.hasAny_iff _).mpr ⟨.localEndpoint, by simp [Pack.has_clear, Pack.has_add]⟩
    · exact fun ok => (hk ok).mono g
  · apply walk_finishDelivery A
    · exact (Pack.hasAny_iff _).mpr ⟨.localEndpoint, by simp [Pack.has_add]⟩
    · exact fun ok => (hk ok).mono g

theorem walk_localDelivery (A : Acts I) {bp : Pack} {k : Bool → Prog} (hk : ∀ ok, Walks I (k ok) n) :
    Walks I (localDelivery bp k) n := by
  unfold localDelivery
  apply walk_getBundle A
  intro m b g i _ hid
  dsimp only
  split
  · apply walk_adminValid A
    · intro _
      simp only [Bool.not_true, Bool.false_eq_true, if_false]
      exact walk_deliverBundle A hid fun ok => (hk ok).mono g
    · intro hn
      simp only [Bool.not_false, if_true]
      apply walk_delete A
      · intro m1 g1; rw [g1.cfg]; exact ⟨hid, hn⟩
      · intro _; exact (hk _).mono g
  · exact walk_deliverBundle A hid fun ok => (hk ok).mono g

theorem walk_spawnTransfers (A : Acts I) {bid : String} {mk : Sender → Transfer} {k : Prog} (ss : List Sender)
    (h : ∀ s ∈ ss, Prepared n.cfg.hostEid (mk s) ∧ InGroup n (mk s)) (hk : Walks I k n) :
    Walks I (spawnTransfers bid mk ss k) n := by
  unfold Walks at hk ⊢
  exact rg_spawnTransfers A ss h hk

theorem walk_afterTransfers (A : Acts I) {bp : Pack} {b stored : Bundle} {a : Answer} {g : Nat} {k : Bool → Prog}
    (hid : b.id = bp.id) (hsid : stored.id = bp.id) (hask : Event.asked bp (some a) ∈ n.events)
    (hg : ∃ x : Group, n.groups[g]? = some x ∧ x.stored = stored ∧ x.answer = a)
    (hk : ∀ ok, Walks I (k ok) n) : Walks I (afterTransfers bp b a g k) n := by
  unfold afterTransfers
  apply Walks.read
  intro m gm im
  split
  · rename_i hs
    obtain ⟨x, t, hx, hout, hst, hto⟩ := A.sent _ _ im hs
    obtain ⟨x0, hx0, hx1, hx2⟩ := hg
    obtain ⟨y, hy, -, h2, h3, -⟩ := gm.groups _ _ hx0
    rw [hx] at hy; cases hy
    refine walk_reportIf A hid (fun h => h) ?_
    split
    · rename_i hd
      have hs' : t.stored.id = bp.id := by rw [hst, h2, hx1]; exact hsid
      have hto' : t.to ∈ a.clas := by rw [h3, hx2] at hto; exact hto
      refine walk_remove A (fun m1 g1 _ => ?_) ((hk _).mono gm)
      exact ⟨rfl, hd, (gm.trans g1).events _ hask, .inr ⟨t, g1.events _ hout, hs', hto'⟩⟩
    · split
      · apply walk_adminValid A <;> intro _ <;> exact walk_contraindicated A fun ok => (hk ok).mono gm
      · exact (hk _).mono gm
  · exact (hk _).mono gm

theorem walk_sendAll (A : Acts I) {bp : Pack} {b out : Bundle} {a : Answer} {c g0 : Nat} {r : Option Nat}
    {k : Bool → Prog} (hid : b.id = bp.id) (hout : out.id = bp.id) (hask : Event.asked bp (some a) ∈ n.events)
    (hp : ∀ g s, Prepared n.cfg.hostEid ⟨g, b, out, s, c, g0, r⟩)
    (hk : ∀ ok, Walks I (k ok) n) : Walks I (sendAll bp b out a c g0 r k) n := by
  unfold sendAll
  apply Walks.act
  · intro m g i; exact ⟨Base.newGroup _ _ _ _, A.group _ _ _ _ i hid (g.events _ hask)⟩
  intro m gm im gm'
  have hx : (m.newGroup bp b a).groups[m.groups.length]? =
      some { running := a.clas.length, pack := bp, stored := b, answer := a } := by
    simp [Node.newGroup]
  apply walk_spawnTransfers A
  · intro s hs
    refine ⟨?_, _, hx, rfl, hs⟩
    have : (m.newGroup bp b a).cfg = n.cfg := gm'.cfg
    rw [this]; exact hp _ _
  · apply Walks.wait
    intro m1 g1 i1 _
    obtain ⟨y, hy, -, h2, h3, -⟩ := g1.groups _ _ hx
    exact walk_afterTransfers A hout hid ((gm'.trans g1).events _ hask) ⟨y, hy, h2, h3⟩
      fun ok => (hk ok).mono (gm'.trans g1)

theorem walk_prepare (A : Acts I) {bp : Pack} {a : Answer} {k : Bool → Prog}
    (hask : Event.asked bp (some a) ∈ n.events) (hk : ∀ ok, Walks I (k ok) n) : Walks I (prepare bp a k) n := by
  unfold prepare
  apply walk_getBundle A
  intro m0 b g0 i0 hb hid
  dsimp only
  apply Walks.read
  intro m1 g1 i1
  have g01 := g0.trans g1
  split
  · rename_i hl
    apply Walks.read
    intro m2 g2 i2
    exact walk_delete A (fun m _ => ⟨rfl, lifetimeExceeded_iff.mp hl⟩) fun _ => (hk _).mono (g01.trans g2)
  rename_i hl
  simp only [Bool.not_eq_true] at hl
  split
  · rename_i hh
    apply Walks.read
    intro m2 g2 i2
    apply walk_delete A
    · intro m _
      have : (Pack.ofBundle m2.clock (raiseHop b).1).id = b.id := by
        simp only [Pack.id_ofBundle, Bundle.id, raiseHop_primary]
      rw [this]
      exact ⟨rfl, hopCount_of_exceeded hh⟩
    · intro _; exact (hk _).mono (g01.trans g2)
  rename_i hh
  simp only [Bool.not_eq_true] at hh
  apply Walks.read
  intro m2 g2 i2
  have g02 := g01.trans g2
  split
  · exact Walks.panic
  rename_i b2 hb2
  apply Walks.read
  intro m3 g3 i3
  have g03 := g02.trans g3
  split
  · exact Walks.panic
  have hr : (AList.get? (db m3).metadata b.id) = m3.store.getMetadata b.id := rfl
  rw [hr]
  have hrec : (m3.store.getMetadata b.id).map Pack.receivedTime ≠ none := by
    have : m0.store.getMetadata b.id ≠ none := by
      obtain ⟨p, hp⟩ := (A.inv _ i0).hasMeta _ _ hb
      rw [hid, hp]; simp
    simpa using ((g1.trans g2).trans g3).known _ this
  have hpr : (raiseAge m3.clock ((m3.store.getMetadata b.id).map Pack.receivedTime) b2).1.primary = b.primary := by
    rw [raiseAge_primary, setPrevious_primary hb2, raiseHop_primary]
  split
  · rename_i ho
    apply Walks.read
    intro m4 g4 i4
    apply walk_delete A
    · intro m _
      have : (Pack.ofBundle m4.clock (raiseAge m3.clock ((m3.store.getMetadata b.id).map Pack.receivedTime) b2).1).id = b.id := by
        rw [Pack.id_ofBundle]; exact congrArg Primary.bid hpr
      rw [this]
      refine ⟨rfl, ?_⟩
      unfold tooOld at ho
      split at ho
      · rename_i x hx; refine ⟨x, hx, ?_⟩; rw [hpr] at ho; simpa using ho
      · cases ho
    · intro _; exact (hk _).mono (g03.trans g4)
  · rename_i ho
    apply walk_sendAll A hid
    · rw [← hid]; exact congrArg Primary.bid hpr
    · exact g03.events _ hask
    · intro g s
      refine ⟨⟨hl, hh, b2, ?_, rfl, by simpa using ho⟩, hrec⟩
      rw [g3.cfg]; exact hb2
    · intro ok; exact (hk ok).mono g03

theorem walk_forward (A : Acts I) {bp : Pack} {k : Bool → Prog} (hk : ∀ ok, Walks I (k ok) n) : Walks I (forward bp k) n := by
  unfold forward
  apply walk_sync A
  · exact (Pack.hasAny_iff _).mpr ⟨.forwardPending, by simp [Pack.has_add, Pack.has_del]⟩
  intro ok
  split
  · exact hk _
  apply Walks.route
  · intro m a _ i; exact A.asked _ _ _ i
  intro m1 answer g1 i1
  have g1' : Base n (m1.log (.asked ((bp.add .forwardPending).del .dispatchPending) answer)) := g1.trans (Base.log _ _)
  unfold answered
  split
  · exact (hk _).mono g1'
  rename_i a
  have hask := mem_log m1 (.asked ((bp.add .forwardPending).del .dispatchPending) (some a))
  split
  · rename_i he
    split
    · rename_i hd
      exact walk_remove A (fun m2 g2 _ => ⟨rfl, hd, g2.events _ hask, .inl (by simpa using he)⟩) ((hk _).mono g1')
    · exact (hk _).mono g1'
  · exact walk_prepare A hask fun ok => (hk ok).mono g1'

theorem walk_dispatchRemote (A : Acts I) {bp : Pack} {k : Bool → Prog} (hk : ∀ ok, Walks I (k ok) n) :
    Walks I (dispatchRemote bp k) n := by
  unfold dispatchRemote
  apply Walks.read
  intro m1 g1 i1
  split
  · exact Walks.spawn (walk_forward A fun _ => Walks.done _) ((hk _).mono g1)
  · exact (hk _).mono g1

theorem walk_dispatch (A : Acts I) {bp : Pack} {k : Bool → Prog} (hk : ∀ ok, Walks I (k ok) n) : Walks I (dispatch bp k) n := by
  unfold dispatch
  apply walk_getBundle A
  intro m b g i _ _
  dsimp only
  apply Walks.set
  · intro m1 _ i1; exact ⟨Base.log _ _, A.note _ _ i1⟩
  apply Walks.read
  intro m1 g1 i1
  split
  · apply walk_localDelivery A
    intro ok
    split
    · exact (hk _).mono (g.trans g1)
    · exact walk_dispatchRemote A fun ok => (hk ok).mono (g.trans g1)
  · exact walk_dispatchRemote A fun ok => (hk ok).mono (g.trans g1)

theorem walk_transmit (A : Acts I) {bp : Pack} {k : Bool → Prog} (hk : ∀ ok, Walks I (k ok) n) : Walks I (transmit bp k) n := by
  unfold transmit
  apply walk_sync A
  · exact (Pack.hasAny_iff _).mpr ⟨.dispatchPending, by simp [Pack.has_add]⟩
  intro ok
  split
  · exact hk _
  apply Walks.read
  intro m1 g1 i1
  split
  · rename_i h
    apply walk_delete A
    · intro m _
      refine ⟨rfl, h.1, ?_⟩
      intro hm
      have := (Registry.find_isSome _ _).mpr hm
      rw [h.2] at this; cases this
    · intro ok; exact (hk ok).mono g1
  · exact walk_dispatch A fun ok => (hk ok).mono g1

theorem walk_finishReceive (A : Acts I) {b : Bundle} {bp : Pack} {l : List Nat} {k : Bool → Prog} (hk : ∀ ok, Walks I (k ok) n) :
    Walks I (finishReceive b bp l k) n := by
  unfold finishReceive
  split
  · exact Walks.panic
  · apply walk_push A
    intro ok
    split
    · exact hk _
    · exact walk_dispatch A fun _ => hk true

theorem walk_scanBlocks (A : Acts I) {b : Bundle} {bp : Pack} {k : Bool → Prog} (hid : b.id = bp.id) (cs : List Block) :
    ∀ (index : Nat) (l : List Nat) (n : Node), (∀ c ∈ cs, c ∈ b.canonicals) → (∀ ok, Walks I (k ok) n) →
    Walks I (scanBlocks b bp k cs index l) n := by
  induction cs with
  | nil => intro index l n _ hk; exact walk_finishReceive A hk
  | cons c cs ih =>
    intro index l n hsub hk
    unfold scanBlocks
    split
    · exact ih _ _ _ (fun x hx => hsub x (by simp [hx])) hk
    · rename_i hu
      have hunk : UnknownBlock c := by simpa [UnknownBlock] using hu
      have cont : ∀ m, Base n m → Walks I (if c.flags.deleteBundle then delete bp .blockUnintelligible (.block b c) k
          else scanBlocks b bp k cs (index + 1) (if c.flags.remove then l ++ [index] else l)) m := by
        intro m g
        split
        · rename_i hd
          exact walk_delete A (fun m _ => ⟨hid, hsub c (by simp), hunk, hd⟩) fun ok => (hk ok).mono g
        · exact ih _ _ _ (fun x hx => hsub x (by simp [hx])) fun ok => (hk ok).mono g
      dsimp only
      split
      · rename_i hr
        apply Walks.read
        intro m g i
        split
        · rename_i hs
          exact walk_sendReport A hid ⟨c, hsub c (by simp), hunk, hr⟩ (fun h => by simp at h) hs (cont m g)
        · exact cont m g
      · exact cont n (Base.refl n)

theorem walk_receive (A : Acts I) {b : Bundle} {k : Bool → Prog} (hk : ∀ ok, Walks I (k ok) n) : Walks I (receive b k) n := by
  unfold receive
  have hf : ∀ m, I m → Base m (added m b) ∧ I (added m b) := by
    intro m i
    rcases add_eq m b with ⟨-, h, -⟩ | ⟨-, h, -, -⟩ | ⟨-, -, h, -, -⟩
    · rw [h]; exact ⟨Base.refl _, i⟩
    · rw [h]; exact ⟨Base.addIfUnknown _ _, A.accept _ _ i⟩
    · rw [h]; exact ⟨Base.addIfUnknown _ _, A.accept _ _ i⟩
  apply Walks.act
  · intro m _ i; exact hf m i
  intro m0 g0 i0 g0'
  split
  · apply Walks.set
    · intro m _ i; exact ⟨Base.stats _ _, A.stats _ _ i⟩
    apply Walks.read
    intro m1 g1 i1
    apply walk_sync A
    · exact (Pack.hasAny_iff _).mpr ⟨.dispatchPending, by simp [Pack.has_add]⟩
    intro ok
    have g2' := g0'.trans g1
    split
    · exact (hk _).mono g2'
    · refine walk_reportIf A rfl (fun h => h) ?_
      exact walk_scanBlocks A rfl _ _ _ _ (fun _ h => h) fun ok => (hk ok).mono g2'
  · apply Walks.set
    · intro m _ i; exact ⟨Base.stats _ _, A.stats _ _ i⟩
    exact (hk _).mono g0'
  · exact (hk _).mono g0'
  · exact Walks.panic

theorem walk_sweep (A : Acts I) {k : Prog} (ms : List Pack) : ∀ n : Node, Walks I k n → Walks I (sweep ms k) n := by
  induction ms with
  | nil => intro n h; exact h
  | cons p ms ih =>
    intro n h
    unfold sweep
    apply Walks.read
    intro m g i
    split
    · rename_i he
      exact walk_remove A (fun m1 _ _ => ⟨rfl, hasExpired_iff.mp he⟩) (ih _ (h.mono g))
    · exact ih _ (h.mono g)

theorem walk_collect {k : List Pack → Prog} (bids : List String) :
    ∀ (acc : List Pack) (n : Node), (∀ l, Walks I (k l) n) → Walks I (collect bids acc k) n := by
  induction bids with
  | nil => intro acc n h; exact h acc
  | cons bid bids ih =>
    intro acc n h
    unfold collect getMetadata
    apply Walks.read
    intro m g i
    unfold SledStore.getMetadata
    cases AList.get? (db m).metadata bid with
    | none => exact Walks.panic
    | some p => exact ih _ _ fun l => (h l).mono g

theorem walk_forwardAll (A : Acts I) (par : Bool) (bps : List Pack) : ∀ n : Node, Walks I (forwardAll par bps) n := by
  induction bps with
  | nil => intro n; exact Walks.done _
  | cons bp bps ih =>
    intro n
    unfold forwardAll
    split
    · exact Walks.spawn (walk_forward A fun _ => Walks.done _) (ih n)
    · exact walk_forward A fun _ => ih n

theorem walk_processBundles (A : Acts I) : Walks I processBundles n := by
  unfold processBundles
  apply Walks.read
  intro m0 g0 i0
  apply walk_sweep A
  apply Walks.read
  intro m1 g1 i1
  split
  · exact Walks.done _
  · apply Walks.read
    intro m2 g2 i2
    apply walk_collect
    intro l
    apply Walks.read
    intro m3 g3 i3
    exact walk_forwardAll A _ _ _

theorem walk_popBundle (A : Acts I) {eid : EID} : Walks I (popBundle eid) n := by
  unfold popBundle
  apply Walks.act
  · intro m _ i; exact ⟨Base.popAgent _ _, A.pop _ _ i⟩
  intro m0 g0 i0 g0'
  split
  · exact Walks.done _
  · rename_i a ha
    split
    · exact Walks.done _
    · rename_i b hb
      refine walk_removeIfSingleton A (fun hd m1 g1 _ => ⟨rfl, hd, .inr ⟨eid, ?_⟩⟩) (Walks.done _)
      apply g1.events
      simp only [Node.popAgent, ha, hb]
      exact mem_log _ _

/-- Every call follows the rules. -/
theorem walk_task (A : Acts I) (c : Call) : Walks I (task c) n := by
  cases c with
  | receive b => exact walk_receive A fun _ => Walks.done _
  | send b =>
    unfold task sendBundle
    apply walk_push A
    intro ok
    split
    · exact Walks.done _
    · apply Walks.read
      intro m g i
      exact walk_transmit A fun _ => Walks.done _
  | remove bid => exact walk_remove A (fun _ _ _ => trivial) (Walks.done _)
  | pop eid => exact walk_popBundle A
  | janitor => exact walk_processBundles A

/-- What holds initially and is kept by all actions, changes and restarts holds always. -/
theorem always (A : Acts I) (hout : ∀ n m, Outside n m → I n → I m) (hre : ∀ n clock, I n → I (restarted n clock))
    (hcut : ∀ n clock op k, (∀ ws, (db n).writes op = .ok ws → k < ws.length) → I n →
      Base n (restarted (setDb n ((db n).crashStep op k)) clock) ∧ I (restarted (setDb n ((db n).crashStep op k)) clock))
    {s t : Sys} (hr : Reaches s t) (i : I s.node) (hp : ∀ p ∈ s.pool, Walks I p s.node) :
    I t.node ∧ Base s.node t.node ∧ ∀ p ∈ t.pool, Walks I p t.node := by
  induction hr with
  | refl => exact ⟨i, Base.refl _, hp⟩
  | step _ hs ih =>
    obtain ⟨it, g, hp⟩ := ih
    cases hs with
    | task l r p n n' ps h =>
      have hpp := hp p (by simp)
      unfold Walks at hpp
      obtain ⟨g', i', hps⟩ := RG.taskStep (G := Base) Base.refl h it hpp
      refine ⟨i', g.trans g', ?_⟩
      intro q hq
      simp only [List.append_assoc, List.mem_append] at hq
      rcases hq with hq | hq | hq
      · exact (hp q (by simp [hq])).mono g'
      · unfold Walks; exact hps q hq
      · exact (hp q (by simp [hq])).mono g'
    | call n pool c =>
      refine ⟨A.called _ _ it, g.trans (Base.log _ _), ?_⟩
      intro q hq
      rcases List.mem_append.mp hq with hq | hq
      · exact (hp q hq).mono (Base.log _ _)
      · rw [List.mem_singleton.mp hq]; exact walk_task A c
    | change n n' pool h =>
      exact ⟨hout _ _ h it, g.trans (Base.outside h), fun q hq => (hp q hq).mono (Base.outside h)⟩
  | restart clock _ ih =>
    obtain ⟨it, g, -⟩ := ih
    refine ⟨hre _ _ it, g.trans ?_, by simp⟩
    exact ⟨rfl, List.prefix_rfl, fun _ h => h, fun _ h => .inl h, fun _ x hx => ⟨x, hx, rfl, rfl, rfl, id⟩⟩
  | cut clock op k h _ ih =>
    obtain ⟨it, g, -⟩ := ih
    obtain ⟨h1, h2⟩ := hcut _ clock op k h it
    exact ⟨h2, g.trans h1, by simp⟩

end Dtn.OnSled
