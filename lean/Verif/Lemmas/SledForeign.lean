import Verif.Lemmas.Foreign
import Verif.Lemmas.SledGood
import Verif.Lemmas.SledResume
import Verif.Spec.SledNode
/-! Bundles that are submitted to a node with the persistent store but must not be sent. -/

namespace Dtn.OnSled
open Proc
open Routing (Notification Answer)
open Spec

variable {bid : String} {A : Node → Prop}

theorem shuns_remove {j : String} {c : Cause} {k : Bool → Prog} (hk : Shuns bid A (k true)) : Shuns bid A (remove j c k) := by
  intro m i r _
  dsimp only
  rw [remove_eq i]
  have h := r.remove i j c
  refine .inr ⟨h.1, fun x => .inl (h.2 x), ?_⟩
  rcases remove_cases m j k with ⟨e, -⟩ | ⟨e, -⟩
  · rw [e]; trivial
  · rw [e]; exact hk

theorem idle_update {m : Node} (i : m.store.Inv) (r : Idle bid m) {bp : Pack} (h : bp.id ≠ bid ∨ bp.has .forwardPending = false)
    (ha : bp.hasAny = true) : Past bid m { m with store := (m.store.updateMetadata bp).1 } := by
  have := r.sync i h .request
  unfold Node.sync at this
  rw [ha] at this
  simpa using this

theorem shuns_sync {bp : Pack} {c : Cause} {k : Bool → Prog} (h : bp.id ≠ bid ∨ bp.has .forwardPending = false)
    (hk : ∀ ok, Shuns bid A (k ok)) : Shuns bid A (sync bp k c) := by
  unfold sync
  split
  · exact shuns_remove (hk _)
  · rename_i ha
    intro m i r _
    dsimp only
    rw [update_eq]
    have g := idle_update i r h (by simpa using ha)
    refine .inr ⟨g.1, fun x => .inl (g.2 x), ?_⟩
    obtain ⟨o, e, -⟩ := update_cases m bp k
    rw [e]; exact hk o

theorem shuns_getBundle {j : String} {k : Option Bundle → Prog} (hk : ∀ b, b.id = j → Shuns bid A (k (some b))) :
    Shuns bid A (getBundle j k) := by
  refine shuns_read fun m i r => ?_
  unfold SledStore.getBundle db
  dsimp only
  cases h : AList.get? m.store.bundles j with
  | none => trivial
  | some b => exact hk b (i.bundleId _ _ h)

theorem shuns_getMetadata {j : String} {k : Option Pack → Prog} (hk : ∀ p, p.id = j → Shuns bid A (k (some p))) :
    Shuns bid A (getMetadata j k) := by
  refine shuns_read fun m i r => ?_
  unfold SledStore.getMetadata db
  dsimp only
  cases h : AList.get? m.store.metadata j with
  | none => trivial
  | some b => exact hk b (i.metaId _ _ h)

theorem shuns_push {b : Bundle} {k : Bool → Prog} (h : b.id ≠ bid) (hk : ∀ ok, Shuns bid A (k ok)) : Shuns bid A (push b k) := by
  intro m i r _
  dsimp only
  rw [push_eq, push_cases]
  split
  · exact .inr ⟨r, .inl, hk _⟩
  · exact .inr ⟨(r.push h).1, fun x => .inl ((r.push h).2 x), hk _⟩

theorem shuns_removeIfSingleton {b : Bundle} {k : Prog} (hk : Shuns bid A k) : Shuns bid A (removeIfSingleton b k) := by
  unfold removeIfSingleton
  split
  · exact shuns_remove hk
  · exact shuns_read fun _ _ _ => hk

theorem shuns_sendReport {bp : Pack} {cause : Bundle} {pos : Pos} {reason : Reason} {k : Prog} (hk : Shuns bid A k) :
    Shuns bid A (sendReport bp cause pos reason k) := by
  unfold sendReport
  split
  · exact hk
  · refine shuns_getBundle fun subject _ => ?_
    dsimp only
    refine shuns_read fun m2 _ _ => ?_
    split
    · exact hk
    · intro s m i r _
      dsimp only
      rw [push_cases]
      have hkk : s ≠ bid → ∀ now, Shuns bid A (sync ((Pack.ofBundle now (mkReport m subject s pos)).add .forwardPending) fun _ => k) :=
        fun hs now => shuns_sync (.inl (by exact hs)) fun _ => hk
      by_cases hg : Gone (mkReport m subject s pos).id m
      · rw [push_gone hg, decide_eq_true hg]
        exact .inr ⟨r, .inl, by simpa using hk⟩
      · obtain ⟨ws, h1, h2⟩ := push_fine hg
        rw [h1, decide_eq_false hg]
        dsimp only
        rw [h2]
        by_cases hs : s = bid
        · exact .inl ⟨_, mem_log _ _, hs⟩
        · exact .inr ⟨((r.push (by exact hs)).1.log (by simp [TakenUp])).1, fun x => .inl ((r.push (by exact hs)).2 x),
            by simpa using hkk hs _⟩

theorem shuns_reportIf {asked : Bool} {bp : Pack} {b : Bundle} {pos : Pos} {reason : Reason} {k : Prog}
    (hk : Shuns bid A k) : Shuns bid A (reportIf asked bp b pos reason k) := by
  unfold reportIf
  refine shuns_read fun m _ _ => ?_
  split
  · exact shuns_sendReport hk
  · exact hk

theorem shuns_delete {bp : Pack} {reason : Reason} {cause : Cause} {k : Bool → Prog}
    (hk : ∀ ok, Shuns bid A (k ok)) : Shuns bid A (delete bp reason cause k) := by
  unfold delete
  exact shuns_getBundle fun b _ => shuns_reportIf <| shuns_sync (.inr (by simp [Pack.has_clear])) hk

theorem shuns_adminValid {b : Bundle} {k : Bool → Prog} (hk : ∀ ok, Shuns bid A (k ok)) : Shuns bid A (adminValid b k) := by
  unfold adminValid
  split
  · exact hk _
  · split
    · exact hk _
    · split
      · refine shuns_read fun m _ _ => ?_
        split
        · unfold inspectReport
          split
          · split
            · exact hk _
            · refine shuns_read fun m _ _ => ?_
              split
              · exact hk _
              · split
                · exact hk _
                · exact shuns_remove (hk _)
          · exact hk _
        · exact hk _
      · exact hk _

theorem shuns_contraindicated {bp : Pack} {k : Bool → Prog} (hid : bp.id ≠ bid) (hk : ∀ ok, Shuns bid A (k ok)) :
    Shuns bid A (contraindicated bp k) := shuns_sync (.inl (by exact hid)) hk

theorem shuns_giveToAgent {eid : EID} {b : Bundle} {k : Bool → Prog} (hb : b.id ≠ bid) (hk : ∀ ok, Shuns bid A (k ok)) :
    Shuns bid A (giveToAgent eid b k) := by
  intro room
  refine shuns_act (fun m i r => r.deliver _ hb _) fun m => ?_
  dsimp only
  split
  · exact hk _
  · have count : Shuns bid A (Prog.set (fun n => { n with stats := { n.stats with delivered := n.stats.delivered + 1 } })
        (k true)) := shuns_set (fun m i r => r.still rfl rfl rfl) (hk _)
    split
    · exact shuns_removeIfSingleton count
    · exact count

theorem shuns_finishDelivery {bp : Pack} {b : Bundle} {k : Bool → Prog} (hid : bp.id ≠ bid) (hb : b.id ≠ bid)
    (hk : ∀ ok, Shuns bid A (k ok)) : Shuns bid A (finishDelivery bp b k) := by
  refine shuns_sync (.inl hid) fun ok => ?_
  split
  · exact hk _
  · exact shuns_giveToAgent hb hk

theorem shuns_deliverBundle {bp : Pack} {b : Bundle} {k : Bool → Prog} (hid : bp.id ≠ bid) (hb : b.id ≠ bid)
    (hk : ∀ ok, Shuns bid A (k ok)) : Shuns bid A (deliverBundle bp b k) := by
  refine shuns_sync (.inl (by exact hid)) fun ok => ?_
  split
  · exact hk _
  · refine shuns_read fun m _ _ => ?_
    split
    · exact shuns_reportIf (shuns_finishDelivery (by rw [Pack.id_clear]; exact hid) hb hk)
    · exact shuns_finishDelivery hid hb hk

theorem shuns_localDelivery {bp : Pack} {k : Bool → Prog} (hid : bp.id ≠ bid) (hk : ∀ ok, Shuns bid A (k ok)) :
    Shuns bid A (localDelivery bp k) := by
  refine shuns_getBundle fun b hb => ?_
  have hb : b.id ≠ bid := by rw [hb]; exact hid
  dsimp only
  split
  · refine shuns_adminValid fun ok => ?_
    split
    · exact shuns_delete fun _ => hk _
    · exact shuns_deliverBundle hid hb hk
  · exact shuns_deliverBundle hid hb hk

theorem shuns_afterTransfers {bp : Pack} {b : Bundle} {a : Answer} {g : Nat} {k : Bool → Prog} (hid : bp.id ≠ bid)
    (hk : ∀ ok, Shuns bid A (k ok)) : Shuns bid A (afterTransfers bp b a g k) := by
  refine shuns_read fun m _ _ => ?_
  split
  · refine shuns_reportIf ?_
    split
    · exact shuns_remove (hk _)
    · split
      · exact shuns_adminValid fun _ => shuns_contraindicated hid hk
      · exact hk _
  · exact hk _

theorem shuns_prepare {bp : Pack} {a : Answer} {k : Bool → Prog} (hid : bp.id ≠ bid) (hk : ∀ ok, Shuns bid A (k ok)) :
    Shuns bid A (prepare bp a k) := by
  refine shuns_getBundle fun b hb => ?_
  have hbid : b.id ≠ bid := by rw [hb]; exact hid
  dsimp only
  have hdel : ∀ (b1 : Bundle) (now : Nat) reason c, Shuns bid A (delete (Pack.ofBundle now b1) reason c fun _ => k false) :=
    fun b1 now reason c => shuns_delete fun _ => hk _
  refine shuns_read fun m2 _ _ => ?_
  split
  · exact shuns_read fun m3 _ _ => hdel _ _ _ _
  split
  · exact shuns_read fun m3 _ _ => hdel _ _ _ _
  refine shuns_read fun m3 _ _ => ?_
  split
  · trivial
  rename_i b2 hb2
  refine shuns_read fun m4 _ _ => ?_
  split
  · trivial
  split
  · exact shuns_read fun m5 _ _ => hdel _ _ _ _
  · unfold sendAll
    refine shuns_act (fun m i r => r.still rfl rfl rfl) fun m => shuns_spawnTransfers ?_ _ (shuns_afterTransfers hid hk)
    intro s
    have : ∀ rt, (raiseAge m4.clock rt b2).1.primary = b.primary := fun rt => by
      rw [raiseAge_primary, setPrevious_primary hb2, raiseHop_primary]
    intro e
    exact hbid (Eq.trans (congrArg Primary.bid (this _)).symm e)

theorem shuns_forward {bp : Pack} {k : Bool → Prog} (hid : bp.id ≠ bid) (hk : ∀ ok, Shuns bid A (k ok)) :
    Shuns bid A (forward bp k) := by
  unfold forward
  dsimp only
  have hid' : ((bp.add .forwardPending).del .dispatchPending).id ≠ bid := hid
  generalize (bp.add .forwardPending).del .dispatchPending = bp' at hid'
  refine shuns_sync (.inl hid') fun ok => ?_
  split
  · exact hk _
  · refine ⟨hid', fun a => ?_⟩
    unfold answered
    split
    · exact hk _
    · split
      · split
        · exact shuns_remove (hk _)
        · exact hk _
      · exact shuns_prepare hid' hk

theorem shuns_dispatchRemote {bp : Pack} {k : Bool → Prog} (hid : bp.id ≠ bid) (hk : ∀ ok, Shuns bid A (k ok)) :
    Shuns bid A (dispatchRemote bp k) := by
  refine shuns_read fun m _ _ => ?_
  split
  · exact ⟨shuns_forward hid fun _ => trivial, hk _⟩
  · exact hk _

theorem shuns_dispatch {bp : Pack} {k : Bool → Prog} (hid : bp.id ≠ bid) (hk : ∀ ok, Shuns bid A (k ok)) :
    Shuns bid A (dispatch bp k) := by
  refine shuns_getBundle fun b hb => ?_
  have hb : b.id ≠ bid := by rw [hb]; exact hid
  dsimp only
  refine shuns_set (fun m i r => r.log (by simpa [TakenUp] using hb)) <| shuns_read fun m _ _ => ?_
  split
  · refine shuns_localDelivery hid fun ok => ?_
    split
    · exact hk _
    · exact shuns_dispatchRemote hid hk
  · exact shuns_dispatchRemote hid hk

theorem shuns_transmit {bp : Pack} {k : Bool → Prog} (hid : bp.id ≠ bid) (hk : ∀ ok, Shuns bid A (k ok)) :
    Shuns bid A (transmit bp k) := by
  refine shuns_sync (.inl (by exact hid)) fun ok => ?_
  split
  · exact hk _
  · refine shuns_read fun m _ _ => ?_
    split
    · exact shuns_delete hk
    · exact shuns_dispatch hid hk

theorem shuns_scanBlocks {b : Bundle} {bp : Pack} {k : Bool → Prog} (hb : b.id ≠ bid) (hid : bp.id ≠ bid)
    (hk : ∀ ok, Shuns bid A (k ok)) (cs : List Block) (index : Nat) (marked : List Nat) :
    Shuns bid A (scanBlocks b bp k cs index marked) := by
  induction cs generalizing index marked with
  | nil =>
    unfold scanBlocks finishReceive
    split
    · trivial
    · refine shuns_push (by exact hb) fun ok => ?_
      split
      · exact hk _
      · exact shuns_dispatch hid fun _ => hk _
  | cons c cs ih =>
    unfold scanBlocks
    split
    · exact ih _ _
    · have hc : Shuns bid A (if c.flags.deleteBundle then delete bp .blockUnintelligible (.block b c) k
          else scanBlocks b bp k cs (index + 1) (if c.flags.remove then marked ++ [index] else marked)) := by
        split
        · exact shuns_delete hk
        · exact ih _ _
      dsimp only
      split
      · refine shuns_read fun m _ _ => ?_
        split
        · exact shuns_sendReport hc
        · exact hc
      · exact hc

theorem shuns_receive {b : Bundle} {k : Bool → Prog} (hb : b.id ≠ bid) (hk : ∀ ok, Shuns bid A (k ok)) :
    Shuns bid A (receive b k) := by
  have main : Shuns bid A (.set (fun n => { n with stats := { n.stats with incoming := n.stats.incoming + 1 } }) <|
      .read fun n =>
        let bp := (Pack.ofBundle n.clock b).add .dispatchPending
        sync bp fun ok =>
          if !ok then k false
          else reportIf b.primary.flags.reqReception bp b .received .noInformation <| scanBlocks b bp k b.canonicals 0 []) := by
    refine shuns_set (fun m i r => r.still rfl rfl rfl) <| shuns_read fun m _ _ => ?_
    refine shuns_sync (.inl (by exact hb)) fun ok => ?_
    split
    · exact hk _
    · exact shuns_reportIf (shuns_scanBlocks hb (by exact hb) hk _ _ _)
  intro m i r _
  have past : Past bid m (added m b) := by
    rcases add_eq m b with ⟨-, h1, -⟩ | ⟨-, h1, -, -⟩ | ⟨-, -, h1, -, -⟩
    · rw [h1]; exact ⟨r, id⟩
    · rw [h1]; exact r.addIfUnknown hb
    · rw [h1]; exact r.addIfUnknown hb
  refine .inr ⟨past.1, fun x => .inl (past.2 x), ?_⟩
  dsimp only
  rcases add_eq m b with ⟨-, -, h2⟩ | ⟨-, -, -, h2⟩ | ⟨-, -, -, -, h2⟩
  · rw [h2]; exact hk _
  · rw [h2]; exact shuns_set (fun m i r => r.still rfl rfl rfl) (hk _)
  · rw [h2]; exact main

theorem shuns_sweep {k : Prog} (hk : Shuns bid A k) (ms : List Pack) : Shuns bid A (sweep ms k) := by
  induction ms with
  | nil => exact hk
  | cons p ms ih =>
    refine shuns_read fun m _ _ => ?_
    split
    · exact shuns_remove ih
    · exact ih

theorem shuns_collect {k : List Pack → Prog} (hk : ∀ ps : List Pack, (∀ p ∈ ps, p.id ≠ bid) → Shuns bid A (k ps)) (bids : List String)
    (hb : bid ∉ bids) : ∀ acc : List Pack, (∀ p ∈ acc, p.id ≠ bid) → Shuns bid A (collect bids acc k) := by
  induction bids with
  | nil => exact hk
  | cons x bids ih =>
    have ih := ih fun h => hb (List.mem_cons_of_mem _ h)
    intro acc hacc
    refine shuns_getMetadata fun bp hbp => ?_
    dsimp only
    apply ih
    split
    · exact hacc
    · intro p hp
      rcases List.mem_append.mp hp with hp | hp
      · exact hacc p hp
      · rw [List.mem_singleton.mp hp, hbp]
        rintro rfl
        exact hb (List.mem_cons_self ..)

theorem shuns_forwardAll {par : Bool} (ps : List Pack) (h : ∀ p ∈ ps, p.id ≠ bid) : Shuns bid A (forwardAll par ps) := by
  induction ps with
  | nil => trivial
  | cons p ps ih =>
    have ih := ih fun q hq => h q (List.mem_cons_of_mem _ hq)
    unfold forwardAll
    split
    · exact ⟨shuns_forward (h p List.mem_cons_self) fun _ => trivial, ih⟩
    · exact shuns_forward (h p List.mem_cons_self) fun _ => ih

theorem forwarding_eq (n : Node) : (db n).forwarding = n.store.forwarding := rfl

theorem shuns_processBundles : Shuns bid A processBundles := by
  refine shuns_read fun m _ _ => shuns_sweep (shuns_read fun m _ _ => ?_) _
  split
  · trivial
  · refine shuns_read fun m i r => shuns_collect ?_ _ ?_ [] (by simp)
    · intro ps hps
      refine shuns_read fun m _ _ => shuns_forwardAll _ ?_
      intro p hp
      exact hps p (List.mem_mergeSort.mp hp)
    · rw [forwarding_eq]
      intro hb
      obtain ⟨p, h1, h2⟩ := (mem_forwarding_iff i _).mp hb
      rw [r.mark p h1] at h2; cases h2

theorem shuns_popBundle {eid : EID} : Shuns bid A (popBundle eid) := by
  refine shuns_act (fun m i r => r.popAgent _) fun m => ?_
  split
  · trivial
  · split
    · trivial
    · exact shuns_removeIfSingleton trivial

theorem shuns_task (c : Call) (h : ¬ Brings bid (.called c)) : Shuns bid A (task c) := by
  cases c with
  | receive b => exact shuns_receive h fun _ => trivial
  | send b =>
    refine shuns_push h fun ok => ?_
    split
    · trivial
    · exact shuns_read fun m _ _ => shuns_transmit (by exact h) fun _ => trivial
  | remove x => exact shuns_remove trivial
  | pop e => exact shuns_popBundle
  | janitor => exact shuns_processBundles

/-! ### The submission -/

theorem doomed_getBundle {k : Option Bundle → Prog} (hk : ∀ b, Doomed bid A (k (some b))) : Doomed bid A (getBundle bid k) := by
  refine doomed_read fun m i r a hh => ?_
  unfold SledStore.getBundle db
  dsimp only
  cases h : AList.get? m.store.bundles bid with
  | none => exact absurd h hh
  | some b => exact hk b

theorem doomed_sync {bp : Pack} {c : Cause} {k : Bool → Prog} (ha : bp.hasAny = true) (hid : bp.id = bid) (hk : Doomed bid A (k true)) :
    Doomed bid A (sync bp k c) := by
  unfold sync
  rw [ha]
  intro m i r a hh
  right; right
  obtain ⟨o, e, h⟩ := update_cases m bp k
  dsimp only
  rw [e, h (by rw [hid]; exact known_of_stored i hh)]
  exact hk

/-- The bundle of a report that is asked for here is the one that is deleted. -/
theorem doomed_sendReport {bp : Pack} {cause : Bundle} {pos : Pos} {reason : Reason} {k : Prog} (hid : bp.id = bid) (hk : Doomed bid A k) :
    Doomed bid A (sendReport bp cause pos reason k) := by
  unfold sendReport
  split
  · exact hk
  · rw [hid]
    refine doomed_getBundle fun subject => ?_
    dsimp only
    refine doomed_read fun m2 _ _ _ _ => ?_
    split
    · exact hk
    · intro s m i r _ _
      right; right
      dsimp only
      rw [push_cases]
      split
      · have ha : ((Pack.ofBundle m.clock (mkReport m subject s pos)).add .forwardPending).hasAny = true :=
          (Pack.hasAny_iff _).mpr ⟨.forwardPending, by simp [Pack.has_add]⟩
        unfold sync
        rw [ha]
        intro m' _ _ _ _
        right; right
        obtain ⟨o, e, -⟩ := update_cases m' ((Pack.ofBundle m.clock (mkReport m subject s pos)).add .forwardPending) fun _ => k
        dsimp only
        rw [e]
        exact hk
      · exact hk

theorem doomed_delete {bp : Pack} {reason : Reason} {cause : Cause} {k : Bool → Prog} (hid : bp.id = bid)
    (hl : bp.has .localEndpoint = false) : Doomed bid A (delete bp reason cause k) := by
  unfold delete
  rw [hid]
  refine doomed_getBundle fun b => ?_
  have last : Doomed bid A (sync bp.clear k cause) := by
    have hc : bp.clear.hasAny = false := by
      rw [← Bool.not_eq_true, Pack.hasAny_iff]
      simp [Pack.has_clear, hl]
    unfold sync
    rw [hc, Pack.id_clear, hid]
    intro m i r a hh
    right; left
    dsimp only
    rw [remove_eq i]
    have : ((m.store.remove bid).1).getBundle bid = none := by rw [MemStore.getBundle_remove i]; simp
    unfold Here Node.remove
    split <;> simpa [Node.log] using this
  unfold reportIf
  refine doomed_read fun m _ _ _ _ => ?_
  split
  · exact doomed_sendReport hid last
  · exact last

theorem doomed_transmit {b : Bundle} (named : b.primary.source ≠ .none) (now : Nat) (k : Bool → Prog) :
    Doomed b.id (fun m => b.primary.source ∉ m.agents.eids) (transmit (Pack.ofBundle now b) k) := by
  refine doomed_sync ((Pack.hasAny_iff _).mpr ⟨.dispatchPending, by simp [Pack.has_add]⟩) rfl ?_
  refine doomed_read fun m i r a _ => ?_
  rw [if_pos (send_refused named a now)]
  exact doomed_delete rfl (by simp [Pack.has_add])

theorem shuns_transmit_foreign {b : Bundle} (named : b.primary.source ≠ .none) (now : Nat) (k : Bool → Prog)
    (hk : ∀ ok, Shuns b.id (fun m => b.primary.source ∉ m.agents.eids) (k ok)) :
    Shuns b.id (fun m => b.primary.source ∉ m.agents.eids) (transmit (Pack.ofBundle now b) k) := by
  refine shuns_sync (.inr (by simp [Pack.has_add])) fun ok => ?_
  split
  · exact hk _
  · intro m i r a
    refine .inr ⟨r, .inl, ?_⟩
    dsimp only
    rw [if_pos (send_refused named a now)]
    exact shuns_delete hk

theorem shuns_send {b : Bundle} (named : b.primary.source ≠ .none) :
    Shuns b.id (fun m => b.primary.source ∉ m.agents.eids) (task (.send b)) := by
  intro m i r a
  dsimp only
  rw [push_eq, push_cases]
  by_cases hg : Gone b.id m
  · rw [if_pos hg, decide_eq_true hg]
    exact .inr ⟨r, .inl, trivial⟩
  · rw [if_neg hg, decide_eq_false hg]
    refine .inr ⟨r.store b, fun _ => .inr ?_, ?_⟩
    · exact doomed_read fun m i r a _ => doomed_transmit named _ _
    · exact shuns_read fun m i r => shuns_transmit_foreign named _ _ fun _ => trivial

/-! ### All histories -/

theorem idle_restart {n : Node} (r : Idle bid n) (clock : Nat) : Idle bid (restarted n clock) :=
  ⟨r.mark, by simp [restarted], r.silent⟩

theorem idle_cut {n : Node} (r : Idle bid n) (clock : Nat) {op : SledStore.Op} {k : Nat}
    (hw : ∀ ws, (db n).writes op = .ok ws → k < ws.length) : Idle bid (restarted (setDb n ((db n).crashStep op k)) clock) := by
  rcases cut_cases hw with e | ⟨p, hf, e⟩
  · rw [e]; exact idle_restart r _
  · rw [e]
    refine idle_restart (n := { n with store := { n.store with metadata := AList.insert n.store.metadata p.id p } }) ⟨?_, r.queues, r.silent⟩ _
    intro q hq
    dsimp only at hq
    rw [getMetadata_insert] at hq
    split at hq
    · cases hq; exact hf
    · exact r.mark q hq

/-- The invariant. If `D`, the bundle is stored only while a task is about to remove it. -/
def Shun (D : Prop) (bid : String) (A : Node → Prop) (s : Sys) : Prop :=
  Idle bid s.node ∧ (∀ p ∈ s.pool, Shuns bid A p) ∧ (D → Here bid s.node → ∃ p ∈ s.pool, Doomed bid A p)

theorem shun_step_while {B : Event → Prop} (hB : ∀ c : Call, ¬ B (.called c) → Shuns bid A (task c)) {D : Prop} {s t : Sys} (i : s.node.store.Inv) (a : A s.node) (h : Shun D bid A s) (hs : Step s t) :
    Clash bid t.node ∨ (∃ c, t.node.events = s.node.events ++ [.called c] ∧ B (.called c)) ∨ Shun D bid A t := by
  obtain ⟨hr, hp, hd⟩ := h
  cases hs with
  | task l r p n n' ps ht =>
    rcases Shuns.step i hr a (hp p (by simp)) ht with h | ⟨h1, h2, h3⟩
    · exact .inl h
    · have hold : D → Here bid n → Clash bid n' ∨ ¬ Here bid n' ∨ ∃ q ∈ l ++ ps ++ r, Doomed bid A q := by
        intro d hh
        obtain ⟨q, hq, hqd⟩ := hd d hh
        simp only [List.mem_append, List.mem_cons] at hq
        rcases hq with hq | hq | hq
        · exact .inr (.inr ⟨q, by simp [hq], hqd⟩)
        · subst hq
          rcases Doomed.step i hr a hh hqd ht with h | h | ⟨q, hq, h⟩
          · exact .inl h
          · exact .inr (.inl h)
          · exact .inr (.inr ⟨q, by simp [hq], h⟩)
        · exact .inr (.inr ⟨q, by simp [hq], hqd⟩)
      by_cases hc : Clash bid n'
      · exact .inl hc
      · refine .inr (.inr ⟨h1, ?_, ?_⟩)
        · intro q hq'
          simp only [List.append_assoc, List.mem_append] at hq'
          rcases hq' with h | h | h
          · exact hp q (by simp [h])
          · exact h3 q h
          · exact hp q (by simp [h])
        · intro d hh
          rcases h2 hh with h | ⟨q, hq, h⟩
          · rcases hold d h with h | h | h
            · exact absurd h hc
            · exact absurd hh h
            · exact h
          · exact ⟨q, by simp [hq], h⟩
  | call n pool c =>
    by_cases hb : B (.called c)
    · exact .inr (.inl ⟨c, rfl, hb⟩)
    · refine .inr (.inr ⟨(hr.log (by simp [TakenUp])).1, ?_, ?_⟩)
      · intro q hq
        rcases List.mem_append.mp hq with hq | hq
        · exact hp q hq
        · rw [List.mem_singleton.mp hq]; exact hB c hb
      · intro d hh
        obtain ⟨q, hq, h⟩ := hd d hh
        exact ⟨q, List.mem_append_left _ hq, h⟩
  | change n n' pool h =>
    have := hr.outside h
    exact .inr (.inr ⟨this.1, hp, fun d hh => hd d (this.2 hh)⟩)

theorem shun_step {D : Prop} {s t : Sys} (i : s.node.store.Inv) (a : A s.node) (h : Shun D bid A s) (hs : Step s t) :
    Clash bid t.node ∨ (∃ c, t.node.events = s.node.events ++ [.called c] ∧ Brings bid (.called c)) ∨ Shun D bid A t :=
  shun_step_while (fun c h => shuns_task c h) i a h hs

theorem since_mono {B : Event → Prop} {s n m : Node} (h : ∃ e ∈ newEvents s n, B e) (g : n.events <+: m.events) :
    ∃ e ∈ newEvents s m, B e := by
  obtain ⟨e, he, hb⟩ := h
  obtain ⟨es, g⟩ := g
  refine ⟨e, ?_, hb⟩
  unfold newEvents at he ⊢
  rw [← g, List.drop_append]
  exact List.mem_append_left _ he

theorem since_log {B : Event → Prop} {s n m : Node} {e : Event} (hk : s.events.length ≤ n.events.length) (h : m.events = n.events ++ [e])
    (hb : B e) : ∃ e ∈ newEvents s m, B e := by
  refine ⟨e, ?_, hb⟩
  unfold newEvents
  rw [h, List.drop_append_of_le_length hk]
  exact List.mem_append_right _ (List.mem_singleton.mpr rfl)

theorem Clash.mono {n m : Node} (h : Clash bid n) (g : n.events <+: m.events) : Clash bid m := by
  obtain ⟨r, h, h'⟩ := h
  obtain ⟨es, g⟩ := g
  exact ⟨r, by rw [← g]; exact List.mem_append_left _ h, h'⟩

theorem sledHistory_reaches {s t : Sys} (h : SledHistory A s t) : Reaches s t := by
  induction h with
  | refl => exact .refl _
  | step _ hs _ ih => exact ih.step hs
  | restart c _ _ ih => exact ih.restart c
  | cut c op k hw _ _ ih => exact ih.cut c op k hw

theorem reaches_sledHistory {s t : Sys} (h : Reaches s t) : SledHistory (fun _ => True) s t := by
  induction h with
  | refl => exact .refl trivial
  | step _ hs ih => exact .step ih hs trivial
  | restart c _ ih => exact .restart c ih trivial
  | cut c op k hw _ ih => exact .cut c op k hw ih trivial

theorem sledHistory_last {s t : Sys} (h : SledHistory A s t) : A t.node := by cases h <;> assumption

/-- The events of the past stay. -/
theorem reaches_past {cfg : Config} {clock : Nat} {s t : Sys} (before : Reaches ⟨Node.start cfg clock, []⟩ s) (run : Reaches s t) :
    s.node.events <+: t.node.events := (between before run).2.1.base.past

theorem shun_history_while {B : Event → Prop} (hB : ∀ c : Call, ¬ B (.called c) → Shuns bid A (task c)) {cfg : Config} {clock : Nat} {s t : Sys} (before : Reaches ⟨Node.start cfg clock, []⟩ s)
    (h : Shun False bid A s) (run : SledHistory A s t) :
    Clash bid t.node ∨ (∃ e ∈ newEvents s.node t.node, B e) ∨ Shun False bid A t := by
  induction run with
  | refl => exact .inr (.inr h)
  | @step u v hu hs _ ih =>
    have p1 := reaches_past before (sledHistory_reaches hu)
    have bu := before.join (sledHistory_reaches hu)
    have p2 := reaches_past bu (.step (.refl _) hs)
    rcases ih with ih | ih | ih
    · exact .inl (Clash.mono ih p2)
    · exact .inr (.inl (since_mono ih p2))
    · rcases shun_step_while hB (sled_good bu).1.inv (sledHistory_last hu) ih hs with h | ⟨c, h1, h2⟩ | h
      · exact .inl h
      · exact .inr (.inl (since_log p1.length_le h1 h2))
      · exact .inr (.inr h)
  | restart c _ _ ih =>
    rcases ih with ih | ih | ih
    · exact .inl ih
    · exact .inr (.inl ih)
    · exact .inr (.inr ⟨idle_restart ih.1 c, by simp, False.elim⟩)
  | cut c op k hw _ _ ih =>
    rcases ih with ih | ih | ih
    · exact .inl ih
    · exact .inr (.inl ih)
    · exact .inr (.inr ⟨idle_cut ih.1 c hw, by simp, False.elim⟩)

theorem shun_history {cfg : Config} {clock : Nat} {s t : Sys} (before : Reaches ⟨Node.start cfg clock, []⟩ s)
    (h : Shun False bid A s) (run : SledHistory A s t) :
    Clash bid t.node ∨ (∃ e ∈ newEvents s.node t.node, Brings bid e) ∨ Shun False bid A t :=
  shun_history_while (fun c h => shuns_task c h) before h run

theorem shun_throughout_while {B : Event → Prop} (hB : ∀ c : Call, ¬ B (.called c) → Shuns bid A (task c)) {cfg : Config} {clock : Nat} {s t : Sys} (before : Reaches ⟨Node.start cfg clock, []⟩ s)
    (h : Shun True bid A s) (run : SledThroughout A s t) :
    Clash bid t.node ∨ (∃ e ∈ newEvents s.node t.node, B e) ∨ Shun True bid A t := by
  induction run with
  | refl => exact .inr (.inr h)
  | @step u v hu hs _ ih =>
    have p1 := reaches_past before hu.reaches
    have bu := before.join hu.reaches
    have p2 := reaches_past bu (.step (.refl _) hs)
    rcases ih with ih | ih | ih
    · exact .inl (Clash.mono ih p2)
    · exact .inr (.inl (since_mono ih p2))
    · rcases shun_step_while hB (sled_good bu).1.inv hu.last ih hs with h | ⟨c, h1, h2⟩ | h
      · exact .inl h
      · exact .inr (.inl (since_log p1.length_le h1 h2))
      · exact .inr (.inr h)

theorem shun_throughout {cfg : Config} {clock : Nat} {s t : Sys} (before : Reaches ⟨Node.start cfg clock, []⟩ s)
    (h : Shun True bid A s) (run : SledThroughout A s t) :
    Clash bid t.node ∨ (∃ e ∈ newEvents s.node t.node, Brings bid e) ∨ Shun True bid A t :=
  shun_throughout_while (fun c h => shuns_task c h) before h run

theorem start_shun (cfg : Config) (clock : Nat) : Shun False bid A ⟨Node.start cfg clock, []⟩ :=
  let h := start_shunned (bid := bid) (A := A) cfg clock
  ⟨h.1, h.2.1, False.elim⟩

/-- When the bundle is submitted. -/
theorem shun_submitted {cfg : Config} {clock : Nat} {n : Node} {tasks : List Prog} {b : Bundle}
    (before : Reaches ⟨Node.start cfg clock, []⟩ ⟨n, tasks⟩) (fresh : ∀ e ∈ n.events, ¬ Brings b.id e)
    (named : b.primary.source ≠ .none) :
    Idle b.id n ∧ ∀ p ∈ tasks ++ [task (.send b)], Shuns b.id (fun m => b.primary.source ∉ m.agents.eids) p := by
  rcases shun_history (bid := b.id) (.refl _) (start_shun cfg clock) (reaches_sledHistory before) with h | h | h
  · obtain ⟨r, h1, h2⟩ := h
    exact absurd h2 (fresh _ h1)
  · obtain ⟨e, h1, h2⟩ := h
    exact absurd h2 (fresh e (List.mem_of_mem_drop h1))
  · refine ⟨h.1, fun q hq => ?_⟩
    rcases List.mem_append.mp hq with hq | hq
    · exact Shuns.weaken (fun _ _ => trivial) q (h.2.1 q hq)
    · rw [List.mem_singleton.mp hq]; exact shuns_send named

/-- Nothing with the id came. -/
theorem nothing_came {n : Node} {b : Bundle} {m : Node} (past : (n.log (.called (.send b))).events <+: m.events)
    (fresh : ∀ e ∈ n.events, ¬ Brings b.id e)
    (alone : ∀ e ∈ newEvents (n.log (.called (.send b))) m, ¬ Brings b.id e) : ¬ Clash b.id m := by
  rintro ⟨r, h1, h2⟩
  obtain ⟨es, g⟩ := past
  rw [← g, List.mem_append] at h1
  rcases h1 with h1 | h1
  · rcases List.mem_append.mp h1 with h1 | h1
    · exact absurd h2 (fresh _ h1)
    · cases List.mem_singleton.mp h1
  · refine absurd h2 (alone (.report r) ?_)
    rw [newEvents_eq g.symm]; exact h1

theorem foreign_history {cfg : Config} {clock : Nat} {n : Node} {tasks : List Prog} {b : Bundle} {s : Sys}
    (before : Reaches ⟨Node.start cfg clock, []⟩ ⟨n, tasks⟩) (fresh : ∀ e ∈ n.events, ¬ Brings b.id e)
    (named : b.primary.source ≠ .none)
    (run : SledHistory (fun m => b.primary.source ∉ m.agents.eids) ⟨n.log (.called (.send b)), tasks ++ [task (.send b)]⟩ s)
    (alone : ∀ e ∈ newEvents (n.log (.called (.send b))) s.node, ¬ Brings b.id e) : Idle b.id s.node := by
  obtain ⟨h1, h2⟩ := shun_submitted before fresh named
  have hb := before.step (Step.call n tasks (.send b))
  rcases shun_history hb ⟨(h1.log (by simp [TakenUp])).1, h2, False.elim⟩ run with h | ⟨e, h, h'⟩ | h
  · exact absurd h (nothing_came (reaches_past hb (sledHistory_reaches run)) fresh alone)
  · exact absurd h' (alone e h)
  · exact h.1

theorem foreign_ends {cfg : Config} {clock : Nat} {n m : Node} {tasks : List Prog} {b : Bundle}
    (before : Reaches ⟨Node.start cfg clock, []⟩ ⟨n, tasks⟩) (fresh : ∀ e ∈ n.events, ¬ Brings b.id e)
    (new : n.store.getBundle b.id = none) (named : b.primary.source ≠ .none)
    (run : SledThroughout (fun m => b.primary.source ∉ m.agents.eids) ⟨n.log (.called (.send b)), tasks ++ [task (.send b)]⟩ ⟨m, []⟩)
    (alone : ∀ e ∈ newEvents (n.log (.called (.send b))) m, ¬ Brings b.id e) : m.store.getBundle b.id = none := by
  obtain ⟨h1, h2⟩ := shun_submitted before fresh named
  have hb := before.step (Step.call n tasks (.send b))
  rcases shun_throughout hb ⟨(h1.log (by simp [TakenUp])).1, h2, fun _ hh => absurd new hh⟩ run with h | ⟨e, h, h'⟩ | h
  · exact absurd h (nothing_came (reaches_past hb run.reaches) fresh alone)
  · exact absurd h' (alone e h)
  · refine Classical.byContradiction fun hh => ?_
    obtain ⟨p, hp, -⟩ := h.2.2 trivial hh
    cases hp

end Dtn.OnSled
