import Verif.Lemmas.ProcJanitor
/-! Programs that leave a removed bundle alone. -/

namespace Dtn.Proc
open Routing (Notification Answer)
open Spec

variable {bid : String} {k0 : Nat}

/-- Something new with this id came after the first `k0` events. -/
def Back (bid : String) (k0 : Nat) (n : Node) : Prop := ∃ e ∈ n.events.drop k0, Brings bid e

theorem Back.mono {n m : Node} (h : Back bid k0 n) (g : n.events <+: m.events) : Back bid k0 m := by
  obtain ⟨e, he, hb⟩ := h
  obtain ⟨es, g⟩ := g
  refine ⟨e, ?_, hb⟩
  rw [← g, List.drop_append]
  exact List.mem_append_left _ he

theorem Back.log {n m : Node} {e : Event} (hk : k0 ≤ n.events.length) (h : m.events = n.events ++ [e]) (hb : Brings bid e) :
    Back bid k0 m := by
  refine ⟨e, ?_, hb⟩
  rw [h, List.drop_append_of_le_length hk]
  exact List.mem_append_right _ (List.mem_singleton.mpr rfl)

/-- The bundle was removed, and the router was not asked about it after the first `k0` events. -/
structure Rest (bid : String) (k0 : Nat) (n : Node) : Prop where
  removed : Removed n bid
  silent : bid ∉ askedIds (n.events.drop k0)

/-- The program leaves a removed bundle alone, unless it comes back. -/
def Leaves (bid : String) (k0 : Nat) : Prog → Prop
  | .done _ => True
  | .panic => True
  | .act f k => ∀ m, m.store.Inv → k0 ≤ m.events.length → Rest bid k0 m →
      Back bid k0 (f m) ∨ (Rest bid k0 (f m) ∧ Leaves bid k0 (k m))
  | .route bp k => bp.id ≠ bid ∧ ∀ a, Leaves bid k0 (k a)
  | .choose k => ∀ b, Leaves bid k0 (k b)
  | .fresh k => ∀ s, Leaves bid k0 (k s)
  | .spawn t k => Leaves bid k0 t ∧ Leaves bid k0 k
  | .wait _ k => Leaves bid k0 k

theorem Leaves.step {n m : Node} {p : Prog} {ps : List Prog} (i : n.store.Inv) (hk : k0 ≤ n.events.length) (h : Leaves bid k0 p)
    (r : Rest bid k0 n) (s : TaskStep n p m ps) : Back bid k0 m ∨ (Rest bid k0 m ∧ ∀ q ∈ ps, Leaves bid k0 q) := by
  cases s with
  | done | panic => exact .inr ⟨r, by simp⟩
  | act => rcases h n i hk r with h | h
           · exact .inl h
           · exact .inr ⟨h.1, by simpa using h.2⟩
  | route bp k a =>
    refine .inr ⟨⟨r.removed, ?_⟩, by simpa using h.2 a⟩
    have : (n.log (.asked bp a)).events.drop k0 = n.events.drop k0 ++ [.asked bp a] := List.drop_append_of_le_length hk
    rw [this, askedIds_append]
    simpa [askedIds, List.mem_append] using ⟨by simpa [askedIds] using r.silent, fun e => h.1 e.symm⟩
  | choose k b => exact .inr ⟨r, by simpa using h b⟩
  | fresh k s => exact .inr ⟨r, by simpa using h s⟩
  | spawn t k => exact .inr ⟨r, by simpa using ⟨h.2, h.1⟩⟩
  | wait c k => exact .inr ⟨r, fun q hq => by rw [List.mem_singleton.mp hq]; exact h⟩

theorem leaves_read {k : Node → Prog} (h : ∀ m, m.store.Inv → Rest bid k0 m → Leaves bid k0 (k m)) : Leaves bid k0 (.read k) :=
  fun m i _ r => .inr ⟨r, h m i r⟩

theorem leaves_act {f : Node → Node} {k : Node → Prog} (hf : ∀ m, m.store.Inv → Rest bid k0 m → Rest bid k0 (f m))
    (h : ∀ m, Leaves bid k0 (k m)) : Leaves bid k0 (.act f k) :=
  fun m i _ r => .inr ⟨hf m i r, h m⟩

theorem leaves_set {f : Node → Node} {k : Prog} (hf : ∀ m, m.store.Inv → Rest bid k0 m → Rest bid k0 (f m))
    (h : Leaves bid k0 k) : Leaves bid k0 (.set f k) :=
  leaves_act hf fun _ => h

namespace Rest
variable {n : Node}

theorem step {m : Node} (r : Rest bid k0 n) (h : Removed m bid) (he : ∃ es, m.events = n.events ++ es ∧ askedIds es = []) :
    Rest bid k0 m := by
  refine ⟨h, ?_⟩
  obtain ⟨es, he, ha⟩ := he
  rw [he, List.drop_append, askedIds_append, List.mem_append]
  rintro (h | h)
  · exact r.silent h
  · have : List.Sublist (askedIds (es.drop (k0 - n.events.length))) (askedIds es) := (List.drop_sublist _ _).filterMap _
    rw [ha] at this
    rw [List.sublist_nil.mp this] at h
    cases h

theorem same {m : Node} (r : Rest bid k0 n) (h : m.store = n.store) (he : ∃ es, m.events = n.events ++ es ∧ askedIds es = []) :
    Rest bid k0 m :=
  r.step (by unfold Removed; rw [h]; exact r.removed) he

theorem still {m : Node} (r : Rest bid k0 n) (h : m.store = n.store) (he : m.events = n.events) : Rest bid k0 m :=
  r.same h ⟨[], by rw [he, List.append_nil], rfl⟩

theorem push (r : Rest bid k0 n) {b : Bundle} (h : b.id ≠ bid) : Rest bid k0 (n.push b) := by
  refine r.step ?_ ⟨[], (List.append_nil _).symm, rfl⟩
  obtain ⟨h1, p, h2, h3⟩ := r.removed
  refine ⟨?_, p, ?_, h3⟩
  · simp only [Node.push]; rw [MemStore.getBundle_push, if_neg (fun e => h e.symm)]; exact h1
  · simp only [Node.push]; rw [MemStore.getMetadata_push, if_neg (fun e => h e.1.symm)]; exact h2

theorem addIfUnknown (r : Rest bid k0 n) {b : Bundle} (h : b.id ≠ bid) : Rest bid k0 (n.addIfUnknown b) := by
  have : Rest bid k0 { n with store := (n.store.addIfUnknown n.clock b).1 } := by
    unfold MemStore.addIfUnknown
    split
    · exact r.push h
    · exact r
  unfold Node.addIfUnknown
  split <;> exact this.same rfl ⟨[_], rfl, rfl⟩

theorem removeStore (r : Rest bid k0 n) (i : n.store.Inv) (j : String) : Rest bid k0 { n with store := (n.store.remove j).1 } := by
  refine r.step ?_ ⟨[], (List.append_nil _).symm, rfl⟩
  obtain ⟨h1, p, h2, h3⟩ := r.removed
  unfold Removed
  rw [MemStore.getBundle_remove i, MemStore.getMetadata_remove i]
  by_cases hj : bid = j
  · subst hj
    refine ⟨by simp, MemStore.tomb p, by simp [h2], ?_⟩
    simp [MemStore.tomb, Pack.has_add]
  · simp only [if_neg hj]
    exact ⟨h1, p, h2, h3⟩

theorem remove (r : Rest bid k0 n) (i : n.store.Inv) (j : String) (c : Cause) : Rest bid k0 (n.remove j c) := by
  unfold Node.remove
  split
  · exact (r.removeStore i j).same rfl ⟨[_], rfl, rfl⟩
  · exact (r.removeStore i j).still rfl rfl

theorem sync (r : Rest bid k0 n) (i : n.store.Inv) {bp : Pack} (h : bp.id ≠ bid) (c : Cause) : Rest bid k0 (n.sync bp c) := by
  unfold Node.sync
  split
  · exact r.remove i _ _
  · refine r.step ?_ ⟨[], (List.append_nil _).symm, rfl⟩
    obtain ⟨h1, p, h2, h3⟩ := r.removed
    refine ⟨?_, p, ?_, h3⟩
    · simp only; rw [MemStore.getBundle_update]; exact h1
    · simp only; rw [MemStore.getMetadata_update, if_neg (fun e => h e.1.symm)]; exact h2

theorem deliver (r : Rest bid k0 n) (e b room) : Rest bid k0 (n.deliver e b room) := by
  unfold Node.deliver; split
  · exact r.still rfl rfl
  · exact r.same rfl ⟨[_], rfl, rfl⟩

theorem popAgent (r : Rest bid k0 n) (e) : Rest bid k0 (n.popAgent e) := by
  unfold Node.popAgent; split
  · exact r
  · split
    · exact r
    · exact r.same rfl ⟨[_], rfl, rfl⟩

theorem removeIfSingleton (r : Rest bid k0 n) (i : n.store.Inv) (b) : Rest bid k0 (n.removeIfSingleton b) := by
  unfold Node.removeIfSingleton; split
  · exact r.remove i _ _
  · exact r

end Rest

theorem leaves_sendReport {bp : Pack} {cause : Bundle} {pos : Pos} {reason : Reason} {k : Prog} (hk : Leaves bid k0 k) :
    Leaves bid k0 (sendReport bp cause pos reason k) := by
  unfold Proc.sendReport
  split
  · exact hk
  · refine leaves_read fun m _ _ => ?_
    split
    · exact hk
    · refine leaves_read fun m2 _ _ => ?_
      split
      · exact hk
      · intro s m i hl r
        by_cases hs : s = bid
        · left
          exact .log hl rfl hs
        · right
          exact ⟨(r.push (b := mkReport m _ s pos) hs).same rfl ⟨[_], rfl, rfl⟩, leaves_set (fun m i r => r.sync i hs _) hk⟩

theorem leaves_reportIf {asked : Bool} {bp : Pack} {b : Bundle} {pos : Pos} {reason : Reason} {k : Prog}
    (hk : Leaves bid k0 k) : Leaves bid k0 (reportIf asked bp b pos reason k) := by
  unfold Proc.reportIf
  refine leaves_read fun m _ _ => ?_
  split
  · exact leaves_sendReport hk
  · exact hk

theorem leaves_delete {bp : Pack} {reason : Reason} {cause : Cause} {k : Bool → Prog} (hid : bp.id ≠ bid)
    (hk : ∀ ok, Leaves bid k0 (k ok)) : Leaves bid k0 (Proc.delete bp reason cause k) := by
  unfold Proc.delete
  refine leaves_read fun m _ _ => ?_
  split
  · exact hk _
  · exact leaves_reportIf <| leaves_act (fun m i r => r.sync i (by rw [Pack.id_clear]; exact hid) _) fun m => hk _

theorem leaves_adminValid {b : Bundle} {k : Bool → Prog} (hk : ∀ ok, Leaves bid k0 (k ok)) : Leaves bid k0 (adminValid b k) := by
  unfold Proc.adminValid
  split
  · exact hk _
  · split
    · exact hk _
    · split
      · refine leaves_read fun m _ _ => ?_
        split
        · unfold inspectReport
          split
          · split
            · exact hk _
            · refine leaves_read fun m _ _ => ?_
              split
              · exact hk _
              · split
                · exact hk _
                · exact leaves_set (fun m i r => r.remove i _ _) (hk _)
          · exact hk _
        · exact hk _
      · exact hk _

theorem leaves_contraindicated {bp : Pack} {k : Bool → Prog} (hid : bp.id ≠ bid) (hk : ∀ ok, Leaves bid k0 (k ok)) :
    Leaves bid k0 (contraindicated bp k) :=
  leaves_act (fun m i r => r.sync i (by exact hid) _) fun _ => hk _

theorem leaves_giveToAgent {eid : EID} {b : Bundle} {k : Bool → Prog} (hk : ∀ ok, Leaves bid k0 (k ok)) :
    Leaves bid k0 (giveToAgent eid b k) := by
  intro room
  refine leaves_act (fun m i r => r.deliver _ _ _) fun m => ?_
  dsimp only
  split
  · exact hk _
  · have count : Leaves bid k0 (Prog.set (fun n => { n with stats := { n.stats with delivered := n.stats.delivered + 1 } })
        (k true)) := leaves_set (fun m i r => r.still rfl rfl) (hk _)
    split
    · exact leaves_set (fun m i r => r.removeIfSingleton i _) count
    · exact count

theorem leaves_finishDelivery {bp : Pack} {b : Bundle} {k : Bool → Prog} (hid : bp.id ≠ bid) (hk : ∀ ok, Leaves bid k0 (k ok)) :
    Leaves bid k0 (finishDelivery bp b k) := by
  refine leaves_act (fun m i r => r.sync i hid _) fun m => ?_
  split
  · exact hk _
  · exact leaves_giveToAgent hk

theorem leaves_deliverBundle {bp : Pack} {b : Bundle} {k : Bool → Prog} (hid : bp.id ≠ bid) (hk : ∀ ok, Leaves bid k0 (k ok)) :
    Leaves bid k0 (deliverBundle bp b k) := by
  refine leaves_act (fun m i r => r.sync i (by exact hid) _) fun m => ?_
  split
  · exact hk _
  · refine leaves_read fun m _ _ => ?_
    split
    · exact leaves_reportIf (leaves_finishDelivery (by rw [Pack.id_clear]; exact hid) hk)
    · exact leaves_finishDelivery hid hk

theorem leaves_localDelivery {bp : Pack} {k : Bool → Prog} (hid : bp.id ≠ bid) (hk : ∀ ok, Leaves bid k0 (k ok)) :
    Leaves bid k0 (localDelivery bp k) := by
  refine leaves_read fun m _ _ => ?_
  split
  · exact hk _
  · split
    · refine leaves_adminValid fun ok => ?_
      split
      · exact leaves_delete hid fun _ => hk _
      · exact leaves_deliverBundle hid hk
    · exact leaves_deliverBundle hid hk

theorem leaves_transferTask {x : String} {t : Transfer} : Leaves bid k0 (transferTask x t) := by
  unfold Proc.transferTask
  have o : ∀ {n m : Node}, m.store = n.store → m.events = n.events → Rest bid k0 n → Rest bid k0 m := fun h g r => r.still h g
  have l : ∀ {n : Node} (e : Event), askedIds [e] = [] → Rest bid k0 n → Rest bid k0 (n.log e) :=
    fun e g r => r.same rfl ⟨[e], rfl, g⟩
  refine leaves_set (fun m _ => l _ rfl) fun ok => leaves_set (fun m _ => l _ rfl) ?_
  split
  · refine leaves_set (fun m _ => o rfl rfl) ?_
    split
    · exact leaves_set (fun m _ => o rfl rfl) trivial
    · exact leaves_set (fun m _ => l _ rfl) <| leaves_act (fun m _ => o rfl rfl) fun m =>
        leaves_set (fun m _ => o rfl rfl) (leaves_set (fun m _ => o rfl rfl) trivial)
  · refine leaves_set (fun m _ => o rfl rfl) (leaves_set (fun m _ => o rfl rfl) ?_)
    split
    · exact leaves_set (fun m _ => o rfl rfl) trivial
    · exact leaves_set (fun m _ => l _ rfl) (leaves_set (fun m _ => o rfl rfl) trivial)

theorem leaves_spawnTransfers {x : String} {mk : Sender → Transfer} {k : Prog} (ss : List Sender) (hk : Leaves bid k0 k) :
    Leaves bid k0 (spawnTransfers x mk ss k) := by
  induction ss with
  | nil => exact hk
  | cons s ss ih => exact ⟨leaves_transferTask, ih⟩

theorem leaves_afterTransfers {bp : Pack} {b : Bundle} {a : Answer} {g : Nat} {k : Bool → Prog} (hid : bp.id ≠ bid)
    (hk : ∀ ok, Leaves bid k0 (k ok)) : Leaves bid k0 (afterTransfers bp b a g k) := by
  refine leaves_read fun m _ _ => ?_
  split
  · refine leaves_reportIf ?_
    split
    · exact leaves_act (fun m i r => r.remove i _ _) fun _ => hk _
    · split
      · exact leaves_adminValid fun _ => leaves_contraindicated hid hk
      · exact hk _
  · exact hk _

theorem leaves_prepare {bp : Pack} {a : Answer} {k : Bool → Prog} (hid : bp.id ≠ bid) (hk : ∀ ok, Leaves bid k0 (k ok)) :
    Leaves bid k0 (prepare bp a k) := by
  refine leaves_read fun m i _ => ?_
  split
  · exact hk _
  rename_i b hb
  have hbid : b.id ≠ bid := by rw [i.bundleId _ _ hb]; exact hid
  have hdel : ∀ (b1 : Bundle) (now : Nat) reason c, b1.primary = b.primary →
      Leaves bid k0 (Proc.delete (Pack.ofBundle now b1) reason c fun _ => k false) := by
    intro b1 now reason c hp
    refine leaves_delete ?_ fun _ => hk _
    rw [Pack.id_ofBundle, show b1.id = b.id from congrArg Primary.bid hp]; exact hbid
  refine leaves_read fun m2 _ _ => ?_
  split
  · exact leaves_read fun m3 _ _ => hdel _ _ _ _ rfl
  dsimp only
  split
  · exact leaves_read fun m3 _ _ => hdel _ _ _ _ (raiseHop_primary b)
  refine leaves_read fun m3 _ _ => ?_
  split
  · trivial
  rename_i b2 hb2
  refine leaves_read fun m4 _ _ => ?_
  split
  · refine leaves_read fun m5 _ _ => hdel _ _ _ _ ?_
    rw [raiseAge_primary, setPrevious_primary hb2, raiseHop_primary]
  · unfold sendAll
    exact leaves_act (fun m i r => r.still rfl rfl) fun m => leaves_spawnTransfers _ (leaves_afterTransfers hid hk)

theorem leaves_forward {bp : Pack} {k : Bool → Prog} (hid : bp.id ≠ bid) (hk : ∀ ok, Leaves bid k0 (k ok)) :
    Leaves bid k0 (forward bp k) := by
  unfold Proc.forward
  dsimp only
  have hid' : ((bp.add .forwardPending).del .dispatchPending).id ≠ bid := hid
  generalize (bp.add .forwardPending).del .dispatchPending = bp' at hid'
  refine leaves_act (fun m i r => r.sync i hid' _) fun m => ?_
  split
  · exact hk _
  · refine ⟨hid', fun a => ?_⟩
    dsimp only
    split
    · exact hk _
    · split
      · split
        · exact leaves_act (fun m i r => r.remove i _ _) fun _ => hk _
        · exact hk _
      · exact leaves_prepare hid' hk

theorem leaves_dispatchRemote {bp : Pack} {k : Bool → Prog} (hid : bp.id ≠ bid) (hk : ∀ ok, Leaves bid k0 (k ok)) :
    Leaves bid k0 (dispatchRemote bp k) := by
  refine leaves_read fun m _ _ => ?_
  split
  · exact ⟨leaves_forward hid fun _ => trivial, hk _⟩
  · exact hk _

theorem leaves_dispatch {bp : Pack} {k : Bool → Prog} (hid : bp.id ≠ bid) (hk : ∀ ok, Leaves bid k0 (k ok)) :
    Leaves bid k0 (dispatch bp k) := by
  refine leaves_read fun m _ _ => ?_
  split
  · trivial
  · refine leaves_set (fun m i r => r.same rfl ⟨[_], rfl, rfl⟩) <| leaves_read fun m _ _ => ?_
    split
    · refine leaves_localDelivery hid fun ok => ?_
      split
      · exact hk _
      · exact leaves_dispatchRemote hid hk
    · exact leaves_dispatchRemote hid hk

theorem leaves_transmit {bp : Pack} {k : Bool → Prog} (hid : bp.id ≠ bid) (hk : ∀ ok, Leaves bid k0 (k ok)) :
    Leaves bid k0 (transmit bp k) := by
  refine leaves_act (fun m i r => r.sync i (by exact hid) _) fun m => ?_
  split
  · exact hk _
  · refine leaves_read fun m _ _ => ?_
    split
    · exact leaves_delete hid hk
    · exact leaves_dispatch hid hk

theorem leaves_scanBlocks {b : Bundle} {bp : Pack} {k : Bool → Prog} (hb : b.id ≠ bid) (hid : bp.id ≠ bid)
    (hk : ∀ ok, Leaves bid k0 (k ok)) (cs : List Block) (index : Nat) (marked : List Nat) :
    Leaves bid k0 (scanBlocks b bp k cs index marked) := by
  induction cs generalizing index marked with
  | nil =>
    unfold scanBlocks finishReceive
    split
    · trivial
    · exact leaves_set (fun m i r => r.push hb) (leaves_dispatch hid fun _ => hk _)
  | cons c cs ih =>
    unfold scanBlocks
    split
    · exact ih _ _
    · have hc : Leaves bid k0 (if c.flags.deleteBundle then Proc.delete bp .blockUnintelligible (.block b c) k
          else scanBlocks b bp k cs (index + 1) (if c.flags.remove then marked ++ [index] else marked)) := by
        split
        · exact leaves_delete hid hk
        · exact ih _ _
      dsimp only
      split
      · refine leaves_read fun m _ _ => ?_
        split
        · exact leaves_sendReport hc
        · exact hc
      · exact hc

theorem leaves_receive {b : Bundle} {k : Bool → Prog} (hb : b.id ≠ bid) (hk : ∀ ok, Leaves bid k0 (k ok)) :
    Leaves bid k0 (receive b k) := by
  refine leaves_act (fun m i r => r.addIfUnknown hb) fun m => ?_
  dsimp only
  split
  · refine leaves_set (fun m i r => r.still rfl rfl) <| leaves_read fun m _ _ => ?_
    refine leaves_act (fun m i r => r.sync i (by exact hb) _) fun m => ?_
    split
    · exact hk _
    · exact leaves_reportIf (leaves_scanBlocks hb (by exact hb) hk _ _ _)
  · exact leaves_set (fun m i r => r.still rfl rfl) (hk _)

theorem leaves_sweep {k : Prog} (hk : Leaves bid k0 k) (ms : List Pack) : Leaves bid k0 (sweep ms k) := by
  induction ms with
  | nil => exact hk
  | cons p ms ih =>
    refine leaves_read fun m _ _ => ?_
    split
    · exact leaves_set (fun m i r => r.remove i _ _) ih
    · exact ih

theorem leaves_collect {k : List Pack → Prog} (hk : ∀ ps : List Pack, (∀ p ∈ ps, p.id ≠ bid) → Leaves bid k0 (k ps)) (bids : List String) :
    ∀ acc : List Pack, (∀ p ∈ acc, p.id ≠ bid) → Leaves bid k0 (collect bids acc k) := by
  induction bids with
  | nil => exact hk
  | cons x bids ih =>
    intro acc hacc
    refine leaves_read fun m i r => ?_
    split
    · rename_i bp hbp
      apply ih
      split
      · exact hacc
      · rename_i hd
        intro p hp
        rcases List.mem_append.mp hp with hp | hp
        · exact hacc p hp
        · rw [List.mem_singleton.mp hp]
          intro he
          obtain ⟨-, q, hq, hqd⟩ := r.removed
          rw [← he, i.metaId _ _ hbp, hbp] at hq
          cases hq
          exact hd hqd
    · exact ih _ hacc

theorem leaves_forwardAll {par : Bool} (ps : List Pack) (h : ∀ p ∈ ps, p.id ≠ bid) : Leaves bid k0 (forwardAll par ps) := by
  induction ps with
  | nil => trivial
  | cons p ps ih =>
    have ih := ih fun q hq => h q (List.mem_cons_of_mem _ hq)
    unfold forwardAll
    split
    · exact ⟨leaves_forward (h p List.mem_cons_self) fun _ => trivial, ih⟩
    · exact leaves_forward (h p List.mem_cons_self) fun _ => ih

theorem leaves_processBundles : Leaves bid k0 processBundles := by
  refine leaves_read fun m _ _ => leaves_sweep (leaves_read fun m _ _ => ?_) _
  split
  · trivial
  · refine leaves_read fun m _ _ => leaves_collect ?_ _ [] (by simp)
    intro ps hps
    refine leaves_read fun m _ _ => leaves_forwardAll _ ?_
    intro p hp
    exact hps p (List.mem_mergeSort.mp hp)

theorem leaves_popBundle {eid : EID} : Leaves bid k0 (popBundle eid) := by
  refine leaves_act (fun m i r => r.popAgent _) fun m => ?_
  split
  · trivial
  · split
    · trivial
    · exact leaves_set (fun m i r => r.removeIfSingleton i _) trivial

theorem leaves_call (c : Call) (h : ¬ Brings bid (.called c)) : Leaves bid k0 c.prog := by
  cases c with
  | receive b => exact leaves_receive h fun _ => trivial
  | send b => exact leaves_set (fun m i r => r.push h) <| leaves_read fun m _ _ => leaves_transmit (by exact h) fun _ => trivial
  | remove x => exact leaves_set (fun m i r => r.remove i _ _) trivial
  | pop e => exact leaves_popBundle
  | janitor => exact leaves_processBundles

theorem Reaches.join {w : World} {s t u : Sys} (h : Reaches w s t) (g : Reaches w t u) : Reaches w s u := by
  induction g with
  | refl => exact h
  | step _ hs ih => exact ih.step hs

/-- A bundle that was removed, with no task running, stays removed until something new with its id comes. -/
theorem removed_stays {cfg : Config} {clock : Nat} {s t : Sys} (before : Reaches .any ⟨Node.start cfg clock, []⟩ s)
    (hl : ∀ p ∈ s.pool, Leaves bid s.node.events.length p) (r : Rest bid s.node.events.length s.node) (run : Reaches .any s t) :
    Back bid s.node.events.length t.node ∨ (Rest bid s.node.events.length t.node ∧ ∀ p ∈ t.pool, Leaves bid s.node.events.length p) := by
  induction run with
  | refl => exact .inr ⟨r, hl⟩
  | @step u v hu hs ih =>
    have b := base_between before hu
    have bv := base_between (before.join hu) (Reaches.step (.refl _) hs)
    rcases ih with h | ⟨hr, hp⟩
    · exact .inl (h.mono bv.past)
    · have i := (good_always (before.join hu)).1.inv
      have hlen : s.node.events.length ≤ u.node.events.length := b.past.length_le
      cases hs with
      | task l r p n n' ps ht =>
        rcases Leaves.step i hlen (hp p (by simp)) hr ht with h | ⟨h1, h2⟩
        · exact .inl h
        · refine .inr ⟨h1, ?_⟩
          intro q hq'
          simp only [List.append_assoc, List.mem_append] at hq'
          rcases hq' with h | h | h
          · exact hp q (by simp [h])
          · exact h2 q h
          · exact hp q (by simp [h])
      | call n pool c _ =>
        by_cases hb : Brings bid (.called c)
        · exact .inl (.log hlen rfl hb)
        · refine .inr ⟨hr.same rfl ⟨[_], rfl, rfl⟩, ?_⟩
          intro q hq
          rcases List.mem_append.mp hq with hq | hq
          · exact hp q hq
          · rw [List.mem_singleton.mp hq]; exact leaves_call c hb
      | change n n' pool h => exact .inr ⟨hr.still (by cases h <;> rfl) (by cases h <;> rfl), hp⟩

end Dtn.Proc
