import Verif.Lemmas.ProcDispatch
import Verif.Lemmas.ProcRemoved
import Verif.Lemmas.Origin
import Verif.Lemmas.ProcWill
/-! Bundles that are submitted but must not be sent. -/

namespace Dtn.Proc
open Routing (Notification Answer)
open Spec

variable {bid : String} {A : Node → Prop}

/-- A report got the id. -/
def Clash (bid : String) (n : Node) : Prop := ∃ r, .report r ∈ n.events ∧ r.report.id = bid

/-- The bundle was not taken up, and nothing will do so. -/
structure Idle (bid : String) (n : Node) : Prop where
  mark : ∀ p, n.store.getMetadata bid = some p → p.has .forwardPending = false
  queues : ∀ a ∈ n.agents, ∀ b ∈ a.queue, b.id ≠ bid
  silent : ∀ e ∈ n.events, ¬ TakenUp bid e

/-- Is it stored? -/
def Here (bid : String) (n : Node) : Prop := n.store.getBundle bid ≠ none

/-- The program will take the bundle out of the store. -/
def Doomed (bid : String) (A : Node → Prop) : Prog → Prop
  | .done _ => False
  | .panic => False
  | .act f k => ∀ m, m.store.Inv → Idle bid m → A m → Here bid m → Clash bid (f m) ∨ ¬ Here bid (f m) ∨ Doomed bid A (k m)
  | .route _ _ => False
  | .choose k => ∀ b, Doomed bid A (k b)
  | .fresh k => ∀ s, Doomed bid A (k s)
  | .spawn _ _ => False
  | .wait _ _ => False

/-- The program takes the bundle up nowhere, and if it stores it, it will take it out again. -/
def Shuns (bid : String) (A : Node → Prop) : Prog → Prop
  | .done _ => True
  | .panic => True
  | .act f k => ∀ m, m.store.Inv → Idle bid m → A m →
      Clash bid (f m) ∨ (Idle bid (f m) ∧ (Here bid (f m) → Here bid m ∨ Doomed bid A (k m)) ∧ Shuns bid A (k m))
  | .route bp k => bp.id ≠ bid ∧ ∀ a, Shuns bid A (k a)
  | .choose k => ∀ b, Shuns bid A (k b)
  | .fresh k => ∀ s, Shuns bid A (k s)
  | .spawn t k => Shuns bid A t ∧ Shuns bid A k
  | .wait _ k => Shuns bid A k

theorem Doomed.weaken {A' : Node → Prop} (ha : ∀ m, A' m → A m) (p : Prog) (h : Doomed bid A p) : Doomed bid A' p := by
  induction p with
  | done | panic | route | spawn | wait => exact h.elim
  | act f k ih =>
    intro m i r a hh
    rcases h m i r (ha m a) hh with h | h | h
    · exact .inl h
    · exact .inr (.inl h)
    · exact .inr (.inr (ih m h))
  | choose k ih => exact fun b => ih b (h b)
  | fresh k ih => exact fun b => ih b (h b)

theorem Shuns.weaken {A' : Node → Prop} (ha : ∀ m, A' m → A m) (p : Prog) (h : Shuns bid A p) : Shuns bid A' p := by
  induction p with
  | done | panic => trivial
  | act f k ih =>
    intro m i r a
    rcases h m i r (ha m a) with h | ⟨h1, h2, h3⟩
    · exact .inl h
    · exact .inr ⟨h1, fun x => (h2 x).imp_right (Doomed.weaken ha _), ih m h3⟩
  | route bp k ih => exact ⟨h.1, fun a => ih a (h.2 a)⟩
  | choose k ih => exact fun b => ih b (h b)
  | fresh k ih => exact fun b => ih b (h b)
  | spawn t k iht ihk => exact ⟨iht h.1, ihk h.2⟩
  | wait c k ih => exact ih h

/-- A step that changes nothing for the bundle. -/
def Past (bid : String) (n m : Node) : Prop := Idle bid m ∧ (Here bid m → Here bid n)

theorem shuns_read {k : Node → Prog} (h : ∀ m, m.store.Inv → Idle bid m → Shuns bid A (k m)) : Shuns bid A (.read k) :=
  fun m i r _ => .inr ⟨r, .inl, h m i r⟩

theorem shuns_act {f : Node → Node} {k : Node → Prog} (hf : ∀ m, m.store.Inv → Idle bid m → Past bid m (f m))
    (h : ∀ m, Shuns bid A (k m)) : Shuns bid A (.act f k) :=
  fun m i r _ => .inr ⟨(hf m i r).1, fun x => .inl ((hf m i r).2 x), h m⟩

theorem shuns_set {f : Node → Node} {k : Prog} (hf : ∀ m, m.store.Inv → Idle bid m → Past bid m (f m))
    (h : Shuns bid A k) : Shuns bid A (.set f k) :=
  shuns_act hf fun _ => h

namespace Idle
variable {n m : Node}

theorem past (r : Idle bid n) (hm : ∀ p, m.store.getMetadata bid = some p → p.has .forwardPending = false)
    (hq : ∀ a ∈ m.agents, ∀ b ∈ a.queue, b.id ≠ bid) (hb : Here bid m → Here bid n)
    (he : ∃ es, m.events = n.events ++ es ∧ ∀ e ∈ es, ¬ TakenUp bid e) : Past bid n m := by
  refine ⟨⟨hm, hq, ?_⟩, hb⟩
  obtain ⟨es, he, hs⟩ := he
  intro e hx
  rw [he, List.mem_append] at hx
  rcases hx with hx | hx
  · exact r.silent e hx
  · exact hs e hx

theorem same (r : Idle bid n) (h : m.store = n.store) (hq : m.agents = n.agents)
    (he : ∃ es, m.events = n.events ++ es ∧ ∀ e ∈ es, ¬ TakenUp bid e) : Past bid n m :=
  r.past (by rw [h]; exact r.mark) (by rw [hq]; exact r.queues) (by unfold Here; rw [h]; exact id) he

theorem still (r : Idle bid n) (h : m.store = n.store) (hq : m.agents = n.agents) (he : m.events = n.events) : Past bid n m :=
  r.same h hq ⟨[], by rw [he, List.append_nil], by simp⟩

theorem log (r : Idle bid n) {e : Event} (h : ¬ TakenUp bid e) : Past bid n (n.log e) :=
  r.same rfl rfl ⟨[e], rfl, by simpa using h⟩

/-- Any bundle may be stored. -/
theorem store (r : Idle bid n) (b : Bundle) : Idle bid (n.push b) := by
  refine ⟨?_, r.queues, r.silent⟩
  intro p hp
  simp only [Node.push] at hp
  rw [MemStore.getMetadata_push] at hp
  split at hp
  · cases hp; simp
  · exact r.mark p hp

theorem push (r : Idle bid n) {b : Bundle} (h : b.id ≠ bid) : Past bid n (n.push b) := by
  refine ⟨r.store b, ?_⟩
  unfold Here
  simp only [Node.push]
  rw [MemStore.getBundle_push, if_neg (fun e => h e.symm)]
  exact id

theorem addIfUnknown (r : Idle bid n) {b : Bundle} (h : b.id ≠ bid) : Past bid n (n.addIfUnknown b) := by
  have hp : Past bid n { n with store := (n.store.addIfUnknown n.clock b).1 } := by
    unfold MemStore.addIfUnknown
    split
    · exact r.push h
    · exact ⟨r, id⟩
  unfold Node.addIfUnknown
  split <;> exact ⟨(hp.1.log (by simp [TakenUp])).1, fun x => hp.2 ((hp.1.log (by simp [TakenUp])).2 x)⟩

theorem removeStore (r : Idle bid n) (i : n.store.Inv) (j : String) : Past bid n { n with store := (n.store.remove j).1 } := by
  refine r.past ?_ r.queues ?_ ⟨[], (List.append_nil _).symm, by simp⟩
  · intro p hp
    simp only at hp
    rw [MemStore.getMetadata_remove i] at hp
    split at hp
    · rename_i hj
      cases hq : n.store.getMetadata j with
      | none => rw [hq] at hp; cases hp
      | some q => rw [hq] at hp; cases hp; simp [MemStore.tomb, Pack.has_add, Pack.has_clear]
    · exact r.mark p hp
  · unfold Here
    simp only
    rw [MemStore.getBundle_remove i]
    split
    · intro h; exact absurd rfl h
    · exact id

theorem remove (r : Idle bid n) (i : n.store.Inv) (j : String) (c : Cause) : Past bid n (n.remove j c) := by
  have h := r.removeStore i j
  unfold Node.remove
  split
  · exact ⟨(h.1.log (by simp [TakenUp])).1, fun x => h.2 ((h.1.log (by simp [TakenUp])).2 x)⟩
  · exact h

theorem sync (r : Idle bid n) (i : n.store.Inv) {bp : Pack} (h : bp.id ≠ bid ∨ bp.has .forwardPending = false) (c : Cause) :
    Past bid n (n.sync bp c) := by
  unfold Node.sync
  split
  · exact r.remove i _ _
  · refine r.past ?_ r.queues ?_ ⟨[], (List.append_nil _).symm, by simp⟩
    · intro p hp
      simp only at hp
      rw [MemStore.getMetadata_update] at hp
      split at hp
      · rename_i hj
        cases hp
        exact h.resolve_left fun hh => hh hj.1.symm
      · exact r.mark p hp
    · unfold Here; simp only; rw [MemStore.getBundle_update]; exact id

theorem deliver (r : Idle bid n) (e) {b : Bundle} (hb : b.id ≠ bid) (room) : Past bid n (n.deliver e b room) := by
  unfold Node.deliver; split
  · exact ⟨r, id⟩
  · refine r.past r.mark ?_ id ⟨[_], rfl, by simpa [TakenUp] using hb⟩
    intro x hx b' hb'
    rcases mem_modify (show x ∈ Registry.modify _ e n.agents from hx) with hx | ⟨a', ha', -, rfl⟩
    · exact r.queues x hx b' hb'
    · have hq := r.queues a' ha'
      unfold AppAgent.push at hb'
      split at hb'
      · split at hb'
        · rcases List.mem_append.mp hb' with hb' | hb'
          · exact hq _ hb'
          · rw [List.mem_singleton.mp hb']; exact hb
        · exact hq _ hb'
      · rcases List.mem_append.mp hb' with hb' | hb'
        · exact hq _ hb'
        · rw [List.mem_singleton.mp hb']; exact hb

theorem popAgent (r : Idle bid n) (e) : Past bid n (n.popAgent e) := by
  unfold Node.popAgent; split
  · exact ⟨r, id⟩
  · rename_i a ha
    split
    · exact ⟨r, id⟩
    · rename_i b hb
      have hin : b ∈ a.queue := by
        unfold AppAgent.pop at hb
        split at hb
        · cases hb
        · rename_i b0 bs hq; cases hb; rw [hq]; simp
      refine r.past r.mark ?_ id ⟨[_], rfl, by simpa [TakenUp] using r.queues a (List.mem_of_find?_eq_some ha) b hin⟩
      intro x hx b' hb'
      rcases mem_modify (show x ∈ Registry.modify _ e n.agents from hx) with hx | ⟨a', ha', -, rfl⟩
      · exact r.queues x hx b' hb'
      · have hq := r.queues a' ha'
        unfold AppAgent.pop at hb'
        split at hb'
        · exact hq _ hb'
        · rename_i b0 bs hqq; exact hq b' (by rw [hqq]; simp [hb'])

theorem removeIfSingleton (r : Idle bid n) (i : n.store.Inv) (b) : Past bid n (n.removeIfSingleton b) := by
  unfold Node.removeIfSingleton; split
  · exact r.remove i _ _
  · exact ⟨r, id⟩

theorem outside (r : Idle bid n) (o : Outside n m) : Past bid n m := by
  have hq : ∀ a ∈ m.agents, ∀ b ∈ a.queue, b.id ≠ bid := by
    cases o with
    | clock | peers | cla => exact r.queues
    | register eid =>
      intro a ha
      unfold Registry.register at ha
      dsimp only at ha
      split at ha
      · exact r.queues a ha
      · rcases List.mem_append.mp ha with ha | ha
        · exact r.queues a ha
        · rw [List.mem_singleton.mp ha]; simp [AppAgent.with]
    | unregister eid => exact fun a ha => r.queues a (List.mem_of_mem_eraseP ha)
    | subscribe eid ch =>
      intro x hx
      rcases mem_modify (show x ∈ Registry.modify _ eid n.agents from hx) with hx | ⟨a', ha', -, rfl⟩
      · exact r.queues x hx
      · exact r.queues a' ha'
    | unsubscribe eid =>
      intro x hx
      rcases mem_modify (show x ∈ Registry.modify _ eid n.agents from hx) with hx | ⟨a', ha', -, rfl⟩
      · exact r.queues x hx
      · exact r.queues a' ha'
  have hs : m.store = n.store ∧ m.events = n.events := by cases o <;> exact ⟨rfl, rfl⟩
  exact r.past (by rw [hs.1]; exact r.mark) hq (by unfold Here; rw [hs.1]; exact id) ⟨[], by rw [hs.2, List.append_nil], by simp⟩

end Idle

theorem shuns_sendReport {bp : Pack} {cause : Bundle} {pos : Pos} {reason : Reason} {k : Prog} (hk : Shuns bid A k) :
    Shuns bid A (sendReport bp cause pos reason k) := by
  unfold Proc.sendReport
  split
  · exact hk
  · refine shuns_read fun m _ _ => ?_
    split
    · exact hk
    · refine shuns_read fun m2 _ _ => ?_
      split
      · exact hk
      · intro s m i r _
        by_cases hs : s = bid
        · left
          exact ⟨_, mem_log _ _, hs⟩
        · right
          refine ⟨((r.push (by exact hs)).1.log (by simp [TakenUp])).1, fun x => .inl ((r.push (by exact hs)).2 x), shuns_set (fun m i r => r.sync i (.inl hs) _) hk⟩

theorem shuns_reportIf {asked : Bool} {bp : Pack} {b : Bundle} {pos : Pos} {reason : Reason} {k : Prog}
    (hk : Shuns bid A k) : Shuns bid A (reportIf asked bp b pos reason k) := by
  unfold Proc.reportIf
  refine shuns_read fun m _ _ => ?_
  split
  · exact shuns_sendReport hk
  · exact hk

theorem shuns_delete {bp : Pack} {reason : Reason} {cause : Cause} {k : Bool → Prog}
    (hk : ∀ ok, Shuns bid A (k ok)) : Shuns bid A (Proc.delete bp reason cause k) := by
  unfold Proc.delete
  refine shuns_read fun m _ _ => ?_
  split
  · exact hk _
  · exact shuns_reportIf <| shuns_act (fun m i r => r.sync i (.inr (by simp [Pack.has_clear])) _) fun m => hk _

theorem shuns_adminValid {b : Bundle} {k : Bool → Prog} (hk : ∀ ok, Shuns bid A (k ok)) : Shuns bid A (adminValid b k) := by
  unfold Proc.adminValid
  split
  · exact hk _
  · split
    · exact hk _
    · split
      · refine shuns_read fun m _ _ => ?_
        split
        · unfold inspectReport
          split
          · split
            · exact hk _
            · refine shuns_read fun m _ _ => ?_
              split
              · exact hk _
              · split
                · exact hk _
                · exact shuns_set (fun m i r => r.remove i _ _) (hk _)
          · exact hk _
        · exact hk _
      · exact hk _

theorem shuns_contraindicated {bp : Pack} {k : Bool → Prog} (hid : bp.id ≠ bid) (hk : ∀ ok, Shuns bid A (k ok)) :
    Shuns bid A (contraindicated bp k) :=
  shuns_act (fun m i r => r.sync i (.inl (by exact hid)) _) fun _ => hk _

theorem shuns_giveToAgent {eid : EID} {b : Bundle} {k : Bool → Prog} (hb : b.id ≠ bid) (hk : ∀ ok, Shuns bid A (k ok)) :
    Shuns bid A (giveToAgent eid b k) := by
  intro room
  refine shuns_act (fun m i r => r.deliver _ hb _) fun m => ?_
  dsimp only
  split
  · exact hk _
  · have count : Shuns bid A (Prog.set (fun n => { n with stats := { n.stats with delivered := n.stats.delivered + 1 } })
        (k true)) := shuns_set (fun m i r => r.still rfl rfl rfl) (hk _)
    split
    · exact shuns_set (fun m i r => r.removeIfSingleton i _) count
    · exact count

theorem shuns_finishDelivery {bp : Pack} {b : Bundle} {k : Bool → Prog} (hid : bp.id ≠ bid) (hb : b.id ≠ bid)
    (hk : ∀ ok, Shuns bid A (k ok)) : Shuns bid A (finishDelivery bp b k) := by
  refine shuns_act (fun m i r => r.sync i (.inl hid) _) fun m => ?_
  split
  · exact hk _
  · exact shuns_giveToAgent hb hk

theorem shuns_deliverBundle {bp : Pack} {b : Bundle} {k : Bool → Prog} (hid : bp.id ≠ bid) (hb : b.id ≠ bid)
    (hk : ∀ ok, Shuns bid A (k ok)) : Shuns bid A (deliverBundle bp b k) := by
  refine shuns_act (fun m i r => r.sync i (.inl (by exact hid)) _) fun m => ?_
  split
  · exact hk _
  · refine shuns_read fun m _ _ => ?_
    split
    · exact shuns_reportIf (shuns_finishDelivery (by rw [Pack.id_clear]; exact hid) hb hk)
    · exact shuns_finishDelivery hid hb hk

theorem shuns_localDelivery {bp : Pack} {k : Bool → Prog} (hid : bp.id ≠ bid) (hk : ∀ ok, Shuns bid A (k ok)) :
    Shuns bid A (localDelivery bp k) := by
  refine shuns_read fun m i _ => ?_
  split
  · exact hk _
  · rename_i b hb
    have hb : b.id ≠ bid := by rw [i.bundleId _ _ hb]; exact hid
    split
    · refine shuns_adminValid fun ok => ?_
      split
      · exact shuns_delete fun _ => hk _
      · exact shuns_deliverBundle hid hb hk
    · exact shuns_deliverBundle hid hb hk

theorem shuns_transferTask {x : String} {t : Transfer} (ht : t.out.id ≠ bid) : Shuns bid A (transferTask x t) := by
  unfold Proc.transferTask
  have o : ∀ {n m : Node}, m.store = n.store → m.agents = n.agents → m.events = n.events → Idle bid n → Past bid n m :=
    fun h g e r => r.still h g e
  have l : ∀ {n : Node} (e : Event), ¬ TakenUp bid e → Idle bid n → Past bid n (n.log e) := fun e g r => r.log g
  refine shuns_set (fun m _ => l _ (by simpa [TakenUp] using ht)) fun ok => shuns_set (fun m _ => l _ (by simp [TakenUp])) ?_
  split
  · refine shuns_set (fun m _ => o rfl rfl rfl) ?_
    split
    · exact shuns_set (fun m _ => o rfl rfl rfl) trivial
    · exact shuns_set (fun m _ => l _ (by simp [TakenUp])) <| shuns_act (fun m _ => o rfl rfl rfl) fun m =>
        shuns_set (fun m _ => o rfl rfl rfl) (shuns_set (fun m _ => o rfl rfl rfl) trivial)
  · refine shuns_set (fun m _ => o rfl rfl rfl) (shuns_set (fun m _ => o rfl rfl rfl) ?_)
    split
    · exact shuns_set (fun m _ => o rfl rfl rfl) trivial
    · exact shuns_set (fun m _ => l _ (by simp [TakenUp])) (shuns_set (fun m _ => o rfl rfl rfl) trivial)

theorem shuns_spawnTransfers {x : String} {mk : Sender → Transfer} {k : Prog} (hm : ∀ s, (mk s).out.id ≠ bid) (ss : List Sender)
    (hk : Shuns bid A k) : Shuns bid A (spawnTransfers x mk ss k) := by
  induction ss with
  | nil => exact hk
  | cons s ss ih => exact ⟨shuns_transferTask (hm s), ih⟩

theorem shuns_afterTransfers {bp : Pack} {b : Bundle} {a : Answer} {g : Nat} {k : Bool → Prog} (hid : bp.id ≠ bid)
    (hk : ∀ ok, Shuns bid A (k ok)) : Shuns bid A (afterTransfers bp b a g k) := by
  refine shuns_read fun m _ _ => ?_
  split
  · refine shuns_reportIf ?_
    split
    · exact shuns_act (fun m i r => r.remove i _ _) fun _ => hk _
    · split
      · exact shuns_adminValid fun _ => shuns_contraindicated hid hk
      · exact hk _
  · exact hk _

theorem shuns_prepare {bp : Pack} {a : Answer} {k : Bool → Prog} (hid : bp.id ≠ bid) (hk : ∀ ok, Shuns bid A (k ok)) :
    Shuns bid A (prepare bp a k) := by
  refine shuns_read fun m i _ => ?_
  split
  · exact hk _
  rename_i b hb
  have hbid : b.id ≠ bid := by rw [i.bundleId _ _ hb]; exact hid
  have hdel : ∀ (b1 : Bundle) (now : Nat) reason c, Shuns bid A (Proc.delete (Pack.ofBundle now b1) reason c fun _ => k false) :=
    fun b1 now reason c => shuns_delete fun _ => hk _
  refine shuns_read fun m2 _ _ => ?_
  split
  · exact shuns_read fun m3 _ _ => hdel _ _ _ _
  dsimp only
  split
  · exact shuns_read fun m3 _ _ => hdel _ _ _ _
  refine shuns_read fun m3 _ _ => ?_
  split
  · trivial
  rename_i b2 hb2
  refine shuns_read fun m4 _ _ => ?_
  split
  · exact shuns_read fun m5 _ _ => hdel _ _ _ _
  · unfold sendAll
    refine shuns_act (fun m i r => r.still rfl rfl rfl) fun m => shuns_spawnTransfers ?_ _ (shuns_afterTransfers hid hk)
    intro s
    have : (raiseAge m4.clock ((m4.store.getMetadata b.id).map Pack.receivedTime) b2).1.primary = b.primary := by
      rw [raiseAge_primary, setPrevious_primary hb2, raiseHop_primary]
    rw [show (raiseAge m4.clock ((m4.store.getMetadata b.id).map Pack.receivedTime) b2).1.id = b.id from congrArg Primary.bid this]
    exact hbid

theorem shuns_forward {bp : Pack} {k : Bool → Prog} (hid : bp.id ≠ bid) (hk : ∀ ok, Shuns bid A (k ok)) :
    Shuns bid A (forward bp k) := by
  unfold Proc.forward
  dsimp only
  have hid' : ((bp.add .forwardPending).del .dispatchPending).id ≠ bid := hid
  generalize (bp.add .forwardPending).del .dispatchPending = bp' at hid'
  refine shuns_act (fun m i r => r.sync i (.inl hid') _) fun m => ?_
  split
  · exact hk _
  · refine ⟨hid', fun a => ?_⟩
    dsimp only
    split
    · exact hk _
    · split
      · split
        · exact shuns_act (fun m i r => r.remove i _ _) fun _ => hk _
        · exact hk _
      · exact shuns_prepare hid' hk

theorem shuns_dispatchRemote {bp : Pack} {k : Bool → Prog} (hid : bp.id ≠ bid) (hk : ∀ ok, Shuns bid A (k ok)) :
    Shuns bid A (dispatchRemote bp k) := by
  refine shuns_read fun m _ _ => ?_
  split
  · exact ⟨shuns_forward hid fun _ => trivial, hk _⟩
  · exact hk _

theorem shuns_dispatch {bp : Pack} {k : Bool → Prog} (hid : bp.id ≠ bid) (hk : ∀ ok, Shuns bid A (k ok)) :
    Shuns bid A (dispatch bp k) := by
  refine shuns_read fun m i _ => ?_
  split
  · trivial
  · rename_i b hb
    have hb : b.id ≠ bid := by rw [i.bundleId _ _ hb]; exact hid
    refine shuns_set (fun m i r => r.log (by simpa [TakenUp] using hb)) <| shuns_read fun m _ _ => ?_
    split
    · refine shuns_localDelivery hid fun ok => ?_
      split
      · exact hk _
      · exact shuns_dispatchRemote hid hk
    · exact shuns_dispatchRemote hid hk

theorem shuns_transmit {bp : Pack} {k : Bool → Prog} (hid : bp.id ≠ bid) (hk : ∀ ok, Shuns bid A (k ok)) :
    Shuns bid A (transmit bp k) := by
  refine shuns_act (fun m i r => r.sync i (.inl (by exact hid)) _) fun m => ?_
  split
  · exact hk _
  · refine shuns_read fun m _ _ => ?_
    split
    · exact shuns_delete hk
    · exact shuns_dispatch hid hk

theorem shuns_scanBlocks {b : Bundle} {bp : Pack} {k : Bool → Prog} (hb : b.id ≠ bid) (hid : bp.id ≠ bid)
    (hk : ∀ ok, Shuns bid A (k ok)) (cs : List Block) (index : Nat) (marked : List Nat) :
    Shuns bid A (scanBlocks b bp k cs index marked) := by
  induction cs generalizing index marked with
  | nil =>
    unfold scanBlocks finishReceive
    split
    · trivial
    · exact shuns_set (fun m i r => r.push hb) (shuns_dispatch hid fun _ => hk _)
  | cons c cs ih =>
    unfold scanBlocks
    split
    · exact ih _ _
    · have hc : Shuns bid A (if c.flags.deleteBundle then Proc.delete bp .blockUnintelligible (.block b c) k
          else scanBlocks b bp k cs (index + 1) (if c.flags.remove then marked ++ [index] else marked)) := by
        split
        · exact shuns_delete hk
        · exact ih _ _
      dsimp only
      split
      · refine shuns_read fun m _ _ => ?_
        split
        · exact shuns_sendReport hc
        · exact hc
      · exact hc

theorem shuns_receive {b : Bundle} {k : Bool → Prog} (hb : b.id ≠ bid) (hk : ∀ ok, Shuns bid A (k ok)) :
    Shuns bid A (receive b k) := by
  refine shuns_act (fun m i r => r.addIfUnknown hb) fun m => ?_
  dsimp only
  split
  · refine shuns_set (fun m i r => r.still rfl rfl rfl) <| shuns_read fun m _ _ => ?_
    refine shuns_act (fun m i r => r.sync i (.inl (by exact hb)) _) fun m => ?_
    split
    · exact hk _
    · exact shuns_reportIf (shuns_scanBlocks hb (by exact hb) hk _ _ _)
  · exact shuns_set (fun m i r => r.still rfl rfl rfl) (hk _)

theorem shuns_sweep {k : Prog} (hk : Shuns bid A k) (ms : List Pack) : Shuns bid A (sweep ms k) := by
  induction ms with
  | nil => exact hk
  | cons p ms ih =>
    refine shuns_read fun m _ _ => ?_
    split
    · exact shuns_set (fun m i r => r.remove i _ _) ih
    · exact ih

theorem shuns_collect {k : List Pack → Prog} (hk : ∀ ps : List Pack, (∀ p ∈ ps, p.id ≠ bid) → Shuns bid A (k ps)) (bids : List String)
    (hb : bid ∉ bids) : ∀ acc : List Pack, (∀ p ∈ acc, p.id ≠ bid) → Shuns bid A (collect bids acc k) := by
  induction bids with
  | nil => exact hk
  | cons x bids ih =>
    have ih := ih fun h => hb (List.mem_cons_of_mem _ h)
    intro acc hacc
    refine shuns_read fun m i r => ?_
    split
    · rename_i bp hbp
      apply ih
      split
      · exact hacc
      · intro p hp
        rcases List.mem_append.mp hp with hp | hp
        · exact hacc p hp
        · rw [List.mem_singleton.mp hp, i.metaId _ _ hbp]
          rintro rfl
          exact hb (List.mem_cons_self ..)
    · exact ih _ hacc

theorem shuns_forwardAll {par : Bool} (ps : List Pack) (h : ∀ p ∈ ps, p.id ≠ bid) : Shuns bid A (forwardAll par ps) := by
  induction ps with
  | nil => trivial
  | cons p ps ih =>
    have ih := ih fun q hq => h q (List.mem_cons_of_mem _ hq)
    unfold forwardAll
    split
    · exact ⟨shuns_forward (h p List.mem_cons_self) fun _ => trivial, ih⟩
    · exact shuns_forward (h p List.mem_cons_self) fun _ => ih

theorem shuns_processBundles : Shuns bid A processBundles := by
  refine shuns_read fun m _ _ => shuns_sweep (shuns_read fun m _ _ => ?_) _
  split
  · trivial
  · refine shuns_read fun m i r => shuns_collect ?_ _ ?_ [] (by simp)
    · intro ps hps
      refine shuns_read fun m _ _ => shuns_forwardAll _ ?_
      intro p hp
      exact hps p (List.mem_mergeSort.mp hp)
    · intro hb
      obtain ⟨p, h1, h2⟩ := (mem_forwarding_iff i _).mp hb
      rw [r.mark p h1] at h2; cases h2

theorem shuns_popBundle {eid : EID} : Shuns bid A (popBundle eid) := by
  refine shuns_act (fun m i r => r.popAgent _) fun m => ?_
  split
  · trivial
  · split
    · trivial
    · exact shuns_set (fun m i r => r.removeIfSingleton i _) trivial

theorem shuns_call (c : Call) (h : ¬ Brings bid (.called c)) : Shuns bid A c.prog := by
  cases c with
  | receive b => exact shuns_receive h fun _ => trivial
  | send b => exact shuns_set (fun m i r => r.push h) <| shuns_read fun m _ _ => shuns_transmit (by exact h) fun _ => trivial
  | remove x => exact shuns_set (fun m i r => r.remove i _ _) trivial
  | pop e => exact shuns_popBundle
  | janitor => exact shuns_processBundles

/-! ### The submission -/

theorem doomed_read {k : Node → Prog} (h : ∀ m, m.store.Inv → Idle bid m → A m → Here bid m → Doomed bid A (k m)) : Doomed bid A (.read k) :=
  fun m i r a hh => .inr (.inr (h m i r a hh))

theorem doomed_set {f : Node → Node} {k : Prog} (h : Doomed bid A k) : Doomed bid A (.set f k) := fun _ _ _ _ _ => .inr (.inr h)

theorem doomed_sendReport {bp : Pack} {cause : Bundle} {pos : Pos} {reason : Reason} {k : Prog} (hk : Doomed bid A k) :
    Doomed bid A (sendReport bp cause pos reason k) := by
  unfold Proc.sendReport
  split
  · exact hk
  · refine doomed_read fun m _ _ _ _ => ?_
    split
    · exact hk
    · refine doomed_read fun m2 _ _ _ _ => ?_
      split
      · exact hk
      · exact fun s m i r _ _ => .inr (.inr (doomed_set hk))

theorem doomed_delete {bp : Pack} {reason : Reason} {cause : Cause} {k : Bool → Prog} (hid : bp.id = bid)
    (hl : bp.has .localEndpoint = false) : Doomed bid A (Proc.delete bp reason cause k) := by
  unfold Proc.delete
  refine doomed_read fun m i r a hh => ?_
  split
  · rename_i hb; rw [hid] at hb; exact absurd hb hh
  · have last : Doomed bid A (.act (fun n => n.sync bp.clear cause) fun n => k (n.store.sync bp.clear).2) := by
      intro m i r a hh
      right; left
      have hc : bp.clear.hasAny = false := by
        rw [← Bool.not_eq_true, Pack.hasAny_iff]
        simp [Pack.has_clear, hl]
      unfold Here Node.sync
      rw [hc, Pack.id_clear, hid]
      have : ((m.store.remove bid).1).getBundle bid = none := by rw [MemStore.getBundle_remove i]; simp
      unfold Node.remove
      simp only [Bool.not_false, if_true]
      split <;> simpa [Node.log] using this
    unfold Proc.reportIf
    refine doomed_read fun m _ _ _ _ => ?_
    split
    · exact doomed_sendReport last
    · exact last

theorem send_refused {b : Bundle} (named : b.primary.source ≠ .none) {m : Node} (h : b.primary.source ∉ m.agents.eids) (now : Nat) :
    ((Pack.ofBundle now b).add .dispatchPending).source ≠ .none ∧
      m.agents.find ((Pack.ofBundle now b).add .dispatchPending).source = none := by
  refine ⟨named, ?_⟩
  have hs : ((Pack.ofBundle now b).add .dispatchPending).source = b.primary.source := rfl
  rw [hs]
  cases hf : m.agents.find b.primary.source with
  | none => rfl
  | some a => exact absurd ((Registry.find_isSome _ _).mp (by rw [hf]; rfl)) h

theorem doomed_transmit {b : Bundle} (named : b.primary.source ≠ .none) (now : Nat) (k : Bool → Prog) :
    Doomed b.id (fun m => b.primary.source ∉ m.agents.eids) (transmit (Pack.ofBundle now b) k) := by
  intro m i r a hh
  right; right
  have h : (m.store.sync ((Pack.ofBundle now b).add .dispatchPending)).2 = true :=
    sync_ok ((Pack.hasAny_iff _).mpr ⟨.dispatchPending, by simp [Pack.has_add]⟩) (known_of_stored i hh)
  dsimp only
  rw [h]
  refine doomed_read fun m i r a _ => ?_
  rw [if_pos (send_refused named a now)]
  exact doomed_delete rfl (by simp [Pack.has_add])

theorem shuns_transmit_foreign {b : Bundle} (named : b.primary.source ≠ .none) (now : Nat) (k : Bool → Prog)
    (hk : ∀ ok, Shuns b.id (fun m => b.primary.source ∉ m.agents.eids) (k ok)) :
    Shuns b.id (fun m => b.primary.source ∉ m.agents.eids) (transmit (Pack.ofBundle now b) k) := by
  refine shuns_act (fun m i r => r.sync i (.inr (by simp [Pack.has_add])) _) fun m => ?_
  split
  · exact hk _
  · intro m i r a
    refine .inr ⟨r, .inl, ?_⟩
    dsimp only
    rw [if_pos (send_refused named a now)]
    exact shuns_delete hk

theorem shuns_send {b : Bundle} (named : b.primary.source ≠ .none) :
    Shuns b.id (fun m => b.primary.source ∉ m.agents.eids) (Call.send b).prog := by
  intro m i r a
  refine .inr ⟨r.store b, fun _ => .inr ?_, ?_⟩
  · exact doomed_read fun m i r a _ => doomed_transmit named _ _
  · exact shuns_read fun m i r => shuns_transmit_foreign named _ _ fun _ => trivial

/-! ### All interleavings -/

theorem Doomed.step {n m : Node} {p : Prog} {ps : List Prog} (i : n.store.Inv) (r : Idle bid n) (a : A n) (hh : Here bid n)
    (h : Doomed bid A p) (s : TaskStep n p m ps) : Clash bid m ∨ ¬ Here bid m ∨ ∃ q ∈ ps, Doomed bid A q := by
  cases s with
  | done | panic | route | spawn | wait => exact h.elim
  | act => rcases h n i r a hh with h | h | h
           · exact .inl h
           · exact .inr (.inl h)
           · exact .inr (.inr ⟨_, by simp, h⟩)
  | choose k b => exact .inr (.inr ⟨_, by simp, h b⟩)
  | fresh k s => exact .inr (.inr ⟨_, by simp, h s⟩)

theorem Shuns.step {n m : Node} {p : Prog} {ps : List Prog} (i : n.store.Inv) (r : Idle bid n) (a : A n)
    (h : Shuns bid A p) (s : TaskStep n p m ps) :
    Clash bid m ∨ (Idle bid m ∧ (Here bid m → Here bid n ∨ ∃ q ∈ ps, Doomed bid A q) ∧ ∀ q ∈ ps, Shuns bid A q) := by
  cases s with
  | done | panic => exact .inr ⟨r, .inl, by simp⟩
  | act => rcases h n i r a with h | ⟨h1, h2, h3⟩
           · exact .inl h
           · exact .inr ⟨h1, fun x => (h2 x).imp_right fun d => ⟨_, by simp, d⟩, by simpa using h3⟩
  | route bp k x =>
    exact .inr ⟨(r.log (by simpa [TakenUp] using h.1)).1, .inl, by simpa using h.2 x⟩
  | choose k b => exact .inr ⟨r, .inl, by simpa using h b⟩
  | fresh k s => exact .inr ⟨r, .inl, by simpa using h s⟩
  | spawn t k => exact .inr ⟨r, .inl, by simpa using ⟨h.2, h.1⟩⟩
  | wait c k => exact .inr ⟨r, .inl, fun q hq => by rw [List.mem_singleton.mp hq]; exact h⟩

/-- The invariant. -/
def Shunned (bid : String) (A : Node → Prop) (s : Sys) : Prop :=
  Idle bid s.node ∧ (∀ p ∈ s.pool, Shuns bid A p) ∧ (Here bid s.node → ∃ p ∈ s.pool, Doomed bid A p)

/-- As long as no call is made that may take the bundle up. -/
theorem shunned_while {B : Event → Prop} (hB : ∀ c : Call, ¬ B (.called c) → Shuns bid A c.prog) {cfg : Config} {clock : Nat} {s t : Sys} (before : Reaches .any ⟨Node.start cfg clock, []⟩ s)
    (hs : Shunned bid A s) (run : Throughout .any A s t) :
    Clash bid t.node ∨ (∃ e ∈ newEvents s.node t.node, B e) ∨ Shunned bid A t := by
  induction run with
  | refl => exact .inr (.inr hs)
  | @step u v hu hst _ ih =>
    have b := base_between before hu.reaches
    have bv := base_between (before.join hu.reaches) (Reaches.step (.refl _) hst)
    rcases ih with ⟨r, h, h'⟩ | h | ⟨hr, hp, hd⟩
    · obtain ⟨es, g⟩ := bv.past
      exact .inl ⟨r, by rw [← g]; exact List.mem_append_left _ h, h'⟩
    · obtain ⟨e, he, hb⟩ := h
      obtain ⟨es, g⟩ := bv.past
      refine .inr (.inl ⟨e, ?_, hb⟩)
      unfold newEvents at he ⊢
      rw [← g, List.drop_append]
      exact List.mem_append_left _ he
    · have i := (good_always (before.join hu.reaches)).1.inv
      have a := hu.last
      cases hst with
      | task l r p n n' ps ht =>
        rcases Shuns.step i hr a (hp p (by simp)) ht with h | ⟨h1, h2, h3⟩
        · exact .inl h
        · have hold : Here bid n → Clash bid n' ∨ ¬ Here bid n' ∨ ∃ q ∈ l ++ ps ++ r, Doomed bid A q := by
            intro hh
            obtain ⟨q, hq, hqd⟩ := hd hh
            simp only [List.mem_append, List.mem_cons] at hq
            rcases hq with hq | hq | hq
            · exact .inr (.inr ⟨q, by simp [hq], hqd⟩)
            · subst hq
              rcases Doomed.step i hr a hh hqd ht with h | h | ⟨q, hq, h⟩
              · exact .inl h
              · exact .inr (.inl h)
              · exact .inr (.inr ⟨q, by simp [hq], h⟩)
            · exact .inr (.inr ⟨q, by simp [hq], hqd⟩)
          by_cases hc : Clash bid n'
          · exact .inl hc
          · refine .inr (.inr ⟨h1, ?_, ?_⟩)
            · intro q hq'
              simp only [List.append_assoc, List.mem_append] at hq'
              rcases hq' with h | h | h
              · exact hp q (by simp [h])
              · exact h3 q h
              · exact hp q (by simp [h])
            · intro hh
              rcases h2 hh with h | ⟨q, hq, h⟩
              · rcases hold h with h | h | h
                · exact absurd h hc
                · exact absurd hh h
                · exact h
              · exact ⟨q, by simp [hq], h⟩
      | call n pool c _ =>
        by_cases hb : B (.called c)
        · refine .inr (.inl ⟨_, ?_, hb⟩)
          unfold newEvents
          simp only [Node.log]
          rw [List.drop_append_of_le_length b.past.length_le]
          exact List.mem_append_right _ (List.mem_singleton.mpr rfl)
        · refine .inr (.inr ⟨(hr.log (by simp [TakenUp])).1, ?_, ?_⟩)
          · intro q hq
            rcases List.mem_append.mp hq with hq | hq
            · exact hp q hq
            · rw [List.mem_singleton.mp hq]; exact hB c hb
          · intro hh
            obtain ⟨q, hq, h⟩ := hd hh
            exact ⟨q, List.mem_append_left _ hq, h⟩
      | change n n' pool h =>
        have := hr.outside h
        exact .inr (.inr ⟨this.1, hp, fun hh => hd (this.2 hh)⟩)

theorem shunned_always {cfg : Config} {clock : Nat} {s t : Sys} (before : Reaches .any ⟨Node.start cfg clock, []⟩ s)
    (hs : Shunned bid A s) (run : Throughout .any A s t) :
    Clash bid t.node ∨ (∃ e ∈ newEvents s.node t.node, Brings bid e) ∨ Shunned bid A t :=
  shunned_while (fun c h => shuns_call c h) before hs run

theorem reaches_throughout {w : World} {s t : Sys} (h : Reaches w s t) : Throughout w (fun _ => True) s t := by
  induction h with
  | refl => exact .refl trivial
  | step _ hs ih => exact .step ih hs trivial

theorem start_shunned (cfg : Config) (clock : Nat) : Shunned bid A ⟨Node.start cfg clock, []⟩ := by
  refine ⟨⟨?_, ?_, ?_⟩, by simp, ?_⟩
  · intro p hp; cases hp
  · intro a ha; simp [Node.start] at ha
  · intro e he; simp [Node.start] at he
  · intro h; exact absurd rfl h

theorem foreign_always {cfg : Config} {clock : Nat} {n : Node} {tasks : List Prog} {b : Bundle} {s : Sys}
    (before : Reaches .any ⟨Node.start cfg clock, []⟩ ⟨n, tasks⟩) (fresh : ∀ e ∈ n.events, ¬ Brings b.id e)
    (named : b.primary.source ≠ .none)
    (run : Throughout .any (fun m => b.primary.source ∉ m.agents.eids) ⟨n.log (.called (.send b)), tasks ++ [(Call.send b).prog]⟩ s)
    (alone : ∀ e ∈ newEvents (n.log (.called (.send b))) s.node, ¬ Brings b.id e) :
    Shunned b.id (fun m => b.primary.source ∉ m.agents.eids) s := by
  have call : Step .any ⟨n, tasks⟩ ⟨n.log (.called (.send b)), tasks ++ [(Call.send b).prog]⟩ := .call _ _ _ trivial
  rcases shunned_always (bid := b.id) (.refl _) (start_shunned cfg clock) (reaches_throughout before) with h | h | h
  · obtain ⟨r, h1, h2⟩ := h
    exact absurd h2 (fresh _ h1)
  · obtain ⟨e, h1, h2⟩ := h
    exact absurd h2 (fresh e (List.mem_of_mem_drop h1))
  · have h0 : Shunned b.id (fun m => b.primary.source ∉ m.agents.eids) ⟨n.log (.called (.send b)), tasks ++ [(Call.send b).prog]⟩ := by
      refine ⟨(h.1.log (by simp [TakenUp])).1, ?_, ?_⟩
      · intro q hq
        rcases List.mem_append.mp hq with hq | hq
        · exact Shuns.weaken (fun _ _ => trivial) q (h.2.1 q hq)
        · rw [List.mem_singleton.mp hq]; exact shuns_send named
      · intro hh
        obtain ⟨q, hq, hqd⟩ := h.2.2 hh
        exact ⟨q, List.mem_append_left _ hq, Doomed.weaken (fun _ _ => trivial) q hqd⟩
    have hb := before.step call
    have past := (base_between hb run.reaches).past
    rcases shunned_always hb h0 run with h | h | h
    · obtain ⟨r, h1, h2⟩ := h
      obtain ⟨es, g⟩ := past
      rw [← g, List.mem_append] at h1
      rcases h1 with h1 | h1
      · rcases List.mem_append.mp h1 with h1 | h1
        · exact absurd h2 (fresh _ h1)
        · cases List.mem_singleton.mp h1
      · refine absurd h2 (alone (.report r) ?_)
        rw [newEvents_eq g.symm]; exact h1
    · obtain ⟨e, h1, h2⟩ := h
      exact absurd h2 (alone e h1)
    · exact h

end Dtn.Proc
