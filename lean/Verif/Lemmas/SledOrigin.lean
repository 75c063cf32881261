import Verif.Lemmas.Origin
import Verif.Lemmas.SledGood
/-! Where the bundles of a node with the persistent store come from. -/

namespace Dtn.OnSled
open Proc (Onward Honest known_mono meant_mono keptOf_refl Named named_add named_ofBundle ho_read ho_act ho_set ho_done ho_panic ho_route ho_choose
  ho_fresh ho_spawn ho_wait ho_stats ho_transferTask ho_spawnTransfers removeBlocks_sublist removeBlocks_simple marks Prog Node Event Call)
open Proc
open Routing (Notification Answer)
open Spec

variable {A : Bundle → Prop} {n : Node}

attribute [local irreducible] Honest

theorem ho_remove {bid : String} {c : Cause} {k : Bool → Prog} (hk : Honest A (k true) n) : Honest A (remove bid c k) n := by
  unfold remove
  refine ho_act (fun m _ i => by rw [remove_eq i.inv]; exact i.remove _ _) fun m _ _ g => ?_
  rcases remove_cases m bid k with ⟨e, -⟩ | ⟨e, -⟩
  · rw [e]; exact ho_panic
  · rw [e]; exact hk.mono g

theorem ho_sync {bp : Pack} {c : Cause} {k : Bool → Prog} (hk : ∀ ok, Honest A (k ok) n) : Honest A (sync bp k c) n := by
  unfold sync
  split
  · exact ho_remove (hk _)
  · refine ho_act (fun m _ i => ?_) fun m _ _ g => ?_
    · rw [update_eq]
      exact i.same rfl (i.inv.update _) rfl (by simp [MemStore.getBundle_update]) rfl
    · obtain ⟨o, e, -⟩ := update_cases m bp k
      rw [e]; exact (hk o).mono g

theorem ho_getBundle {bid : String} {k : Option Bundle → Prog}
    (hk : ∀ m b, Onward n m → Proc.Sound A m → m.store.getBundle bid = some b → Honest A (k (some b)) m) : Honest A (getBundle bid k) n := by
  unfold getBundle
  refine ho_read fun m g i => ?_
  unfold SledStore.getBundle db
  dsimp only
  cases h : AList.get? m.store.bundles bid with
  | none => exact ho_panic
  | some b => exact hk m b g i h

theorem ho_push {b : Bundle} {k : Bool → Prog} (hb : ∀ m, Onward n m → Known m b) (hk : ∀ ok, Honest A (k ok) n) : Honest A (push b k) n := by
  unfold push
  refine ho_act (fun m g i => ?_) fun m _ _ g => ?_
  · rw [push_eq]
    split
    · exact ⟨.refl _, i⟩
    · exact i.push b (hb m g)
  · rw [push_cases]; exact (hk _).mono g

theorem ho_removeIfSingleton {b : Bundle} {k : Prog} (hk : Honest A k n) : Honest A (removeIfSingleton b k) n := by
  unfold removeIfSingleton
  split
  · exact ho_remove hk
  · exact ho_read fun m g _ => hk.mono g

theorem ho_sendReport {bp : Pack} {cause : Bundle} {pos : Pos} {reason : Reason} {k : Prog} (hk : Honest A k n) :
    Honest A (sendReport bp cause pos reason k) n := by
  unfold sendReport
  split
  · exact hk
  · refine ho_getBundle fun m subject g _ _ => ho_read fun m2 g2 _ => ?_
    split
    · exact hk.mono (g.trans g2)
    · refine ho_fresh fun bid => ho_act ?_ ?_
      · intro m3 _ i3
        by_cases hg : Gone (mkReport m3 subject bid pos).id m3
        · rw [push_gone hg]; exact ⟨.refl _, i3⟩
        · obtain ⟨ws, h1, h2⟩ := push_fine hg
          rw [h1]
          dsimp only
          rw [h2]
          refine i3.step (some _) (by simp only [Node.log, Node.push]; rfl) (i3.inv.push _ _) rfl ?_
            (fun a ha b hb => .inl ⟨a, ha, rfl, hb⟩) (by rintro _ ⟨⟩; trivial)
          intro j b hb
          simp only [Node.log, Node.push, MemStore.getBundle_push] at hb
          split at hb
          · rename_i hid
            cases hb
            exact .inr ⟨hid.symm, .inr (.inr ⟨_, by simp only [Node.log]; exact List.mem_append_right _ (List.mem_singleton.mpr rfl), rfl⟩)⟩
          · exact .inl hb
      · intro m3 _ _ g3
        have hk3 := hk.mono ((g.trans g2).trans g3)
        rw [push_cases]
        split
        · exact ho_sync fun _ => hk3
        · exact hk3

theorem ho_reportIf {asked : Bool} {bp : Pack} {b : Bundle} {pos : Pos} {reason : Reason} {k : Prog} (hk : Honest A k n) :
    Honest A (reportIf asked bp b pos reason k) n := by
  unfold reportIf
  refine ho_read fun m g _ => ?_
  split
  · exact ho_sendReport (hk.mono g)
  · exact hk.mono g

theorem ho_delete {bp : Pack} {reason : Reason} {cause : Cause} {k : Bool → Prog} (hk : ∀ ok, Honest A (k ok) n) :
    Honest A (delete bp reason cause k) n := by
  unfold delete
  exact ho_getBundle fun m b g _ _ => ho_reportIf (ho_sync fun ok => (hk ok).mono g)

theorem ho_inspectReport {b : Bundle} {r : AdminRecord} {k : Prog} (hk : Honest A k n) : Honest A (inspectReport b r k) n := by
  unfold inspectReport
  split
  · split
    · exact hk
    · refine ho_read fun m g _ => ?_
      split
      · exact hk.mono g
      · split
        · exact hk.mono g
        · exact ho_remove (hk.mono g)
  · exact hk

theorem ho_adminValid {b : Bundle} {k : Bool → Prog} (hk : ∀ ok, Honest A (k ok) n) : Honest A (adminValid b k) n := by
  unfold adminValid
  split
  · exact hk _
  · split
    · exact hk _
    · split
      · refine ho_read fun m g _ => ?_
        split
        · exact ho_inspectReport ((hk _).mono g)
        · exact (hk _).mono g
      · exact hk _

theorem ho_contraindicated {bp : Pack} {k : Bool → Prog} (hk : ∀ ok, Honest A (k ok) n) : Honest A (contraindicated bp k) n :=
  ho_sync hk

theorem ho_giveToAgent {e : EID} {b : Bundle} {k : Bool → Prog} (hb : MeantFor n e b) (hk : ∀ ok, Honest A (k ok) n) :
    Honest A (giveToAgent e b k) n := by
  unfold giveToAgent
  refine ho_choose fun room => ho_act (fun m g i => i.deliver e b room (meant_mono hb g)) fun m g _ g' => ?_
  split
  · exact (hk _).mono g'
  · dsimp only
    split
    · exact ho_removeIfSingleton
        (ho_stats (fun _ => rfl) (fun _ => rfl) (fun _ => rfl) (fun _ => rfl) ((hk _).mono g'))
    · exact ho_stats (fun _ => rfl) (fun _ => rfl) (fun _ => rfl) (fun _ => rfl) ((hk _).mono g')

theorem ho_finishDelivery {bp : Pack} {b : Bundle} {k : Bool → Prog} (hb : MeantFor n bp.destination b)
    (hk : ∀ ok, Honest A (k ok) n) : Honest A (finishDelivery bp b k) n := by
  unfold finishDelivery
  refine ho_sync fun ok => ?_
  split
  · exact hk _
  · exact ho_giveToAgent hb hk

theorem ho_deliverBundle {bp : Pack} {b : Bundle} {k : Bool → Prog} (hb : MeantFor n bp.destination b)
    (hk : ∀ ok, Honest A (k ok) n) : Honest A (deliverBundle bp b k) n := by
  unfold deliverBundle
  refine ho_sync fun ok => ?_
  split
  · exact hk _
  · refine ho_read fun m2 g2 _ => ?_
    split
    · refine ho_reportIf (ho_finishDelivery ?_ fun ok => (hk ok).mono g2)
      have : (bp.add .localEndpoint).clear.destination = bp.destination := by unfold Pack.clear; dsimp only; split <;> rfl
      rw [this]; exact meant_mono hb g2
    · exact ho_finishDelivery (meant_mono hb g2) fun ok => (hk ok).mono g2

theorem ho_localDelivery {bp : Pack} {k : Bool → Prog} (hp : Named n bp) (hk : ∀ ok, Honest A (k ok) n) :
    Honest A (localDelivery bp k) n := by
  unfold localDelivery
  refine ho_getBundle fun m b g i hb => ?_
  have hm := (hp.mono g).meant i hb
  dsimp only
  split
  · refine ho_adminValid fun ok => ?_
    split
    · exact ho_delete fun _ => (hk _).mono g
    · exact ho_deliverBundle hm fun ok => (hk ok).mono g
  · exact ho_deliverBundle hm fun ok => (hk ok).mono g

theorem ho_afterTransfers {bp : Pack} {b : Bundle} {a : Answer} {g : Nat} {k : Bool → Prog} (hk : ∀ ok, Honest A (k ok) n) :
    Honest A (afterTransfers bp b a g k) n := by
  unfold afterTransfers
  refine ho_read fun m g _ => ?_
  split
  · refine ho_reportIf ?_
    split
    · exact ho_remove ((hk _).mono g)
    · split
      · exact ho_adminValid fun _ => ho_contraindicated fun ok => (hk ok).mono g
      · exact (hk _).mono g
  · exact (hk _).mono g

theorem ho_sendAll {bp : Pack} {b out : Bundle} {a : Answer} {c d : Nat} {r : Option Nat} {k : Bool → Prog} (hb : Known n b)
    (hc : ∀ g s, Copied n.cfg.hostEid ⟨g, b, out, s, c, d, r⟩) (hk : ∀ ok, Honest A (k ok) n) : Honest A (sendAll bp b out a c d r k) n := by
  unfold sendAll
  refine ho_act (fun m _ i => i.same rfl i.inv rfl (fun _ _ h => h) rfl) fun m _ _ g => ?_
  exact ho_spawnTransfers _ (fun _ => ⟨known_mono hb g, g.2 ▸ hc _ _⟩) (ho_wait (ho_afterTransfers fun ok => (hk ok).mono g))

theorem ho_prepare {bp : Pack} {a : Answer} {k : Bool → Prog} (hk : ∀ ok, Honest A (k ok) n) : Honest A (prepare bp a k) n := by
  unfold prepare
  refine ho_getBundle fun m b g i hb => ?_
  have hb := (i.stored _ _ hb).2
  dsimp only
  refine ho_read fun m2 g1 _ => ?_
  have g2 := g.trans g1
  split
  · exact ho_read fun m3 g3 _ => ho_delete fun _ => (hk _).mono (g2.trans g3)
  · rename_i hl
    split
    · exact ho_read fun m3 g3 _ => ho_delete fun _ => (hk _).mono (g2.trans g3)
    · rename_i hh
      refine ho_read fun m3 g3 _ => ?_
      split
      · exact ho_panic
      · rename_i b2 hb2
        refine ho_read fun m4 g4' _ => ?_
        have g4 := (g2.trans g3).trans g4'
        split
        · exact ho_panic
        split
        · exact ho_read fun m5 g5 _ => ho_delete fun _ => (hk _).mono (g4.trans g5)
        · rename_i ho
          refine ho_sendAll (known_mono hb (g1.trans (g3.trans g4'))) (fun g s => ⟨eq_false_of_ne_true hl, by simpa using hh, b2, ?_, rfl,
            by simpa using ho⟩) fun ok => (hk ok).mono g4
          rw [g4'.2]; exact hb2

theorem ho_forward {bp : Pack} {k : Bool → Prog} (hk : ∀ ok, Honest A (k ok) n) : Honest A (forward bp k) n := by
  unfold forward
  refine ho_sync fun ok => ?_
  split
  · exact hk _
  · refine ho_route fun a => ?_
    unfold answered
    split
    · exact hk _
    · split
      · split
        · exact ho_remove (hk _)
        · exact hk _
      · exact ho_prepare hk

theorem ho_dispatchRemote {bp : Pack} {k : Bool → Prog} (hk : ∀ ok, Honest A (k ok) n) : Honest A (dispatchRemote bp k) n := by
  unfold dispatchRemote
  refine ho_read fun m g _ => ?_
  split
  · exact ho_spawn (ho_forward fun _ => ho_done) ((hk _).mono g)
  · exact (hk _).mono g

theorem ho_dispatch {bp : Pack} {k : Bool → Prog} (hp : Named n bp) (hk : ∀ ok, Honest A (k ok) n) : Honest A (dispatch bp k) n := by
  unfold dispatch
  refine ho_getBundle fun m b g i hb => ?_
  have hb := (i.stored _ _ hb).2
  dsimp only
  refine ho_set (fun m2 g2 i2 => i2.log _ (known_mono hb (g2.trans (.log _ _)))) <| ho_read fun m2 g2 _ => ?_
  have g2 := g.trans g2
  split
  · refine ho_localDelivery (hp.mono g2) fun ok => ?_
    split
    · exact (hk _).mono g2
    · exact ho_dispatchRemote fun ok => (hk ok).mono g2
  · exact ho_dispatchRemote fun ok => (hk ok).mono g2

theorem ho_transmit {bp : Pack} {k : Bool → Prog} (hp : Named n bp) (hk : ∀ ok, Honest A (k ok) n) : Honest A (transmit bp k) n := by
  unfold transmit
  refine ho_sync fun ok => ?_
  split
  · exact hk _
  · refine ho_read fun m2 g2 _ => ?_
    split
    · exact ho_delete fun ok => (hk ok).mono g2
    · exact ho_dispatch ((named_add hp).mono g2) fun ok => (hk ok).mono g2

theorem ho_sendBundle {b : Bundle} (h : Known n b) : Honest A (sendBundle b) n := by
  unfold sendBundle
  refine ho_push (fun m g => known_mono h g) fun ok => ?_
  split
  · exact ho_done
  · exact ho_read fun m g _ => ho_transmit (named_ofBundle (known_mono h g)) fun _ => ho_done

theorem ho_finishReceive {b : Bundle} {bp : Pack} {k : Bool → Prog} (hb : Event.called (.receive b) ∈ n.events)
    (hp : Named n bp) (hk : ∀ ok, Honest A (k ok) n) : Honest A (finishReceive b bp (marks b.canonicals 0 []) k) n := by
  unfold finishReceive
  split
  · exact ho_panic
  · rename_i cs hcs
    refine ho_push (fun m g => .inr (.inl ⟨b, g.mem hb, rfl, removeBlocks_sublist hcs, ?_⟩)) fun ok => ?_
    · intro hf
      rw [removeBlocks_simple hf] at hcs
      exact .inr (Option.some.inj hcs).symm
    · split
      · exact hk _
      · exact ho_dispatch hp fun _ => hk _

theorem ho_scanBlocks {b : Bundle} {bp : Pack} {k : Bool → Prog} (hk : ∀ ok, Honest A (k ok) n) (cs : List Block) :
    ∀ (index : Nat) (marked : List Nat), Honest A (finishReceive b bp (marks cs index marked) k) n →
      Honest A (scanBlocks b bp k cs index marked) n := by
  induction cs with
  | nil => intro i m h; exact h
  | cons c cs ih =>
    intro i m h
    unfold marks at h
    unfold scanBlocks
    split
    · rename_i hc
      rw [if_pos hc] at h
      exact ih _ _ h
    · rename_i hc
      rw [if_neg hc] at h
      have hn := ih _ _ h
      dsimp only
      have hcont : Honest A (if c.flags.deleteBundle = true then delete bp .blockUnintelligible (.block b c) k else
          scanBlocks b bp k cs (i + 1) (if c.flags.remove = true then m ++ [i] else m)) n := by
        split
        · exact ho_delete hk
        · exact hn
      split
      · refine ho_read fun m' g _ => ?_
        split
        · exact ho_sendReport (hcont.mono g)
        · exact hcont.mono g
      · exact hcont

theorem ho_receive {b : Bundle} {k : Bool → Prog} (hb : Event.called (.receive b) ∈ n.events) (hk : ∀ ok, Honest A (k ok) n) :
    Honest A (receive b k) n := by
  have known : ∀ m, Onward n m → Known m b := fun m g => .inr (.inl ⟨b, g.mem hb, keptOf_refl b⟩)
  unfold receive
  refine ho_act (fun m g i => ?_) fun m _ _ g => ?_
  · rcases add_eq m b with ⟨-, h1, -⟩ | ⟨-, h1, -, -⟩ | ⟨-, -, h1, -, -⟩
    · rw [h1]; exact ⟨.refl _, i⟩
    · rw [h1]; exact i.accept b (known m g)
    · rw [h1]; exact i.accept b (known m g)
  · rcases add_eq m b with ⟨-, -, h2⟩ | ⟨-, -, -, h2⟩ | ⟨-, -, -, -, h2⟩
    · rw [h2]; exact (hk _).mono g
    · rw [h2]; exact ho_stats (fun _ => rfl) (fun _ => rfl) (fun _ => rfl) (fun _ => rfl) ((hk _).mono g)
    · rw [h2]
      refine ho_stats (fun _ => rfl) (fun _ => rfl) (fun _ => rfl) (fun _ => rfl) <| ho_read fun m2 g2 _ => ?_
      have g2 := g.trans g2
      refine ho_sync fun ok => ?_
      split
      · exact (hk _).mono g2
      · refine ho_reportIf (ho_scanBlocks (fun ok => (hk ok).mono g2) _ _ _ ?_)
        exact ho_finishReceive (g2.mem hb) (named_add (named_ofBundle (known _ g2))) fun ok => (hk ok).mono g2

theorem ho_sweep {k : Prog} (ms : List Pack) : ∀ {n : Node}, Honest A k n → Honest A (sweep ms k) n := by
  induction ms with
  | nil => intro n h; exact h
  | cons m ms ih =>
    intro n h
    unfold sweep
    refine ho_read fun m' g _ => ?_
    split
    · exact ho_remove (ih (h.mono g))
    · exact ih (h.mono g)

theorem ho_collect {k : List Pack → Prog} (ids : List String) : ∀ {n : Node} (acc : List Pack), (∀ ps, Honest A (k ps) n) →
    Honest A (collect ids acc k) n := by
  induction ids with
  | nil => intro n acc h; exact h _
  | cons i ids ih =>
    intro n acc h
    unfold collect getMetadata
    refine ho_read fun m g _ => ?_
    unfold SledStore.getMetadata
    cases AList.get? (db m).metadata i with
    | none => exact ho_panic
    | some p => exact ih _ fun ps => (h ps).mono g

theorem ho_forwardAll {par : Bool} (bps : List Pack) : ∀ {n : Node}, Honest A (forwardAll par bps) n := by
  induction bps with
  | nil => intro n; exact ho_done
  | cons bp bps ih =>
    intro n
    unfold forwardAll
    split
    · exact ho_spawn (ho_forward fun _ => ho_done) ih
    · exact ho_forward fun _ => ih

theorem ho_task (c : Call) (h : Event.called c ∈ n.events) : Honest A (task c) n := by
  cases c with
  | receive b => exact ho_receive h fun _ => ho_done
  | send b => exact ho_sendBundle (.inl h)
  | remove bid => exact ho_remove ho_done
  | pop eid =>
    unfold task popBundle
    refine ho_act (fun m _ i => i.pop eid) fun m _ _ _ => ?_
    split
    · exact ho_done
    · split
      · exact ho_done
      · exact ho_removeIfSingleton ho_done
  | janitor =>
    unfold task processBundles
    refine ho_read fun m _ _ => ho_sweep _ <| ho_read fun m _ _ => ?_
    split
    · exact ho_done
    · exact ho_read fun m _ _ => ho_collect _ _ fun ps => ho_read fun m _ _ => ho_forwardAll _

/-! ### All histories -/

theorem origin_step {s t : Sys} (hs : Step s t) (hA : ∀ b, t.node.events = s.node.events ++ [.called (.receive b)] → A b)
    (i : Proc.Sound A s.node) (hp : ∀ p ∈ s.pool, Honest A p s.node) :
    Onward s.node t.node ∧ Proc.Sound A t.node ∧ ∀ p ∈ t.pool, Honest A p t.node := by
  cases hs with
  | task l r p n n' ps h =>
    have hpp := hp p (by simp)
    unfold Honest at hpp
    obtain ⟨g, i', hq⟩ := RG.taskStep (I := Proc.Sound A) (G := Onward) Onward.refl h i hpp
    refine ⟨g, i', fun q hq' => ?_⟩
    simp only [List.append_assoc, List.mem_append] at hq'
    rcases hq' with h | h | h
    · exact (hp q (by simp [h])).mono g
    · unfold Honest; exact hq q h
    · exact (hp q (by simp [h])).mono g
  | call n pool c =>
    have hf : Fine A (n.log (.called c)) (.called c) := by
      cases c with
      | receive b => exact hA b rfl
      | _ => trivial
    obtain ⟨g, i'⟩ := i.log _ hf
    refine ⟨g, i', fun q hq => ?_⟩
    rcases List.mem_append.mp hq with hq | hq
    · exact (hp q hq).mono g
    · rw [List.mem_singleton.mp hq]
      exact ho_task c (by simp [Node.log])
  | change n n' pool h =>
    obtain ⟨g, i'⟩ := Proc.Sound.outside h i
    exact ⟨g, i', fun q hq => (hp q hq).mono g⟩

theorem origin_restart {n : Node} (i : Proc.Sound A n) (clock : Nat) : Onward n (restarted n clock) ∧ Proc.Sound A (restarted n clock) :=
  i.step none (by simp [restarted]) i.inv rfl (fun _ _ => .inl) (by simp [restarted]) (by simp)

theorem origin_entry {n : Node} (p : Pack) (i : Proc.Sound A n) :
    Onward n { n with store := { n.store with metadata := AList.insert n.store.metadata p.id p } } ∧
    Proc.Sound A { n with store := { n.store with metadata := AList.insert n.store.metadata p.id p } } := by
  refine i.step none (by simp) ⟨i.inv.wfB, i.inv.wfM.insert _ _, ?_, i.inv.bundleId, ?_⟩ rfl (fun _ _ => .inl)
    (fun a ha b hb => .inl ⟨a, ha, rfl, hb⟩) (by simp)
  · intro bid q hq
    rw [getMetadata_insert] at hq
    split at hq
    · rename_i hid; cases hq; exact hid.symm
    · exact i.inv.metaId _ _ hq
  · intro bid b hb
    obtain ⟨q, hq⟩ := i.inv.hasMeta _ _ hb
    rw [getMetadata_insert]
    split
    · exact ⟨_, rfl⟩
    · exact ⟨q, hq⟩

theorem origin_cut {n : Node} (i : Proc.Sound A n) (clock : Nat) {op : SledStore.Op} {k : Nat}
    (hw : ∀ ws, (db n).writes op = .ok ws → k < ws.length) :
    Onward n (restarted (setDb n ((db n).crashStep op k)) clock) ∧ Proc.Sound A (restarted (setDb n ((db n).crashStep op k)) clock) := by
  rcases cut_cases hw with e | ⟨p, -, e⟩
  · rw [e]; exact origin_restart i clock
  · rw [e]
    obtain ⟨g, i'⟩ := origin_entry p i
    obtain ⟨g', r⟩ := origin_restart i' clock
    exact ⟨g.trans g', r⟩

theorem sled_any {s t : Sys} (hr : Reaches s t) (hs : Proc.Sound (fun _ => True) s.node)
    (hp : ∀ p ∈ s.pool, Honest (fun _ => True) p s.node) :
    Onward s.node t.node ∧ Proc.Sound (fun _ => True) t.node ∧ ∀ p ∈ t.pool, Honest (fun _ => True) p t.node := by
  induction hr with
  | refl => exact ⟨.refl _, hs, hp⟩
  | step _ h ih =>
    obtain ⟨g, i, hp⟩ := ih
    obtain ⟨g', r⟩ := origin_step h (fun _ _ => trivial) i hp
    exact ⟨g.trans g', r⟩
  | restart c _ ih =>
    obtain ⟨g', r⟩ := origin_restart ih.2.1 c
    exact ⟨ih.1.trans g', r, by simp⟩
  | cut c op k hw _ ih =>
    obtain ⟨g', r⟩ := origin_cut ih.2.1 c hw
    exact ⟨ih.1.trans g', r, by simp⟩

/-- Every reachable state is sound. -/
theorem origin_always {cfg : Config} {clock : Nat} {t : Sys} (hr : Reaches ⟨Node.start cfg clock, []⟩ t) :
    Proc.Sound (fun _ => True) t.node ∧ t.node.cfg.hostEid = cfg.hostEid :=
  let h := sled_any hr (Proc.Sound.start cfg clock) (by simp)
  ⟨h.2.1, h.1.2⟩

end Dtn.OnSled
