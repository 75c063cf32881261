import Verif.Lemmas.SledGood
import Verif.Lemmas.SledResume
import Verif.Lemmas.Given
/-! What a node with the persistent store owes to the bundles for its own applications. -/

namespace Dtn.OnSled
open Proc Spec
open Routing (Notification Answer)

attribute [local irreducible] RG

variable {I D : Node → Prop} {n m n0 : Node} {b : Bundle} {e : EID}

/-! ### Queues -/

theorem keeps_kept (e : EID) : Keeps Sound Never (fun _ => True) (fun _ => True) (Kept e) where
  inv _ h := h.inv
  got _ _ _ _ _ _ := trivial
  id _ _ := trivial
  new _ _ _ _ := trivial
  waiting _ _ _ _ := trivial
  called _ _ _ := .inl trivial
  aside n m es h hb hs ha he hp := by
    obtain ⟨h1, h2⟩ := queued_aside (e := e) (es := es) fun x hx => by
      have := hp x hx
      cases x <;> first | exact this.elim | trivial
    exact ⟨es, he, by rw [h1, h2]; simp [waitingAt, ha]⟩
  sending n t h _ := ⟨[_], rfl, by simp [queued, fetched, waitingAt, Node.log]⟩
  update n bp h _ := .same rfl rfl
  remove n bid c h := by
    unfold Node.remove
    split
    · exact ⟨[_], rfl, by simp [queued, fetched, waitingAt, Node.log]⟩
    · exact .same rfl rfl
  push n b h _ hg := .same rfl rfl
  report n r h hg := ⟨⟨[_], rfl, by simp [queued, fetched, waitingAt, Node.log, Node.push]⟩, .inl trivial⟩
  accept n b h hk := ⟨[_], rfl, by simp [queued, fetched, waitingAt, Node.log, Node.push]⟩
  deliver n e' b room h _ := waitingAt_deliver n e e' b room
  pop n e' h := waitingAt_pop n e e'

theorem keeps_eids : Keeps Sound Never (fun _ => True) (fun _ => True) SameEids where
  inv _ h := h.inv
  got _ _ _ _ _ _ := trivial
  id _ _ := trivial
  new _ _ _ _ := trivial
  waiting _ _ _ _ := trivial
  called _ _ _ := .inl trivial
  aside n m es h hb hs ha he hp := by unfold SameEids; rw [ha]
  sending n t h _ := rfl
  update n bp h _ := rfl
  remove n bid c h := by unfold Node.remove; split <;> rfl
  push n b h _ hg := rfl
  report n r h hg := ⟨rfl, .inl trivial⟩
  accept n b h hk := rfl
  deliver n e' b room h _ := sameEids_steps.deliver n e' b room
  pop n e' h := sameEids_steps.pop n e'

theorem onl_always {G : Node → Node → Prop} {cfg : Config} {clock : Nat} {s : Sys}
    (W : Keeps Sound Never (fun _ => True) (fun _ => True) G) (before : Reaches ⟨Node.start cfg clock, []⟩ s) :
    ∀ p ∈ s.pool, Onl Sound Never G p := by
  induction before with
  | refl => simp
  | step hr hs ih => exact (W.tasks (between hr (.refl _)).1 ih hs).resolve_left id
  | restart => simp
  | cut => simp

theorem sled_nodup {cfg : Config} {clock : Nat} {s : Sys} (before : Reaches ⟨Node.start cfg clock, []⟩ s) : s.node.agents.eids.Nodup := by
  induction before with
  | refl => exact List.nodup_nil
  | restart => exact List.nodup_nil
  | cut => exact List.nodup_nil
  | @step t u hr hs ih =>
    have j := (between hr (.refl _)).1
    have hp := onl_always keeps_eids hr
    cases hs with
    | task l r p n n' ps ht =>
      have : SameEids n n' := keeps_eids.step (fun _ _ _ _ => rfl) j (hp p (by simp)) ht
      dsimp only at ih ⊢
      rw [this]; exact ih
    | call n pool c => exact ih
    | change n n' pool ho => exact nodup_outside ho ih

/-- The queue of a registered endpoint agrees with what happened. -/
theorem sled_kept {cfg : Config} {clock : Nat} {s t : Sys} (before : Reaches ⟨Node.start cfg clock, []⟩ s)
    (run : SledThroughout (fun m => e ∈ m.agents.eids) s t) : Kept e s.node t.node := by
  induction run with
  | refl => exact .same rfl rfl
  | @step t u hr hs hi ih =>
    refine ih.trans ?_
    have bt := before.join hr.reaches
    have j := (between bt (.refl _)).1
    have hp := onl_always (keeps_kept e) bt
    have hl := hr.last
    cases hs with
    | task l r p n n' ps ht =>
      exact (keeps_kept e).step (fun n bp a _ => ⟨[_], rfl, by simp [queued, fetched, waitingAt, Node.log]⟩) j (hp p (by simp)) ht
    | call n pool c => exact ⟨[_], rfl, by simp [queued, fetched, waitingAt, Node.log]⟩
    | change n n' pool ho => exact kept_outside ho (sled_nodup bt) hl hi

/-! ### New ids -/

/-- What is known anew is in the database. -/
def Appears (n m : Node) : Prop :=
  ∀ bid, n.store.getMetadata bid = none → m.store.getMetadata bid ≠ none → m.store.getBundle bid ≠ none

theorem Appears.same (h : m.store = n.store) : Appears n m := fun bid h1 h2 => by rw [h] at h2; exact absurd h1 h2

theorem Appears.push (b : Bundle) (h : m.store = n.store.push n.clock b) : Appears n m := by
  intro bid h1 h2
  rw [h, MemStore.getMetadata_push] at h2
  rw [h, MemStore.getBundle_push]
  split at h2
  · rename_i hh; rw [if_pos hh.1]; simp
  · exact absurd h1 h2

theorem keeps_appears : Keeps Sound Never (fun _ => True) (fun _ => True) Appears where
  inv _ h := h.inv
  got _ _ _ _ _ _ := trivial
  id _ _ := trivial
  new _ _ _ _ := trivial
  waiting _ _ _ _ := trivial
  called _ _ _ := .inl trivial
  aside n m es h hb hs ha he hp := .same hs
  sending n t h _ := .same rfl
  update n bp h _ := by
    intro bid h1 h2
    dsimp only at h2
    rw [MemStore.getMetadata_update] at h2
    split at h2
    · rename_i hh; exact absurd (hh.1 ▸ h1) hh.2
    · exact absurd h1 h2
  remove n bid c h := by
    have hst : (n.remove bid c).store = (n.store.remove bid).1 := by unfold Node.remove; split <;> rfl
    intro i h1 h2
    rw [hst, MemStore.getMetadata_remove h.inv] at h2
    split at h2
    · rename_i hh; rw [← hh, h1] at h2; exact absurd rfl h2
    · exact absurd h1 h2
  push n b h _ hg := .push b rfl
  report n r h hg := ⟨.push r.report rfl, .inl trivial⟩
  accept n b h hk := .push b rfl
  deliver n e' b room h _ := .same (by unfold Node.deliver; split <;> rfl)
  pop n e' h := .same (by
    unfold Node.popAgent
    split
    · rfl
    · split <;> rfl)

/-- Without a stop of the process, no id becomes known without its bundle. -/
theorem sled_fresh {bid : String} {cfg : Config} {clock : Nat} {s t : Sys} (before : Reaches ⟨Node.start cfg clock, []⟩ s)
    (fresh : s.node.store.getMetadata bid ≠ none → s.node.store.getBundle bid ≠ none) (run : SledThroughout I s t) :
    (t.node.store.getMetadata bid ≠ none → t.node.store.getBundle bid ≠ none) ∨ ∃ c, .removed bid c ∈ newEvents s.node t.node := by
  induction run with
  | refl => exact .inl fresh
  | @step t u hr hs hi ih =>
    have bt := before.join hr.reaches
    obtain ⟨j, l, -⟩ := between bt (.step (.refl _) hs)
    have pt := (between before hr.reaches).2.1.base.past
    rcases ih with ih | ⟨c, hc⟩
    · by_cases hm : t.node.store.getMetadata bid = none
      · refine .inl ((keeps_appears.live (fun _ _ _ _ => .same rfl) (fun n m _ o => ?_) j (onl_always keeps_appears bt) hs).1 bid hm)
        cases o <;> exact .same rfl
      · rcases l.base.kept bid (ih hm) with h | ⟨c, hc⟩
        · exact .inl fun _ => h
        · exact .inr ⟨c, newEvents_left pt l.base.past hc⟩
    · exact .inr ⟨c, newEvents_right pt l.base.past hc⟩

/-! ### Delivery -/

theorem _root_.Dtn.Spec.SledThroughout.unless {cfg : Config} {clock : Nat} {s t : Sys} (hD : ∀ n m, Base n m → D n → D m)
    (before : Reaches ⟨Node.start cfg clock, []⟩ s) (run : SledThroughout I s t) (h : ¬ D t.node) :
    SledThroughout (fun m => I m ∧ ¬ D m) s t := by
  induction run with
  | refl i => exact .refl ⟨i, h⟩
  | @step t u hr hs hi ih =>
    have b : Base t.node u.node := (between (before.join hr.reaches) (.step (.refl _) hs)).2.1.base
    exact (ih fun hd => h (hD _ _ b hd)).step hs ⟨hi, h⟩

/-- What is written is written: the task goes on. -/
theorem will_sync {bp : Pack} {c : Cause} {k : Bool → Prog} (hany : bp.hasAny = true) (hknown : n.store.getMetadata bp.id ≠ none)
    (hk : ∀ m, Base n m → Will I D (k true) m) : Will I D (sync bp k c) n := by
  unfold sync
  rw [hany]
  simp only [Bool.not_true, Bool.false_eq_true, if_false]
  refine will_act fun m bm im bf _ => .inr ?_
  obtain ⟨ok, h1, h2⟩ := update_cases m bp k
  rw [h1, h2 (bm.known _ hknown)]
  exact hk _ bf

/-- The task reads a bundle that is there. -/
theorem will_get {bid : String} {k : Option Bundle → Prog} (hst : ∀ m, Base n m → I m → m.store.getBundle bid ≠ none)
    (hk : ∀ m b, Base n m → I m → m.store.getBundle bid = some b → Will I D (k (some b)) m) : Will I D (getBundle bid k) n := by
  unfold getBundle
  refine will_read fun m bm i => ?_
  have h := hst m bm i
  have h' := hk m
  unfold MemStore.getBundle at h h'
  unfold SledStore.getBundle db
  dsimp only
  cases hb : AList.get? m.store.bundles bid with
  | none => exact absurd hb h
  | some b => exact h' b bm i hb

theorem will_sendReport {bp : Pack} {cause : Bundle} {pos : Pos} {reason : Reason} {k : Prog}
    (hst : ∀ m, Base n m → I m → m.store.getBundle bp.id ≠ none) (hk : ∀ m, Base n m → Will I D k m) :
    Will I D (sendReport bp cause pos reason k) n := by
  unfold sendReport
  split
  · exact hk n (.refl n)
  · refine will_get hst fun m1 b1 h1 i1 _ => ?_
    refine will_read fun m2 h2 i2 => ?_
    split
    · exact hk _ (h1.trans h2)
    · intro s
      refine will_act fun m3 h3 i3 h3' _ => .inr ?_
      have hb := h1.trans (h2.trans h3')
      rw [push_cases]
      by_cases hg : Gone (mkReport m3 b1 s pos).id m3
      · rw [decide_eq_true hg]; exact hk _ hb
      · rw [decide_eq_false hg]
        simp only [Bool.not_false, if_true]
        unfold sync
        rw [hasAny_of (c := .forwardPending) (by simp [Pack.has_add])]
        simp only [Bool.not_true, Bool.false_eq_true, if_false]
        refine will_act fun m4 h4 i4 h4' _ => .inr ?_
        obtain ⟨ok, e1, -⟩ := update_cases m4 ((Pack.ofBundle m3.clock (mkReport m3 b1 s pos)).add .forwardPending) fun _ => k
        rw [e1]
        exact hk _ (hb.trans h4')

theorem will_reportIf {asked : Bool} {bp : Pack} {b : Bundle} {pos : Pos} {reason : Reason} {k : Prog}
    (hst : ∀ m, Base n m → I m → m.store.getBundle bp.id ≠ none) (hk : ∀ m, Base n m → Will I D k m) :
    Will I D (reportIf asked bp b pos reason k) n := by
  unfold reportIf
  refine will_read fun m h i => ?_
  split
  · exact will_sendReport (fun m' h' => hst m' (h.trans h')) fun m' h' => hk m' (h.trans h')
  · exact hk m h

theorem will_giveToAgent {k : Bool → Prog} (hI : ∀ m, I m → n0.events <+: m.events ∧ b.primary.destination ∈ m.agents.eids) :
    Will I (Gave n0 b) (giveToAgent b.primary.destination b k) n := by
  intro room
  refine will_act fun m _ im _ _ => .inl ?_
  obtain ⟨hp, hm⟩ := hI m im
  rw [← Registry.find_isSome] at hm
  obtain ⟨a, ha⟩ := Option.isSome_iff_exists.mp hm
  unfold Node.deliver
  rw [ha]
  refine ⟨hp.trans (List.prefix_append _ _), (a.push b room).2, ?_⟩
  exact newEvents_left (m := m) hp (List.prefix_append _ _) (by rw [newEvents_eq (es := [_]) rfl]; simp)

theorem will_finishDelivery {bp : Pack} {k : Bool → Prog} (hI : ∀ m, I m → n0.events <+: m.events ∧ b.primary.destination ∈ m.agents.eids)
    (hdest : bp.destination = b.primary.destination) (hany : bp.hasAny = true) (hknown : n.store.getMetadata bp.id ≠ none) :
    Will I (Gave n0 b) (finishDelivery bp b k) n := by
  unfold finishDelivery
  refine will_sync hany hknown fun m _ => ?_
  rw [hdest]
  exact will_giveToAgent hI

theorem will_deliverBundle {bp : Pack} {k : Bool → Prog} (hI : ∀ m, I m → n0.events <+: m.events ∧ b.primary.destination ∈ m.agents.eids)
    (hdest : bp.destination = b.primary.destination) (hknown : n.store.getMetadata bp.id ≠ none)
    (hst : ∀ m, Base n m → I m → m.store.getBundle bp.id ≠ none) :
    Will I (Gave n0 b) (deliverBundle bp b k) n := by
  have hany : (bp.add .localEndpoint).hasAny = true := hasAny_of (c := .localEndpoint) (by simp [Pack.has_add])
  unfold deliverBundle
  refine will_sync hany hknown fun m bm => ?_
  simp only [Bool.not_true, Bool.false_eq_true, if_false]
  refine will_read fun m2 b2 i2 => ?_
  have hk2 := b2.known _ (bm.known _ hknown)
  split
  · refine will_reportIf (fun m' h' => hst m' (bm.trans (b2.trans h'))) fun n1 b1 => will_finishDelivery hI ?_ ?_ ?_
    · rw [← hdest]; unfold Pack.clear; dsimp only; split <;> rfl
    · exact hasAny_of (c := .localEndpoint) (by simp [Pack.has_clear, Pack.has_add])
    · rw [Pack.id_clear]; exact b1.known _ hk2
  · exact will_finishDelivery hI hdest (hasAny_of (c := .forwardPending) (by simp [Pack.has_add])) hk2

theorem will_localDelivery {cfg : Config} {bp : Pack} {k : Bool → Prog} (hI : ∀ m, I m → Awaited cfg n0 b m) (hid : bp.id = b.id)
    (hdest : bp.destination = b.primary.destination) (hadm : bp.administrative = b.isAdmin) (readable : b.isAdmin = true → HasRecord cfg b)
    (hn : n0.events <+: n.events) (hs : n.store.getBundle b.id ≠ none) : Will I (Gave n0 b) (localDelivery bp k) n := by
  have hI' : ∀ m, I m → n0.events <+: m.events ∧ b.primary.destination ∈ m.agents.eids := fun m i => ⟨(hI m i).past, (hI m i).here⟩
  have hst : ∀ m, Base n m → I m → m.store.getBundle bp.id ≠ none := fun m h i => by rw [hid]; exact (hI m i).toHeld.stored hn h hs
  unfold localDelivery
  refine will_get hst fun m b' b1 i1 hb => ?_
  have hk1 : m.store.getMetadata bp.id ≠ none := known_of_stored (hI m i1).good.inv (by rw [hb]; simp)
  rw [hid] at hb
  obtain rfl := (hI m i1).same b' hb
  have fin : ∀ m2, Base m m2 → Will I (Gave n0 b') (deliverBundle bp b' k) m2 := fun m2 h2 =>
    will_deliverBundle hI' hdest (h2.known _ hk1) fun m' h' => hst m' (b1.trans (h2.trans h'))
  dsimp only
  split
  · rename_i ha
    obtain ⟨r, h⟩ := readable (hadm ▸ ha)
    obtain ⟨ha', c, hc, bytes, hd, hr⟩ := h
    unfold adminValid
    rw [ha', hc]
    simp only [Bool.not_true, Bool.false_eq_true, if_false, hd]
    refine will_read fun m2 b2 i2 => ?_
    rw [(hI m2 i2).cfg, hr]
    dsimp only
    unfold inspectReport
    split
    · split
      · exact fin _ b2
      · refine will_read fun m3 b3 i3 => ?_
        split
        · exact fin _ (b2.trans b3)
        · rename_i ref _ hitem
          split
          · exact fin _ (b2.trans b3)
          · unfold remove
            refine will_act fun m4 b4 i4 b4' _ => .inr ?_
            have hkr : m3.store.getMetadata ref ≠ none := by
              refine known_of_stored (hI m3 i3).good.inv ?_
              rw [Bool.not_eq_true', Bool.not_eq_false] at hitem
              exact (MemStore.hasItem_iff _ _).mp hitem
            rcases remove_cases m4 ref fun _ => deliverBundle bp b' k with ⟨-, h⟩ | ⟨h, -⟩
            · exact absurd h (b4.known _ hkr)
            · rw [h]; exact fin _ (b2.trans (b3.trans b4'))
    · exact fin _ b2
  · exact fin _ (.refl _)

theorem will_give {cfg : Config} (hI : ∀ m, I m → Awaited cfg n0 b m) (readable : b.isAdmin = true → HasRecord cfg b)
    (t : Nat) (k : Bool → Prog) (n : Node) (hn : n0.events <+: n.events)
    (hs : n.store.getBundle b.id ≠ none) : Will I (Gave n0 b) (dispatch ((Pack.ofBundle t b).add .dispatchPending) k) n := by
  unfold dispatch
  refine will_get (fun m h i => by simpa using (hI m i).toHeld.stored hn h hs) fun m1 b' b1 i1 _ => ?_
  dsimp only
  refine will_set fun m2 b2 i2 b2' i2' => ?_
  refine will_read fun m3 b3 i3 => ?_
  rw [show m3.agents.has ((Pack.ofBundle t b).add .dispatchPending).destination = true from
    (Registry.has_iff _ _).mpr (hI m3 i3).here]
  simp only [if_true]
  exact will_localDelivery hI (by simp) rfl rfl readable (hI m3 i3).past
    ((hI m3 i3).toHeld.stored hn (b1.trans (b2'.trans b3)) hs)

/-! ### Reception and submission -/

theorem will_scan {bp : Pack} {k : Bool → Prog} (cs : List Block)
    (hcs : ∀ x ∈ cs, UnknownBlock x → x.flags.remove = false ∧ x.flags.deleteBundle = false) :
    ∀ index n, (∀ m, Base n m → I m → m.store.getBundle bp.id ≠ none) → (∀ m, Base n m → Will I D (finishReceive b bp [] k) m) →
      Will I D (scanBlocks b bp k cs index []) n := by
  induction cs with
  | nil => intro _ n _ hk; exact hk n (.refl n)
  | cons c cs ih =>
    intro index n hst hk
    unfold scanBlocks
    split
    · exact ih (fun x hx => hcs x (by simp [hx])) index n hst hk
    · rename_i hc
      obtain ⟨h1, h2⟩ := hcs c (by simp) (by unfold UnknownBlock; omega)
      simp only [h1, h2, Bool.false_eq_true, if_false]
      have next := ih (fun x hx => hcs x (by simp [hx])) (index + 1)
      split
      · refine will_read fun m h i => ?_
        split
        · exact will_sendReport (fun m' h' => hst m' (h.trans h')) fun m' h' =>
            next m' (fun m2 h2 => hst m2 (h.trans (h'.trans h2))) fun m2 h2 => hk m2 (h.trans (h'.trans h2))
        · exact next m (fun m2 h2 => hst m2 (h.trans h2)) fun m2 h2 => hk m2 (h.trans h2)
      · exact next n hst hk

/-- A received bundle that was taken as new is dispatched. -/
theorem will_received {bp : Node → Pack} (hbp : ∀ m, bp m = (Pack.ofBundle m.clock b).add .dispatchPending) {f : Stats → Stats} {k : Bool → Prog}
    (hI : ∀ m, I m → Held n0 b m)
    (hD : ∀ t k n, n0.events <+: n.events → n.store.getBundle b.id ≠ none → Will I D (dispatch ((Pack.ofBundle t b).add .dispatchPending) k) n)
    (hn : n0.events <+: n.events)
    (hcs : ∀ x ∈ b.canonicals, UnknownBlock x → x.flags.remove = false ∧ x.flags.deleteBundle = false)
    (hst : n.store.getBundle b.id ≠ none) :
    Will I D (.set (fun n => { n with stats := f n.stats }) <| .read fun n =>
      sync (bp n) fun ok => if !ok then k false
        else reportIf b.primary.flags.reqReception (bp n) b .received .noInformation <| scanBlocks b (bp n) k b.canonicals 0 []) n := by
  refine will_set fun m2 b2 i2 b2' _ => will_read fun m3 b3 i3 => ?_
  have b3' := b2'.trans b3
  have hst3 := (hI m3 i3).stored hn b3' hst
  have hk3 := known_of_stored (hI m3 i3).good.inv hst3
  have hid : (bp m3).id = b.id := by rw [hbp]; simp
  have hall : ∀ m, Base m3 m → I m → m.store.getBundle (bp m3).id ≠ none := fun m h i => by
    rw [hid]; exact (hI m i).stored hn (b3'.trans h) hst
  have hany : (bp m3).hasAny = true := by
    rw [hbp]; exact hasAny_of (c := .dispatchPending) (by simp [Pack.has_add])
  refine will_sync hany (by rw [hid]; exact hk3) fun m4 b4 => ?_
  simp only [Bool.not_true, Bool.false_eq_true, if_false]
  refine will_reportIf (fun m h => hall m (b4.trans h)) fun m5 b5 => ?_
  refine will_scan _ hcs _ _ (fun m h => hall m (b4.trans (b5.trans h))) fun m6 b6 => ?_
  unfold finishReceive removeBlocks
  dsimp only
  unfold push
  refine will_act fun m7 b7 i7 b7' i7' => .inr ?_
  have hs7 := (hI m7 i7).stored hn (b3'.trans (b4.trans (b5.trans (b6.trans b7)))) hst
  rw [push_cases, decide_eq_false (fun g : Gone _ _ => hs7 g.2)]
  simp only [Bool.not_false, Bool.not_true, Bool.false_eq_true, if_false]
  rw [hbp]
  refine hD _ _ _ (hI _ i7').past ?_
  exact (hI _ i7').stored hn (b3'.trans (b4.trans (b5.trans (b6.trans b7')))) hst

/-- A submitted bundle is dispatched, if its source is registered. -/
theorem will_submitted (hI : ∀ m, I m → Held n0 b m)
    (hD : ∀ t k n, n0.events <+: n.events → n.store.getBundle b.id ≠ none → Will I D (dispatch ((Pack.ofBundle t b).add .dispatchPending) k) n)
    (hsrc : ∀ m, I m → b.primary.source = .none ∨ b.primary.source ∈ m.agents.eids) (hn : n0.events <+: n.events)
    (hst : n.store.getBundle b.id ≠ none) : Will I D (.read fun n => transmit (Pack.ofBundle n.clock b) .done) n := by
  refine will_read fun m2 b2 i2 => ?_
  have hst2 := (hI m2 i2).stored hn b2 hst
  have hk2 := known_of_stored (hI m2 i2).good.inv hst2
  unfold transmit
  refine will_sync (hasAny_of (c := .dispatchPending) (by simp [Pack.has_add])) (by simpa using hk2) fun m3 b3 => ?_
  simp only [Bool.not_true, Bool.false_eq_true, if_false]
  refine will_read fun m4 b4 i4 => ?_
  have hs : ¬ (((Pack.ofBundle m2.clock b).add .dispatchPending).source ≠ .none ∧
      m4.agents.find ((Pack.ofBundle m2.clock b).add .dispatchPending).source = none) := by
    rintro ⟨h1, h2⟩
    rcases hsrc m4 i4 with h | h
    · exact h1 h
    · rw [← Registry.find_isSome, show m4.agents.find b.primary.source = none from h2] at h; cases h
  rw [if_neg hs]
  exact hD _ _ _ (hI _ i4).past ((hI _ i4).stored hn (b2.trans (b3.trans b4)) hst)

/-- A task that is about to act does so, if the system comes to rest. -/
theorem _root_.Dtn.Spec.SledThroughout.acts {s : Sys} {f : Node → Node} {k : Node → Prog} (run : SledThroughout I s ⟨m, []⟩)
    (hp : .act f k ∈ s.pool) : ∃ u v, SledThroughout I s u ∧ Step u v ∧ SledThroughout I v ⟨m, []⟩ ∧ v.node = f u.node ∧ k u.node ∈ v.pool := by
  have : ∀ t, SledThroughout I s t → Prog.act f k ∈ t.pool ∨
      ∃ u v, SledThroughout I s u ∧ Step u v ∧ SledThroughout I v t ∧ v.node = f u.node ∧ k u.node ∈ v.pool := by
    intro t ht
    induction ht with
    | refl => exact .inl hp
    | @step t u hr hs hi ih =>
      rcases ih with ih | ⟨x, y, h1, h2, h3, h4⟩
      · cases hs with
        | task l r p n n' ps h =>
          have hr := hr
          simp only [List.mem_append, List.mem_cons] at ih
          rcases ih with ih | rfl | ih
          · exact .inl (by simp [ih])
          · cases h
            exact .inr ⟨_, _, hr, .task l r _ _ _ _ (.act _ f k), .refl hi, rfl, by simp⟩
          · exact .inl (by simp [ih])
        | call n pool c => exact .inl (by simp [ih])
        | change n n' pool hc => exact .inl ih
      · exact .inr ⟨x, y, h1, h2, h3.step hs hi, h4⟩
  rcases this _ run with h | h
  · cases h
  · exact h

end Dtn.OnSled
