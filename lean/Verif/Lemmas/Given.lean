import Verif.Lemmas.Carried
import Verif.Lemmas.Queues
import Verif.Spec.Given
/-! What the node owes to the bundles for its own applications. -/

namespace Dtn.Proc
open Routing (Notification Answer)
open Spec

attribute [local irreducible] RG

variable {I D : Node → Prop} {n m n0 : Node} {b : Bundle}

/-- Until something has happened, the condition. -/
theorem _root_.Dtn.Spec.Throughout.unless {cfg : Config} {clock : Nat} {s t : Sys} (hD : ∀ n m, Base n m → D n → D m)
    (before : Reaches .any ⟨Node.start cfg clock, []⟩ s) (run : Throughout .any I s t) (h : ¬ D t.node) :
    Throughout .any (fun m => I m ∧ ¬ D m) s t := by
  induction run with
  | refl i => exact .refl ⟨i, h⟩
  | @step t u hr hs hi ih =>
    have b : Base t.node u.node := (any_good (before.join hr.reaches) (.step (.refl _) hs)).1
    exact (ih fun hd => h (hD _ _ b hd)).step hs ⟨hi, h⟩

/-- The bundle has been given to its endpoint since `n0`. -/
def Gave (n0 : Node) (b : Bundle) (m : Node) : Prop := n0.events <+: m.events ∧ GivenTo n0 m b

theorem Gave.mono (h : Gave n0 b n) (hb : Base n m) : Gave n0 b m := by
  obtain ⟨h0, ch, hc⟩ := h
  exact ⟨h0.trans hb.past, ch, newEvents_right h0 hb.past hc⟩

/-- What holds while the node deals with a bundle for one of its applications. -/
structure Awaited (cfg : Config) (n0 : Node) (b : Bundle) (m : Node) : Prop extends Held n0 b m where
  here : b.primary.destination ∈ m.agents.eids
  same : ∀ b', m.store.getBundle b.id = some b' → b' = b
  cfg : m.cfg = cfg

theorem will_giveToAgent {k : Bool → Prog} (hI : ∀ m, I m → n0.events <+: m.events ∧ b.primary.destination ∈ m.agents.eids) :
    Will I (Gave n0 b) (giveToAgent b.primary.destination b k) n := by
  intro room
  refine will_act fun m _ im _ _ => .inl ?_
  obtain ⟨hp, hm⟩ := hI m im
  rw [← Registry.find_isSome] at hm
  obtain ⟨a, ha⟩ := Option.isSome_iff_exists.mp hm
  unfold Node.deliver
  rw [ha]
  refine ⟨hp.trans (List.prefix_append _ _), (a.push b room).2, ?_⟩
  exact newEvents_left (m := m) hp (List.prefix_append _ _) (by rw [newEvents_eq (es := [_]) rfl]; simp)

theorem will_finishDelivery {bp : Pack} {k : Bool → Prog} (hI : ∀ m, I m → n0.events <+: m.events ∧ b.primary.destination ∈ m.agents.eids)
    (hdest : bp.destination = b.primary.destination) (hany : bp.hasAny = true) (hknown : n.store.getMetadata bp.id ≠ none) :
    Will I (Gave n0 b) (finishDelivery bp b k) n := by
  refine will_act fun m bm im _ _ => .inr ?_
  rw [sync_ok hany (bm.known _ hknown), hdest]
  exact will_giveToAgent hI

theorem will_deliverBundle {bp : Pack} {k : Bool → Prog} (hI : ∀ m, I m → n0.events <+: m.events ∧ b.primary.destination ∈ m.agents.eids)
    (hdest : bp.destination = b.primary.destination) (hknown : n.store.getMetadata bp.id ≠ none) :
    Will I (Gave n0 b) (deliverBundle bp b k) n := by
  have hany : (bp.add .localEndpoint).hasAny = true := hasAny_of (c := .localEndpoint) (by simp [Pack.has_add])
  refine will_act fun m bm im b' _ => .inr ?_
  rw [sync_ok hany (bm.known _ hknown)]
  simp only [Bool.not_true, Bool.false_eq_true, if_false]
  refine will_read fun m2 b2 i2 => ?_
  have hk2 := b2.known _ (b'.known _ hknown)
  split
  · have W := (will_walks (I := I) (D := Gave n0 b) m2).calm fun _ _ => trivial
    refine W.reportIf (fun n1 b1 => will_finishDelivery hI ?_ ?_ ?_) _ (.refl _)
    · rw [← hdest]; unfold Pack.clear; dsimp only; split <;> rfl
    · exact hasAny_of (c := .localEndpoint) (by simp [Pack.has_clear, Pack.has_add])
    · rw [Pack.id_clear]; exact b1.known _ hk2
  · exact will_finishDelivery hI hdest (hasAny_of (c := .forwardPending) (by simp [Pack.has_add])) hk2

theorem will_localDelivery {cfg : Config} {bp : Pack} {k : Bool → Prog} (hI : ∀ m, I m → Awaited cfg n0 b m) (hid : bp.id = b.id)
    (hdest : bp.destination = b.primary.destination) (hadm : bp.administrative = b.isAdmin) (readable : b.isAdmin = true → HasRecord cfg b)
    (hn : n0.events <+: n.events) (hs : n.store.getBundle b.id ≠ none) : Will I (Gave n0 b) (localDelivery bp k) n := by
  have hI' : ∀ m, I m → n0.events <+: m.events ∧ b.primary.destination ∈ m.agents.eids := fun m i => ⟨(hI m i).past, (hI m i).here⟩
  refine will_read fun m b1 i1 => ?_
  have h1 := (hI m i1).toHeld.stored hn b1 hs
  have hk1 := known_of_stored (hI m i1).good.inv h1
  rw [← hid] at hk1
  rw [hid]
  cases hb : m.store.getBundle b.id with
  | none => exact absurd hb h1
  | some b' =>
    obtain rfl := (hI m i1).same b' hb
    dsimp only
    split
    · rename_i ha
      obtain ⟨r, h⟩ := readable (hadm ▸ ha)
      obtain ⟨ha', c, hc, bytes, hd, hr⟩ := h
      unfold adminValid
      rw [ha', hc]
      simp only [Bool.not_true, Bool.false_eq_true, if_false, hd]
      refine will_read fun m2 b2 i2 => ?_
      rw [(hI m2 i2).cfg, hr]
      have hk2 := b2.known _ hk1
      dsimp only
      unfold inspectReport
      split
      · split
        · exact will_deliverBundle hI' hdest hk2
        · refine will_read fun m3 b3 i3 => ?_
          have hk3 := b3.known _ hk2
          split
          · exact will_deliverBundle hI' hdest hk3
          · split
            · exact will_deliverBundle hI' hdest hk3
            · exact will_set fun m4 _ _ b4 _ => will_deliverBundle hI' hdest (b4.known _ hk3)
      · exact will_deliverBundle hI' hdest hk2
    · exact will_deliverBundle hI' hdest hk1

theorem will_give {cfg : Config} (hI : ∀ m, I m → Awaited cfg n0 b m) (readable : b.isAdmin = true → HasRecord cfg b)
    (t : Nat) (k : Bool → Prog) (n : Node) (hn : n0.events <+: n.events)
    (hs : n.store.getBundle b.id ≠ none) : Will I (Gave n0 b) (dispatch ((Pack.ofBundle t b).add .dispatchPending) k) n := by
  unfold dispatch
  refine will_read fun m1 b1 i1 => ?_
  have h1 := (hI m1 i1).toHeld.stored hn b1 hs
  rw [show ((Pack.ofBundle t b).add .dispatchPending).id = b.id by simp]
  cases hb : m1.store.getBundle b.id with
  | none => exact absurd hb h1
  | some b' =>
    dsimp only
    refine will_set fun m2 b2 i2 b2' i2' => ?_
    refine will_read fun m3 b3 i3 => ?_
    rw [show m3.agents.has ((Pack.ofBundle t b).add .dispatchPending).destination = true from
      (Registry.has_iff _ _).mpr (hI m3 i3).here]
    simp only [if_true]
    exact will_localDelivery hI (by simp) rfl rfl readable (hI m3 i3).past
      ((hI m3 i3).toHeld.stored hn (b1.trans (b2'.trans b3)) hs)

end Dtn.Proc
