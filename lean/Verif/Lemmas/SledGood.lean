import Verif.Lemmas.SledWalk
import Verif.Lemmas.SledHistory
/-! What is known of the events of a node holds with the persistent store, too, before and after restarts. -/

namespace Dtn.OnSled
open Proc

theorem good_restart (n : Node) (clock : Nat) (h : Good n) : Good (restarted n clock) :=
  h.same (base_restart _ _) rfl h.inv (fun _ h => h) rfl

theorem good_entry {n : Node} (p : Pack) (h : Good n) :
    Base n { n with store := { n.store with metadata := AList.insert n.store.metadata p.id p } } ∧
    Good { n with store := { n.store with metadata := AList.insert n.store.metadata p.id p } } := by
  have hk : ∀ bid, n.store.getMetadata bid ≠ none →
      MemStore.getMetadata { n.store with metadata := AList.insert n.store.metadata p.id p } bid ≠ none := by
    intro bid hb
    rw [getMetadata_insert]
    split
    · simp
    · exact hb
  have hb : Base n { n with store := { n.store with metadata := AList.insert n.store.metadata p.id p } } :=
    .store _ _ hk fun _ h => h
  refine ⟨hb, h.same hb rfl ⟨h.inv.wfB, h.inv.wfM.insert _ _, ?_, h.inv.bundleId, ?_⟩ (fun _ h => h) rfl⟩
  · intro bid q hq
    rw [getMetadata_insert] at hq
    split at hq
    · rename_i hid; cases hq; exact hid.symm
    · exact h.inv.metaId _ _ hq
  · intro bid b hb
    obtain ⟨q, hq⟩ := h.inv.hasMeta _ _ hb
    have := hk bid (by rw [hq]; simp)
    exact Option.ne_none_iff_exists'.mp this

theorem good_cut (n : Node) (clock : Nat) (op : SledStore.Op) (k : Nat) (hw : ∀ ws, (db n).writes op = .ok ws → k < ws.length)
    (h : Good n) : Base n (restarted (setDb n ((db n).crashStep op k)) clock) ∧
      Good (restarted (setDb n ((db n).crashStep op k)) clock) := by
  rcases cut_cases hw with e | ⟨p, -, e⟩
  · rw [e]; exact ⟨base_restart _ _, good_restart _ _ h⟩
  · rw [e]; exact ⟨(good_entry p h).1.trans (base_restart _ _), good_restart _ _ (good_entry p h).2⟩

/-- Every reachable state is good. -/
theorem sled_good {cfg : Config} {clock : Nat} {t : Sys} (hr : Reaches ⟨Node.start cfg clock, []⟩ t) : Good t.node ∧ t.node.cfg = cfg :=
  let h := always Good.acts (fun _ _ o h => h.outside o) good_restart good_cut hr (Good.start cfg clock) (by simp)
  ⟨h.1, h.2.1.cfg⟩

end Dtn.OnSled
