import Verif.Lemmas.MemStore
import Verif.Lemmas.SledStore
import Verif.Spec.Store
import Verif.Lemmas.TcpclSend
/-! Lemmas about listing the content of a store. -/

namespace Dtn
open Spec

theorem map_id_values {m : AList String Pack} (w : AList.WF m)
    (hid : ∀ bid p, AList.get? m bid = some p → p.id = bid) : (AList.values m).map Pack.id = AList.keys m := by
  unfold AList.values AList.keys
  rw [List.map_map]
  apply List.map_congr_left
  rintro ⟨k, p⟩ h
  exact hid k p (w.get?_of_mem h)

theorem enumerates_filter {m : AList String Pack} (w : AList.WF m)
    (hid : ∀ bid p, AList.get? m bid = some p → p.id = bid) (q : Pack → Bool) :
    Enumerates (((AList.values m).filter q).map Pack.id) fun bid => ∃ p, AList.get? m bid = some p ∧ q p = true := by
  constructor
  · have : ((AList.values m).map Pack.id).Nodup := by rw [map_id_values w hid]; exact w
    exact this.sublist (List.filter_sublist.map _)
  · intro bid
    simp only [List.mem_map, List.mem_filter, w.mem_values_iff]
    constructor
    · rintro ⟨p, ⟨⟨k, hk⟩, hq⟩, rfl⟩
      have := hid k p hk
      subst this
      exact ⟨p, hk, hq⟩
    · rintro ⟨p, hp, hq⟩
      exact ⟨p, ⟨⟨bid, hp⟩, hq⟩, hid bid p hp⟩

theorem SledStore.getMetadata_ok (s : SledStore) (bid : String) (p : Pack) :
    s.getMetadata bid = .ok (some p) ↔ AList.get? s.metadata bid = some p := by
  unfold getMetadata
  cases AList.get? s.metadata bid <;> simp

namespace Tcpcl

theorem Sess.foldl_send_refuse (segs : List XferSeg) (s : Sess) :
    (segs.foldl (fun s seg => s.send (.xferSeg seg)) s).refuseExisting = s.refuseExisting := by
  induction segs generalizing s with
  | nil => rfl
  | cons x xs ih => exact ih _

theorem Sess.sendBundle_refuse (s : Sess) (data : Bytes) (req : Nat) :
    (s.sendBundle data req).refuseExisting = s.refuseExisting := by
  unfold Sess.sendBundle
  split
  · rfl
  · simp only
    split
    · rfl
    · simp only [Sess.foldl_send_refuse]

theorem Sess.step_refuse (e : Env) (s : Sess) (ev : Sess.Ev) : (s.step e ev).refuseExisting = s.refuseExisting := by
  unfold Sess.step
  split
  · rfl
  · cases ev with
    | recv p =>
      cases p with
      | keepAlive => simp only; split <;> rfl
      | xferSeg d =>
        simp only [Sess.receive, Sess.receiveSeg]
        split
        · split
          · rfl
          · split
            · rfl
            · split
              · unfold Sess.processBundle; split <;> rfl
              · rfl
        · split
          · rfl
          · split
            · rfl
            · split
              · unfold Sess.processBundle; split <;> rfl
              · rfl
        · rfl
      | xferAck a =>
        simp only [Sess.receive]
        split
        · split
          · rfl
          · exact Sess.sendBundle_refuse ..
        · split
          · rfl
          · split <;> rfl
        · rfl
      | xferRefuse r t =>
        simp only [Sess.receive]
        split
        · split <;> rfl
        · split <;> rfl
        · rfl
      | sessTerm r t => simp only [Sess.receive]; split <;> rfl
      | _ => rfl
    | request data =>
      simp only
      split
      · simp only [Sess.request]
        split
        · split <;> rfl
        · rw [Sess.sendBundle_refuse]
      · rfl
    | closed => simp only; split <;> rfl
    | timeout =>
      simp only
      split <;> split <;> rfl
    | lost => rfl

theorem Sess.run_refuse (e : Env) (s : Sess) (evs : List ((Bytes → Bool) × Sess.Ev)) :
    (s.run e evs).refuseExisting = s.refuseExisting := by
  unfold Sess.run
  induction evs generalizing s with
  | nil => rfl
  | cons x xs ih => simp only [List.foldl_cons]; rw [ih, Sess.step_refuse]

end Tcpcl
end Dtn
