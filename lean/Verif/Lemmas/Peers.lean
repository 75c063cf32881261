import Verif.Lemmas.Peer
import Verif.Spec.Peers
/-! Lemmas about the peer table. -/

namespace Dtn.Peers
open Dtn Spec

/-- Representation invariant: one entry per key, and the key is the peer's node name. -/
structure Inv (ps : Peers) : Prop where
  wf : AList.WF ps
  key : ∀ n p, AList.get? ps n = some p → p.eid.node = some n

theorem Inv.nil : Inv [] := ⟨AList.wf_nil, by simp [AList.get?]⟩

theorem silence_eq (now : Nat) (p : Peer) : silence now p = Peer.sinceContact now p.lastContact := by
  unfold silence Peer.sinceContact
  by_cases h : p.lastContact ≤ now
  · rw [if_pos h, if_neg (by omega)]
  · rw [if_neg h, if_pos (by omega)]; omega

theorem alive_iff (cfg : PeerCfg) (now : Nat) (p : Peer) :
    (decide (p.conType = .static) || p.stillValid cfg now) = true ↔ Alive cfg now p := by
  unfold Alive Peer.stillValid timeoutSecs
  rw [silence_eq]
  by_cases hs : p.conType = .static
  · simp [hs]
  · simp only [hs, decide_false, Bool.false_or, if_false, false_or]
    cases p.period with
    | none => simp
    | some ms =>
      simp only
      by_cases hc : cfg.custom = true ∧ 0 < cfg.timeout
      · simp [hc]
      · have : ¬ ((cfg.custom && decide (cfg.timeout > 0)) = true) := by simpa using hc
        rw [if_neg this, if_neg hc]
        simp only [decide_eq_true_eq]
        omega

theorem get?_filter_wf (ps : Peers) (h : AList.WF ps) (f : Peer → Bool) (n : String) :
    AList.get? (ps.filter fun e => f e.2) n = (AList.get? ps n).filter f := by
  induction ps with
  | nil => rfl
  | cons e ps ih =>
    obtain ⟨k, v⟩ := e
    have hwf : AList.WF ps := (List.nodup_cons.1 h).2
    have hk : k ∉ AList.keys ps := (List.nodup_cons.1 h).1
    by_cases hf : f v = true
    · rw [List.filter_cons_of_pos (by simpa using hf)]
      rw [AList.get?_cons, AList.get?_cons]
      by_cases hkn : k = n
      · simp [hkn, Option.filter, hf]
      · simp [hkn, ih hwf]
    · rw [List.filter_cons_of_neg (by simpa using hf), ih hwf, AList.get?_cons]
      by_cases hkn : k = n
      · subst hkn
        rw [(AList.get?_eq_none_iff ps k).2 hk]
        simp [Option.filter, hf]
      · simp [hkn]

theorem wf_filter (ps : Peers) (h : AList.WF ps) (f : String × Peer → Bool) : AList.WF (ps.filter f) := by
  unfold AList.WF AList.keys at *
  exact List.Nodup.sublist (List.Sublist.map _ List.filter_sublist) h

theorem process_eq (cfg : PeerCfg) (now : Nat) (ps : Peers) :
    (ps.process cfg now).1 = ps.filter fun e => (fun p : Peer => decide (Alive cfg now p)) e.2 := by
  unfold process
  apply List.filter_congr
  intro e _
  rw [Bool.eq_iff_iff, alive_iff]; simp

theorem Inv.step {ps : Peers} (h : Inv ps) (op : Op) : Inv (ps.step op) := by
  cases op with
  | add p =>
    cases hn : p.eid.node with
    | none => simp only [Peers.step, Peers.add, hn]; exact h
    | some n =>
      simp only [Peers.step, Peers.add, hn]
      refine ⟨h.wf.insert _ _, ?_⟩
      intro m q hq
      simp only [AList.get?_insert] at hq
      split at hq
      · rename_i hm; subst hm; injection hq with hq; subst hq; exact hn
      · exact h.key m q hq
  | remove n =>
    refine ⟨h.wf.erase _, ?_⟩
    intro m q hq
    simp only [Peers.step, Peers.remove, AList.get?_erase] at hq
    split at hq
    · cases hq
    · exact h.key m q hq
  | touch now n =>
    cases hg : AList.get? ps n with
    | none => simp only [Peers.step, Peers.touch, hg]; exact h
    | some p =>
      simp only [Peers.step, Peers.touch, hg]
      refine ⟨h.wf.insert _ _, ?_⟩
      intro m q hq
      simp only [AList.get?_insert] at hq
      split at hq
      · rename_i hm; subst hm; injection hq with hq; subst hq; exact h.key _ p hg
      · exact h.key m q hq
  | check cfg now =>
    simp only [Peers.step]
    rw [process_eq]
    refine ⟨wf_filter _ h.wf _, ?_⟩
    intro m q hq
    rw [get?_filter_wf ps h.wf (fun p : Peer => decide (Alive cfg now p)) m] at hq
    exact h.key m q (Option.eq_some_of_filter_eq_some hq)
  | fail n =>
    cases hg : AList.get? ps n with
    | none => simp only [Peers.step, Peers.reportFail, Peers.failCount, hg]; exact h
    | some p =>
      simp only [Peers.step, Peers.reportFail, Peers.failCount, hg]
      have h1 : Inv (AList.insert ps n p.reportFail) := by
        refine ⟨h.wf.insert _ _, ?_⟩
        intro m q hq
        simp only [AList.get?_insert] at hq
        split at hq
        · rename_i hm; subst hm; injection hq with hq; subst hq; exact h.key _ p hg
        · exact h.key m q hq
      split
      · refine ⟨h1.wf.erase _, ?_⟩
        intro m q hq
        simp only [Peers.failRemove, AList.get?_erase] at hq
        split at hq
        · cases hq
        · exact h1.key m q hq
      · exact h1

theorem Inv.run {ps : Peers} (h : Inv ps) (ops : List Op) : Inv (ps.run ops) := by
  induction ops generalizing ps with
  | nil => exact h
  | cons op ops ih => exact ih (h.step op)

/-- One step, seen at one node name. -/
theorem get?_step {ps : Peers} (h : Inv ps) (op : Op) (n : String) :
    AList.get? (ps.step op) n = entry n (AList.get? ps n) [op] := by
  cases op with
  | add p =>
    simp only [Peers.step, Peers.add, entry]
    cases hn : p.eid.node with
    | none => simp
    | some m =>
      simp only [AList.get?_insert, Option.some.injEq]
      by_cases hm : m = n
      · simp [hm]
      · simp [hm, Ne.symm hm]
  | remove m =>
    simp only [Peers.step, Peers.remove, entry, AList.get?_erase]
    by_cases hm : m = n
    · simp [hm]
    · simp [hm, Ne.symm hm]
  | touch now m =>
    simp only [Peers.step, Peers.touch, entry]
    cases hg : AList.get? ps m with
    | none =>
      by_cases hm : m = n
      · subst hm; simp [hg]
      · simp [hm]
    | some p =>
      simp only [AList.get?_insert]
      by_cases hm : m = n
      · subst hm; simp [hg, Peer.touch]
      · simp [hm, Ne.symm hm]
  | check cfg now =>
    simp only [Peers.step, process_eq, entry]
    rw [get?_filter_wf ps h.wf (fun p : Peer => decide (Alive cfg now p)) n]
    cases hg : AList.get? ps n with
    | none => simp
    | some p => by_cases ha : Alive cfg now p <;> simp [ha, Option.filter]
  | fail m =>
    simp only [Peers.step, Peers.reportFail, Peers.failCount, entry]
    cases hg : AList.get? ps m with
    | none =>
      by_cases hm : m = n
      · subst hm; simp [hg, Peers.failRemove]
      · simp [hm, Peers.failRemove]
    | some p =>
      have hk := h.key m p hg
      have hnn : p.reportFail.nodeName = m := by simp [Peer.nodeName, Peer.reportFail, hk]
      by_cases hc : p.conType = .dynamic ∧ 4 ≤ (p.fails + 1) % 2 ^ 16
      · have h1 : (p.reportFail.failedTooMuch && decide (p.reportFail.conType = .dynamic)) = true := by
          simp only [Peer.reportFail, Peer.failedTooMuch, hc.1, decide_true, Bool.and_true, decide_eq_true_eq]
          omega
        simp only [h1, if_true, Peers.failRemove, hnn, AList.get?_erase, AList.get?_insert]
        by_cases hm : m = n
        · subst hm; simp [hg, hc]
        · simp [hm, Ne.symm hm]
      · have h1 : ¬ (p.reportFail.failedTooMuch && decide (p.reportFail.conType = .dynamic)) = true := by
          intro h2
          rw [Bool.and_eq_true, Peer.failedTooMuch, decide_eq_true_eq, decide_eq_true_eq] at h2
          apply hc
          refine ⟨h2.2, ?_⟩
          have := h2.1
          simp only [Peer.reportFail] at this
          omega
        dsimp only
        rw [if_neg h1]
        simp only [Peers.failRemove, AList.get?_insert]
        by_cases hm : m = n
        · subst hm
          simp only [if_true, hg]
          rw [if_neg hc]; rfl
        · simp [hm, Ne.symm hm]

theorem entry_append (n : String) (cur : Option Peer) (l1 l2 : List Op) :
    entry n cur (l1 ++ l2) = entry n (entry n cur l1) l2 := by
  induction l1 generalizing cur with
  | nil => simp [entry]
  | cons op l1 ih =>
    cases op with
    | add p => simp only [List.cons_append, entry]; split <;> exact ih _
    | remove m => simp only [List.cons_append, entry]; split <;> exact ih _
    | touch now m => simp only [List.cons_append, entry]; split <;> exact ih _
    | check cfg now =>
      cases cur with
      | none => simp only [List.cons_append, entry]; exact ih _
      | some p => simp only [List.cons_append, entry]; split <;> exact ih _
    | fail m =>
      simp only [List.cons_append, entry]
      split
      · cases cur with
        | none => exact ih _
        | some p => simp only; split <;> exact ih _
      · exact ih _

theorem get?_run {ps : Peers} (h : Inv ps) (ops : List Op) (n : String) :
    AList.get? (ps.run ops) n = entry n (AList.get? ps n) ops := by
  induction ops generalizing ps with
  | nil => simp [Peers.run, entry]
  | cons op ops ih =>
    show AList.get? ((ps.step op).run ops) n = _
    rw [ih (h.step op), get?_step h]
    rw [show op :: ops = [op] ++ ops from rfl, entry_append]

/-- `peers_get_for_node` is the lookup of the node name. -/
theorem getForNode_eq {ps : Peers} (h : Inv ps) (eid : EID) (n : String) (hn : eid.node = some n) :
    ps.getForNode eid = AList.get? ps n := by
  have hkey := h.key
  have hwf := h.wf
  clear h
  unfold getForNode
  rw [hn]
  induction ps with
  | nil => rfl
  | cons e ps ih =>
    obtain ⟨k, v⟩ := e
    have hk : v.eid.node = some k := hkey k v (by simp [AList.get?_cons])
    have hv : v.nodeName = k := by simp [Peer.nodeName, hk]
    have hwf' := List.nodup_cons.1 hwf
    rw [AList.get?_cons]
    by_cases hkn : k = n
    · subst hkn
      simp [AList.values, hv]
    · rw [if_neg hkn]
      rw [← ih ?_ hwf'.2]
      · simp [AList.values, hv, hkn]
      · intro m q hq
        apply hkey m q
        rw [AList.get?_cons, if_neg]
        · exact hq
        · rintro rfl
          have := (AList.get?_eq_none_iff ps k).2 hwf'.1
          rw [this] at hq; cases hq

end Dtn.Peers
