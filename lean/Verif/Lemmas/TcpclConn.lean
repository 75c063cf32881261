import Verif.Lemmas.TcpclPair
/-! Two sessions of this implementation at the ends of a connection: no transfer of a bundle fails, and none is left waiting when
everything written has been read. -/

namespace Dtn.Tcpcl
open Dtn.Spec

/-- What one event does to the sending side of a session. -/
inductive TxMove (s s' : Sess) : Sess.Ev → Prop
  | same {ev : Sess.Ev} : SameTx s s' → (∀ p, ev = .recv p → isResp p = false) → TxMove s s' ev
  | small {a : XferAck} {len req : Nat} : s.tx = .sending len req → a.tid = s.lastTid → a.len < len → SameTx s s' → TxMove s s' (.recv (.xferAck a))
  | granted {a : XferAck} {data : Bytes} {req : Nat} : s.tx = .transferRequest data req → a.tid = s.lastTid → s'.lastTid = s.lastTid →
      s'.refuseExisting = s.refuseExisting → s'.requests = s.requests →
      (s'.tx = .sending data.length req ∧ s'.results = s.results ∨ s'.tx = .idle ∧ data = [] ∧ s'.results = s.results ++ [(req, .failure)]) →
      TxMove s s' (.recv (.xferAck a))
  | acked {a : XferAck} {len req : Nat} : s.tx = .sending len req → a.tid = s.lastTid → len ≤ a.len → s'.lastTid = s.lastTid →
      s'.refuseExisting = s.refuseExisting → s'.requests = s.requests → s'.tx = .idle → s'.results = s.results ++ [(req, .successful)] →
      TxMove s s' (.recv (.xferAck a))
  | refused {r : RefuseReason} {data : Bytes} {req : Nat} : s.tx = .transferRequest data req → s'.lastTid = s.lastTid →
      s'.refuseExisting = s.refuseExisting → s'.requests = s.requests → s'.tx = .idle → s'.results = s.results ++ [(req, .successful)] →
      TxMove s s' (.recv (.xferRefuse r s.lastTid))
  | failed {r : RefuseReason} {len req : Nat} : s.tx = .sending len req → s'.lastTid = s.lastTid →
      s'.refuseExisting = s.refuseExisting → s'.requests = s.requests → s'.tx = .idle → s'.results = s.results ++ [(req, .failure)] →
      TxMove s s' (.recv (.xferRefuse r s.lastTid))
  | request {data : Bytes} : s.tx = .idle → s'.lastTid = s.lastTid + 1 → s'.refuseExisting = s.refuseExisting → s'.requests = s.requests ++ [data] →
      (s'.tx = .transferRequest data s.requests.length ∧ s'.results = s.results ∨
        s'.tx = .sending data.length s.requests.length ∧ s.refuseExisting = false ∧ s'.results = s.results ∨
        s'.tx = .idle ∧ data = [] ∧ s'.results = s.results ++ [(s.requests.length, .failure)]) → TxMove s s' (.request data)

theorem sendBundle_tx (s : Sess) (hm : 0 < s.segmentMru) (data : Bytes) (req : Nat) :
    (s.sendBundle data req).lastTid = s.lastTid ∧ (s.sendBundle data req).refuseExisting = s.refuseExisting ∧
    (s.sendBundle data req).requests = s.requests ∧
    ((s.sendBundle data req).tx = .sending data.length req ∧ (s.sendBundle data req).results = s.results ∨
      (s.sendBundle data req).tx = .idle ∧ data = [] ∧ (s.sendBundle data req).results = s.results ++ [(req, .failure)]) := by
  unfold Sess.sendBundle
  rw [if_neg (by omega)]
  simp only
  split
  · next h =>
    have := (segments_spec (refuse := s.refuseExisting) (tid := s.lastTid) (data := data) hm).1.mp h
    exact ⟨rfl, rfl, rfl, .inr ⟨rfl, this, rfl⟩⟩
  · rw [foldl_send_fields]
    exact ⟨rfl, rfl, rfl, .inl ⟨rfl, rfl⟩⟩

theorem step_tx {e : Env} {s : Sess} (hm : 0 < s.segmentMru) (hs : s.isTerminated = false) (ev : Sess.Ev)
    (ht : (s.step e ev).isTerminated = false) : TxMove s (s.step e ev) ev := by
  have hdead : ∀ {s' : Sess}, s' = s.terminated → s'.isTerminated = false → False := by
    rintro _ rfl h
    simp [Sess.terminated, Sess.isTerminated] at h
  cases ev with
  | recv p =>
    by_cases hk : p = .keepAlive
    · subst hk
      exact .same (step_keepAlive_tx hs) (by rintro p ⟨⟩; rfl)
    have hstep := step_recv (e := e) hs hk
    have ht' : (s.receive e p).isTerminated = false := by rw [hstep] at ht; exact ht
    rw [hstep]
    cases p with
    | xferAck a =>
      simp only [Sess.receive] at ht' ⊢
      split at ht'
      · next data req heq =>
        split at ht'
        · exact (hdead rfl ht').elim
        · next htid =>
          have hsb := sendBundle_tx s hm data req
          rw [if_neg htid]
          exact .granted heq (by simpa using htid) hsb.1 hsb.2.1 hsb.2.2.1 hsb.2.2.2
      · next len req heq =>
        split at ht'
        · exact (hdead rfl ht').elim
        · next htid =>
          rw [if_neg htid]
          by_cases hl : a.len < len
          · rw [if_pos hl]
            exact .small heq (by simpa using htid) hl (SameTx.keep s)
          · rw [if_neg hl]
            exact .acked heq (by simpa using htid) (by omega) rfl rfl rfl rfl rfl
      · exact (hdead rfl ht').elim
    | xferRefuse r t =>
      simp only [Sess.receive] at ht' ⊢
      split at ht'
      · next data req heq =>
        split at ht'
        · exact (hdead rfl ht').elim
        · next htid =>
          rw [if_neg htid]
          have : t = s.lastTid := by simpa using htid
          rw [this]
          exact .refused heq rfl rfl rfl rfl rfl
      · next len req heq =>
        split at ht'
        · exact (hdead rfl ht').elim
        · next htid =>
          rw [if_neg htid]
          have : t = s.lastTid := by simpa using htid
          rw [this]
          exact .failed heq rfl rfl rfl rfl rfl
      · exact (hdead rfl ht').elim
    | xferSeg d => exact .same ((SameTx.receiveSeg e s hs d).trans (SameTx.keep _)) (by rintro p ⟨⟩; rfl)
    | keepAlive => exact absurd rfl hk
    | sessTerm reply reason =>
      simp [Sess.receive, Sess.terminated, Sess.isTerminated] at ht'
    | _ => exact (hdead rfl ht').elim
  | request data =>
    unfold Sess.step at ht ⊢
    simp only [hs, Bool.false_eq_true, if_false] at ht ⊢
    split
    · next hi =>
      rw [if_pos hi] at ht
      unfold Sess.request at ht ⊢
      simp only at ht ⊢
      split
      · next hr =>
        rw [if_pos hr] at ht
        split
        · exact .request hi rfl rfl rfl (.inl ⟨rfl, rfl⟩)
        · next hp =>
          rw [if_neg hp] at ht
          simp [Sess.terminated, Sess.isTerminated] at ht
      · next hr =>
        have hsb := sendBundle_tx { s with lastTid := s.lastTid + 1, requests := s.requests ++ [data], keepaliveSent := false, keepaliveReceived := false } hm data s.requests.length
        refine .request hi hsb.1 hsb.2.1 hsb.2.2.1 ?_
        rcases hsb.2.2.2 with ⟨h1, h2⟩ | h
        · exact .inr (.inl ⟨h1, by simpa using hr, h2⟩)
        · exact .inr (.inr h)
    · exact .same (SameTx.refl s) (by rintro p ⟨⟩)
  | closed =>
    unfold Sess.step at ht ⊢
    simp only [hs, Bool.false_eq_true, if_false] at ht ⊢
    split at ht
    · simp [Sess.terminate, Sess.terminated, Sess.isTerminated] at ht
    · next hi =>
      rw [if_neg hi]
      exact .same (SameTx.refl s) (by rintro p ⟨⟩)
  | timeout => exact .same (step_timeout_tx hs) (by rintro p ⟨⟩)
  | lost =>
    unfold Sess.step at ht
    simp only [hs, Bool.false_eq_true, if_false] at ht
    exact (hdead rfl ht).elim

theorem step_live {e : Env} {s : Sess} {ev : Sess.Ev} (ht : (s.step e ev).isTerminated = false) : s.isTerminated = false := by
  by_cases h : s.isTerminated = true
  · unfold Sess.step at ht
    rw [if_pos h] at ht
    exact ht
  · simpa using h

/-- The lengths acknowledged for transfer `n`. -/
def ackLens (n : Nat) (rec : List Packet) : List Nat := (acksIn rec).filterMap fun x => if x.1 = n then some x.2 else none

theorem ackLens_append (n : Nat) (a b : List Packet) : ackLens n (a ++ b) = ackLens n a ++ ackLens n b := by
  simp [ackLens, acksIn_append, List.filterMap_append]

/-- What a session that waits for an answer has not read. -/
structure Waits (s : Sess) (rec : List Packet) : Prop where
  acks : ∀ x ∈ acksIn rec, x.1 ≤ s.lastTid
  refs : ∀ r t, .xferRefuse r t ∈ rec → t ≤ s.lastTid
  request : ∀ data req, s.tx = .transferRequest data req → ackLens s.lastTid rec = [] ∧ ∀ r, .xferRefuse r s.lastTid ∉ rec
  sending : ∀ len req, s.tx = .sending len req → (∀ r, .xferRefuse r s.lastTid ∉ rec) ∧
    (s.refuseExisting = false → ∀ n ∈ ackLens s.lastTid rec, n < len) ∧
    (s.refuseExisting = true → ackLens s.lastTid rec ≠ [] ∧ ∀ n ∈ (ackLens s.lastTid rec).tail, n < len)

theorem Waits.same {s s' : Sess} {rec rec' : List Packet} (h : Waits s rec) (hs : SameTx s s') (ht : s'.isTerminated = false)
    (ha : acksIn rec' = acksIn rec) (hr : ∀ r t, .xferRefuse r t ∈ rec' → .xferRefuse r t ∈ rec) : Waits s' rec' := by
  have htx : s'.tx = s.tx := by
    rcases hs.tx with e | e
    · exact e
    · rw [ht] at e; cases e
  have hl : ∀ n, ackLens n rec' = ackLens n rec := fun n => by unfold ackLens; rw [ha]
  refine ⟨?_, ?_, ?_, ?_⟩
  · rw [ha, hs.tid]; exact h.acks
  · intro r t hx; rw [hs.tid]; exact h.refs r t (hr r t hx)
  · intro data req hx
    rw [htx] at hx
    rw [hl, hs.tid]
    exact ⟨(h.request data req hx).1, fun r hr' => (h.request data req hx).2 r (hr _ _ hr')⟩
  · intro len req hx
    rw [htx] at hx
    rw [hl, hs.tid, hs.refuse]
    exact ⟨fun r hr' => (h.sending len req hx).1 r (hr _ _ hr'), (h.sending len req hx).2⟩

theorem ackLens_high {s : Sess} {rec : List Packet} (h : ∀ x ∈ acksIn rec, x.1 ≤ s.lastTid) : ackLens (s.lastTid + 1) rec = [] := by
  unfold ackLens
  rw [List.filterMap_eq_nil_iff]
  intro x hx
  have := h x hx
  rw [if_neg (by omega)]

theorem acks_resp {p : Packet} (h : isResp p = false) : acksIn [p] = [] ∧ ∀ r t, .xferRefuse r t ∉ [p] := by
  cases p <;> simp_all [isResp, acksIn]

theorem waits_move {s s' : Sess} {rec : List Packet} (h : Waits s rec) {ev : Sess.Ev} {has : Bytes → Bool} (hm : TxMove s s' ev)
    (hrf : ∀ data req, s.tx = .transferRequest data req → s.refuseExisting = true)
    (ht : s'.isTerminated = false) : Waits s' (rec ++ recvs [(has, ev)]) := by
  cases hm with
  | same hs hp =>
    have : ∀ p, ev = .recv p → acksIn [p] = [] ∧ ∀ r t, .xferRefuse r t ∉ [p] := fun p e => acks_resp (hp p e)
    cases ev with
    | recv p =>
      obtain ⟨h1, h2⟩ := this p rfl
      refine h.same hs ht ?_ ?_
      · rw [acksIn_append]
        show acksIn rec ++ acksIn [p] = _
        rw [h1, List.append_nil]
      · intro r t hx
        rcases List.mem_append.mp hx with hx | hx
        · exact hx
        · exact absurd hx (h2 r t)
    | _ => exact h.same hs ht (by show acksIn (rec ++ []) = _; rw [List.append_nil]) (by intro r t hx; simpa [recvs] using hx)
  | @small a len req htx htid hlt hs =>
    have hrec : recvs [(has, .recv (.xferAck a))] = [.xferAck a] := rfl
    rw [hrec]
    have htx' : s'.tx = s.tx := by
      rcases hs.tx with e | e
      · exact e
      · rw [ht] at e; cases e
    have hl : ackLens s.lastTid [Packet.xferAck a] = [a.len] := by simp [ackLens, acksIn, htid]
    refine ⟨?_, ?_, ?_, ?_⟩
    · intro x hx
      rw [hs.tid]
      rw [acksIn_append] at hx
      rcases List.mem_append.mp hx with hx | hx
      · exact h.acks x hx
      · simp [acksIn] at hx
        rw [hx, ← htid]
        exact Nat.le_refl _
    · intro r t hx
      rw [hs.tid]
      exact h.refs r t (by simpa using hx)
    · intro data req' hx
      rw [htx', htx] at hx
      cases hx
    · intro len' req' hx
      rw [htx', htx] at hx
      cases hx
      obtain ⟨h1, h2, h3⟩ := h.sending len req htx
      rw [hs.tid, hs.refuse, ackLens_append, hl]
      refine ⟨fun r hr => h1 r (by simpa using hr), ?_, ?_⟩
      · intro hf n hn
        rcases List.mem_append.mp hn with hn | hn
        · exact h2 hf n hn
        · simp at hn; omega
      · intro hf
        obtain ⟨h4, h5⟩ := h3 hf
        refine ⟨by simp, ?_⟩
        intro n hn
        rw [List.tail_append_of_ne_nil h4] at hn
        rcases List.mem_append.mp hn with hn | hn
        · exact h5 n hn
        · simp at hn; omega
  | @granted a data req htx htid h1 h2 h3 h4 =>
    have hrec : recvs [(has, .recv (.xferAck a))] = [.xferAck a] := rfl
    rw [hrec]
    have hl : ackLens s.lastTid [Packet.xferAck a] = [a.len] := by simp [ackLens, acksIn, htid]
    obtain ⟨g1, g2⟩ := h.request data req htx
    refine ⟨?_, ?_, ?_, ?_⟩
    · intro x hx
      rw [h1]
      rw [acksIn_append] at hx
      rcases List.mem_append.mp hx with hx | hx
      · exact h.acks x hx
      · simp [acksIn] at hx
        rw [hx, ← htid]
        exact Nat.le_refl _
    · intro r t hx
      rw [h1]
      exact h.refs r t (by simpa using hx)
    · intro d r hx
      rcases h4 with ⟨e, _⟩ | ⟨e, _⟩ <;> rw [e] at hx <;> cases hx
    · intro len' req' hx
      rw [h1, h2, ackLens_append, hl, g1, hrf data req htx]
      refine ⟨fun r hr => g2 r (by simpa using hr), by simp, fun _ => ⟨by simp, by simp⟩⟩
  | @acked a len req htx htid hle h1 h2 h3 h4 h5 =>
    have hrec : recvs [(has, .recv (.xferAck a))] = [.xferAck a] := rfl
    rw [hrec]
    refine ⟨?_, ?_, ?_, ?_⟩
    · intro x hx
      rw [h1]
      rw [acksIn_append] at hx
      rcases List.mem_append.mp hx with hx | hx
      · exact h.acks x hx
      · simp [acksIn] at hx
        rw [hx, ← htid]
        exact Nat.le_refl _
    · intro r t hx
      rw [h1]
      exact h.refs r t (by simpa using hx)
    · intro d r hx; rw [h4] at hx; cases hx
    · intro d r hx; rw [h4] at hx; cases hx
  | @refused r data req htx h1 h2 h3 h4 h5 =>
    have hrec : recvs [(has, .recv (.xferRefuse r s.lastTid))] = [.xferRefuse r s.lastTid] := rfl
    rw [hrec]
    refine ⟨?_, ?_, ?_, ?_⟩
    · intro x hx
      rw [h1]
      exact h.acks x (by simpa [acksIn_append, acksIn] using hx)
    · intro r' t hx
      rw [h1]
      rcases List.mem_append.mp hx with hx | hx
      · exact h.refs r' t hx
      · simp at hx; omega
    · intro d r hx; rw [h4] at hx; cases hx
    · intro d r hx; rw [h4] at hx; cases hx
  | @failed r len req htx h1 h2 h3 h4 h5 =>
    have hrec : recvs [(has, .recv (.xferRefuse r s.lastTid))] = [.xferRefuse r s.lastTid] := rfl
    rw [hrec]
    refine ⟨?_, ?_, ?_, ?_⟩
    · intro x hx
      rw [h1]
      exact h.acks x (by simpa [acksIn_append, acksIn] using hx)
    · intro r' t hx
      rw [h1]
      rcases List.mem_append.mp hx with hx | hx
      · exact h.refs r' t hx
      · simp at hx; omega
    · intro d r hx; rw [h4] at hx; cases hx
    · intro d r hx; rw [h4] at hx; cases hx
  | @request data hi h1 h2 h3 h4 =>
    have hrec : recvs [(has, Sess.Ev.request data)] = [] := rfl
    rw [hrec, List.append_nil]
    have hno : ∀ r, .xferRefuse r (s.lastTid + 1) ∉ rec := by
      intro r hr
      have := h.refs r _ hr
      omega
    refine ⟨?_, ?_, ?_, ?_⟩
    · intro x hx; rw [h1]; have := h.acks x hx; omega
    · intro r t hx; rw [h1]; have := h.refs r t hx; omega
    · intro d r hx
      rw [h1, ackLens_high h.acks]
      exact ⟨rfl, hno⟩
    · intro len' req' hx
      rw [h1, h2, ackLens_high h.acks]
      rcases h4 with ⟨e, _⟩ | ⟨_, e, _⟩ | ⟨e, _⟩
      · rw [e] at hx; cases hx
      · rw [e]
        exact ⟨hno, by simp, by simp⟩
      · rw [e] at hx; cases hx

theorem waits_run {e : Env} {refuse : Bool} {loc rem : SessInit} (hm : 0 < rem.segmentMru) (evs : List ((Bytes → Bool) × Sess.Ev)) :
    ((newSess refuse loc rem).run e evs).isTerminated = false → Waits ((newSess refuse loc rem).run e evs) (recvs evs) := by
  induction evs using List.reverseRecOn with
  | nil =>
    intro _
    exact ⟨by simp [recvs, acksIn], by simp [recvs], by intro d r h; simp [Sess.run, newSess] at h, by intro d r h; simp [Sess.run, newSess] at h⟩
  | append_singleton evs x ih =>
    rw [run_snoc, recvs_snoc]
    intro ht
    have hlive := step_live ht
    obtain ⟨parts, htx⟩ := TxShape.run hm evs (TxShape.fresh e refuse loc rem)
    obtain ⟨has, ev⟩ := x
    refine waits_move (ih hlive) (step_tx (by rw [htx.hmru]; exact hm) hlive _ ht) ?_ ht
    intro data req hx
    have := htx.tx
    rw [hlive, hx] at this
    simp only [Bool.false_eq_true, false_or] at this
    rw [htx.hrefuse]
    exact this.2.2.2.1

/-- What a session gave as failure: an empty bundle, or one that was refused while it was being sent. -/
theorem failure_event {e : Env} {refuse : Bool} {loc rem : SessInit} (hm : 0 < rem.segmentMru) (evs : List ((Bytes → Bool) × Sess.Ev)) {k : Nat}
    (hk : (k, .failure) ∈ ((newSess refuse loc rem).run e evs).results) :
    ((newSess refuse loc rem).run e evs).requests[k]? = some [] ∨
    ∃ r, .xferRefuse r (k + 1) ∈ recvs evs ∧ (refuse = true → ∃ n, (k + 1, n) ∈ acksIn (recvs evs)) := by
  induction evs using List.reverseRecOn with
  | nil => simp [Sess.run, newSess] at hk
  | append_singleton evs x ih =>
    rw [run_snoc] at hk ⊢
    rw [recvs_snoc]
    have hmono := (step_out { e with hasItem := x.1 } ((newSess refuse loc rem).run e evs) x.2).2
    by_cases hold : (k, TransferResult.failure) ∈ ((newSess refuse loc rem).run e evs).results
    · rcases ih hold with h | ⟨r, h1, h2⟩
      · left
        obtain ⟨t, ht⟩ := hmono
        rw [← ht, List.getElem?_append_left (List.getElem?_eq_some_iff.mp h).1]
        exact h
      · refine .inr ⟨r, List.mem_append_left _ h1, fun hr => ?_⟩
        obtain ⟨n, hn⟩ := h2 hr
        exact ⟨n, by rw [acksIn_append]; exact List.mem_append_left _ hn⟩
    · obtain ⟨parts, htx⟩ := TxShape.run hm evs (TxShape.fresh e refuse loc rem)
      have hw := waits_run (e := e) (refuse := refuse) (loc := loc) hm evs
      generalize (newSess refuse loc rem).run e evs = s at hk hold htx hw hmono ⊢
      by_cases ht : (s.step { e with hasItem := x.1 } x.2).isTerminated = true
      · exfalso
        by_cases hs : s.isTerminated = true
        · unfold Sess.step at hk
          rw [if_pos hs] at hk
          exact hold hk
        · have hs : s.isTerminated = false := by simpa using hs
          have hres : ∀ s' : Sess, s'.results = s.results → (k, TransferResult.failure) ∉ s'.results := fun s' h => by rw [h]; exact hold
          obtain ⟨has, ev⟩ := x
          cases ev with
          | recv p =>
            by_cases hkp : p = .keepAlive
            · subst hkp
              exact hres _ (step_keepAlive_tx hs).results hk
            rw [step_recv hs hkp] at hk ht
            replace hk : (k, TransferResult.failure) ∈ (s.receive { e with hasItem := has } p).results := hk
            replace ht : (s.receive { e with hasItem := has } p).isTerminated = true := ht
            have hrx : s.rx ≠ .terminated := by intro hh; simp [Sess.isTerminated, hh] at hs
            cases p with
            | xferSeg d => exact hres _ (SameTx.receiveSeg _ s hs d).results hk
            | xferAck a =>
              simp only [Sess.receive] at hk ht
              split at hk
              · next data req heq =>
                simp only [heq] at ht
                split at hk
                · exact hold hk
                · next hne =>
                  rw [if_neg hne] at ht
                  obtain ⟨_, _, _, h4⟩ := sendBundle_tx s (by rw [htx.hmru]; exact hm) data req
                  have h5 := (sendBundle_rx s data req).1
                  have h6 : (s.sendBundle data req).rx = s.rx := by
                    unfold Sess.sendBundle
                    rw [if_neg (by rw [htx.hmru]; omega)]
                    simp only
                    split
                    · rfl
                    · rw [foldl_send_fields]
                  rw [isTerminated_iff, h6] at ht
                  rcases ht with ht | ht
                  · exact hrx ht
                  · rcases h4 with ⟨h4, _⟩ | ⟨h4, _⟩ <;> rw [h4] at ht <;> cases ht
              · next len req heq =>
                split at hk
                · exact hold hk
                · split at hk
                  · exact hold hk
                  · simp [Sess.respond] at hk
                    exact hold hk
              · exact hold hk
            | xferRefuse r t =>
              simp only [Sess.receive] at hk ht
              split at hk
              · next data req heq =>
                split at hk
                · exact hold hk
                · simp [Sess.respond] at hk
                  exact hold hk
              · next len req heq =>
                simp only [heq] at ht
                split at hk
                · exact hold hk
                · next hne =>
                  rw [if_neg hne, isTerminated_iff] at ht
                  rcases ht with ht | ht
                  · exact hrx ht
                  · cases ht
              · exact hold hk
            | sessTerm reply reason =>
              simp only [Sess.receive] at hk
              split at hk
              · exact hold hk
              · exact hold hk
            | _ => exact hold hk
          | request data =>
            unfold Sess.step at hk ht
            simp only [hs, Bool.false_eq_true, if_false] at hk ht
            split at hk
            · next hi =>
              rw [if_pos hi] at ht
              unfold Sess.request at hk ht
              simp only at hk ht
              split at hk
              · split at hk
                · exact hold hk
                · exact hold hk
              · next hr =>
                rw [if_neg hr] at ht
                obtain ⟨_, _, _, h4⟩ := sendBundle_tx { s with lastTid := s.lastTid + 1, requests := s.requests ++ [data], keepaliveSent := false, keepaliveReceived := false } (by show 0 < s.segmentMru; rw [htx.hmru]; exact hm) data s.requests.length
                rw [isTerminated_iff] at ht
                rcases ht with ht | ht
                · have : s.rx = .terminated := by
                    rw [← ht]
                    unfold Sess.sendBundle
                    rw [if_neg (by show s.segmentMru ≠ 0; rw [htx.hmru]; omega)]
                    simp only
                    split
                    · rfl
                    · rw [foldl_send_fields]
                  simp [Sess.isTerminated, this] at hs
                · rcases h4 with ⟨h4, _⟩ | ⟨h4, _⟩ <;> rw [h4] at ht <;> cases ht
            · exact hold hk
          | closed =>
            unfold Sess.step at hk
            simp only [hs, Bool.false_eq_true, if_false] at hk
            split at hk
            · exact hold hk
            · exact hold hk
          | timeout => exact hres _ (step_timeout_tx hs).results hk
          | lost =>
            unfold Sess.step at hk
            simp only [hs, Bool.false_eq_true, if_false] at hk
            exact hold hk
      · have ht : (s.step { e with hasItem := x.1 } x.2).isTerminated = false := by simpa using ht
        have hlive := step_live ht
        have hmove := step_tx (by rw [htx.hmru]; exact hm) hlive x.2 ht
        have hshape := htx.tx
        rw [hlive] at hshape
        simp only [Bool.false_eq_true, false_or] at hshape
        obtain ⟨has, ev⟩ := x
        simp only at hmove hk ⊢
        generalize hs' : s.step { e with hasItem := has } ev = s' at hk hmove ⊢
        cases hmove with
        | same hs hp => exact absurd (by rw [← hs.results]; exact hk) hold
        | small h1 h2 h3 hs => exact absurd (by rw [← hs.results]; exact hk) hold
        | @granted a data req htx' htid h1 h2 h3 h4 =>
          rcases h4 with ⟨_, e⟩ | ⟨_, e1, e2⟩
          · exact absurd (by rw [← e]; exact hk) hold
          · rw [e2] at hk
            simp at hk
            rcases hk with hk | hk
            · exact absurd hk hold
            · left
              rw [htx'] at hshape
              rw [h3, hk, hshape.2.1, e1]
        | acked h1 h2 h3 h4 h5 h6 h7 h8 =>
          rw [h8] at hk
          simp at hk
          exact absurd hk hold
        | refused h1 h2 h3 h4 h5 h6 =>
          rw [h6] at hk
          simp at hk
          exact absurd hk hold
        | @failed r len req htx' h1 h2 h3 h4 h5 =>
          rw [h5] at hk
          simp at hk
          rcases hk with hk | hk
          · exact absurd hk hold
          · subst hk
            rw [htx'] at hshape
            have htid : s.lastTid = k + 1 := by rw [htx.tid, ← hshape.1]
            refine .inr ⟨r, List.mem_append_right _ (by rw [htid]; exact List.mem_singleton.mpr rfl), ?_⟩
            intro hr
            obtain ⟨_, _, g⟩ := (hw hlive).sending len k htx'
            obtain ⟨g1, _⟩ := g (by rw [htx.hrefuse]; exact hr)
            obtain ⟨n, hn⟩ := List.exists_mem_of_ne_nil _ g1
            refine ⟨n, ?_⟩
            rw [acksIn_append]
            refine List.mem_append_left _ ?_
            obtain ⟨y, hy, hy'⟩ := List.mem_filterMap.mp hn
            split at hy'
            · next e =>
              cases hy'
              rw [← htid, ← e]
              exact hy
            · cases hy'
        | @request data hi h1 h2 h3 h4 =>
          rcases h4 with ⟨_, e⟩ | ⟨_, _, e⟩ | ⟨_, e1, e2⟩
          · exact absurd (by rw [← e]; exact hk) hold
          · exact absurd (by rw [← e]; exact hk) hold
          · rw [e2] at hk
            simp at hk
            rcases hk with hk | hk
            · exact absurd hk hold
            · left
              rw [h3, hk, e1]
              simp

/-! ### Refusals are written -/

theorem step_refusal {e : Env} {s : Sess} {ev : Sess.Ev} {d : XferSeg} (h : (d, false) ∈ (s.step e ev).handled) :
    (d, false) ∈ s.handled ∨ ∃ r, .xferRefuse r d.tid ∈ (s.step e ev).out := by
  by_cases hev : ∃ x, ev = .recv (.xferSeg x)
  · obtain ⟨x, rfl⟩ := hev
    by_cases hs : s.isTerminated = true
    · unfold Sess.step at h
      rw [if_pos hs] at h
      exact .inl h
    have hs : s.isTerminated = false := by simpa using hs
    rw [step_recv hs (by intro h; cases h)] at h ⊢
    simp only [Sess.receive] at h ⊢
    have hpb : ∀ (s' : Sess) buf tid, (s'.processBundle e buf tid).handled = s'.handled := by
      intro s' buf tid; unfold Sess.processBundle; split <;> rfl
    have key : ∀ hh : List (XferSeg × Bool), hh = s.handled ++ [(x, true)] → (d, false) ∈ hh → (d, false) ∈ s.handled := by
      rintro _ rfl h
      simpa using h
    unfold Sess.receiveSeg at h ⊢
    split at h
    · split at h
      · exact .inl h
      · split at h
        · exact .inl h
        · simp only at h
          split at h
          · rw [hpb] at h
            exact .inl (key _ rfl h)
          · exact .inl (key _ rfl h)
    · next hrx =>
      split at h
      · exact .inl h
      · next hf =>
        split at h
        · next hr =>
          rcases List.mem_append.mp h with h | h
          · exact .inl h
          · rw [List.mem_singleton] at h
            cases h
            refine .inr ⟨.notAcceptable, ?_⟩
            simp only [hrx]
            rw [if_neg hf, if_pos hr]
            simp [Sess.send]
        · simp only at h
          split at h
          · rw [hpb] at h
            exact .inl (key _ rfl h)
          · exact .inl (key _ rfl h)
    · exact .inl h
  · rw [step_handled.1 (fun x hx => hev ⟨x, hx⟩)] at h
    exact .inl h

theorem run_refusal (e : Env) (s0 : Sess) (h0 : s0.handled = []) (evs : List ((Bytes → Bool) × Sess.Ev)) {d : XferSeg}
    (h : (d, false) ∈ (s0.run e evs).handled) : ∃ r, .xferRefuse r d.tid ∈ (s0.run e evs).out := by
  induction evs using List.reverseRecOn with
  | nil => simp [Sess.run, h0] at h
  | append_singleton evs x ih =>
    rw [run_snoc] at h ⊢
    rcases step_refusal h with h | h
    · obtain ⟨r, hr⟩ := ih h
      exact ⟨r, (step_out _ _ _).1.subset hr⟩
    · exact h

theorem run_refuseExisting {e : Env} {refuse : Bool} {loc rem : SessInit} (hm : 0 < rem.segmentMru) (evs : List ((Bytes → Bool) × Sess.Ev)) :
    ((newSess refuse loc rem).run e evs).refuseExisting = refuse := by
  obtain ⟨_, h⟩ := TxShape.run hm evs (TxShape.fresh e refuse loc rem)
  exact h.hrefuse

/-- Only a session that looks into the store refuses. -/
theorem run_refused_set {e : Env} {refuse : Bool} {loc rem : SessInit} (hm : 0 < rem.segmentMru) (evs : List ((Bytes → Bool) × Sess.Ev)) {x : Bytes}
    (h : x ∈ ((newSess refuse loc rem).run e evs).refused) : refuse = true := by
  induction evs using List.reverseRecOn with
  | nil => simp [Sess.run, newSess] at h
  | append_singleton evs y ih =>
    rw [run_snoc] at h
    rcases step_refused h with h | ⟨_, _, h⟩
    · exact ih h
    · rw [run_refuseExisting hm] at h
      exact h

/-! ### The values acknowledged for one transfer -/

theorem ackValues_tid {l : List XferSeg} : ∀ {n t m : Nat}, (t, m) ∈ ackValues n l → ∃ d ∈ l, d.tid = t := by
  induction l with
  | nil => intro n t m h; simp [ackValues] at h
  | cons x l ih =>
    intro n t m h
    simp only [ackValues, List.mem_cons, Prod.mk.injEq] at h
    rcases h with ⟨rfl, _⟩ | h
    · exact ⟨x, by simp, rfl⟩
    · obtain ⟨d, hd, hd'⟩ := ih h
      exact ⟨d, by simp [hd], hd'⟩

theorem ackValues_last {l : List XferSeg} (hns : ∀ y ∈ l, y.flags.start = false) (hne : l ≠ []) :
    ∀ n, ∃ t, (t, n + (bytesOf l).length) ∈ ackValues n l := by
  induction l with
  | nil => exact absurd rfl hne
  | cons x l ih =>
    intro n
    have hb : (bytesOf (x :: l)).length = x.buf.length + (bytesOf l).length := by simp [bytesOf]
    simp only [ackValues, hns x (by simp), Bool.false_eq_true, if_false]
    by_cases hl : l = []
    · subst hl
      exact ⟨x.tid, by simp [bytesOf]⟩
    · obtain ⟨t, ht⟩ := ih (fun y hy => hns y (by simp [hy])) hl (n + x.buf.length)
      exact ⟨t, List.mem_cons_of_mem _ (by rw [hb, ← Nat.add_assoc]; exact ht)⟩

theorem ackValues_start {l : List XferSeg} (h : StartRun l) (n : Nat) : ackValues n l = ackValues 0 l := by
  obtain ⟨x, l, rfl, hx, hl⟩ := h
  simp [ackValues, hx]

theorem filter_tid {L : List (Nat × Nat)} {t : Nat} (h : ∀ x ∈ L, x.1 = t) :
    (L.filterMap fun x => if x.1 = t then some x.2 else none) = L.map (·.2) := by
  induction L with
  | nil => rfl
  | cons x L ih =>
    simp only [List.filterMap_cons, h x (by simp), if_true, List.map_cons]
    rw [ih (fun y hy => h y (by simp [hy]))]

theorem filter_tid_none {L : List (Nat × Nat)} {t : Nat} (h : ∀ x ∈ L, x.1 ≠ t) :
    (L.filterMap fun x => if x.1 = t then some x.2 else none) = [] := by
  rw [List.filterMap_eq_nil_iff]
  intro x hx
  rw [if_neg (h x hx)]

theorem runs_eq {gs ps : List (List XferSeg)} (hg : ∀ g ∈ gs, StartRun g) (hp : ∀ p ∈ ps, StartRun p)
    (h : gs.flatten = ps.flatten) : gs = ps := by
  have h1 := cut_runs hg hp (h ▸ List.prefix_refl _)
  have h2 := cut_runs hp hg (h ▸ List.prefix_refl _)
  apply List.ext_getElem?
  intro i
  cases hgi : gs[i]? with
  | some g =>
    obtain ⟨p, hpi, hpre⟩ := h1 i g hgi
    obtain ⟨g', hgi', hpre'⟩ := h2 i p hpi
    rw [hgi] at hgi'
    cases hgi'
    rw [hpi, hpre.eq_of_length_le hpre'.length_le]
  | none =>
    cases hpi : ps[i]? with
    | none => rfl
    | some p =>
      obtain ⟨g', hgi', _⟩ := h2 i p hpi
      rw [hgi] at hgi'
      cases hgi'

/-! ### Two sessions -/

/-- The `i`-th transfer read is a prefix of what was written for the `i`-th request. -/
theorem runs_part {e : Env} {refuse : Bool} {mru : Nat} {a : Sess} {parts groups pend} (htx : TxShape e refuse mru a parts)
    (hpartsRun : ∀ part ∈ parts, StartRun part) (hgsRun : ∀ g ∈ runsOf groups pend, StartRun g)
    (hpre : (runsOf groups pend).flatten <+: parts.flatten) {i : Nat} {l : List XferSeg} (hi : (runsOf groups pend)[i]? = some l) :
    ∃ data part, a.requests[i]? = some data ∧ parts[i]? = some part ∧ l <+: part ∧ PartOk e refuse mru (i + 1) data part ∧ ∀ d ∈ l, d.tid = i + 1 := by
  obtain ⟨part, hpart, hlp⟩ := cut_runs hgsRun hpartsRun hpre i l hi
  have hlt : i < a.requests.length := by rw [← htx.len]; exact (List.getElem?_eq_some_iff.mp hpart).1
  have hok := htx.ok i _ part (List.getElem?_eq_getElem hlt) hpart
  exact ⟨_, part, List.getElem?_eq_getElem hlt, hpart, hlp, hok, fun d hd => hok.tid d (hlp.subset hd)⟩

theorem runsOf_group {groups : List Group} {pend : List XferSeg} {i : Nat} {g : Group} (hi : groups[i]? = some g) : (runsOf groups pend)[i]? = some g.1 := by
  have hlt : i < groups.length := (List.getElem?_eq_some_iff.mp hi).1
  simp only [runsOf]
  rw [List.getElem?_append_left (by simpa using hlt), List.getElem?_map, hi]; rfl

theorem runsOf_pend {groups : List Group} {pend : List XferSeg} (h : pend ≠ []) : (runsOf groups pend)[groups.length]? = some pend := by
  simp only [runsOf]
  rw [List.getElem?_append_right (by simp)]
  simp [h]

/-- No transfer of a bundle fails between two sessions of this implementation. -/
theorem conn_no_failure (e : Env) (refuseA refuseB : Bool) (initA initB initA' initB' : SessInit)
    (hmru : 0 < initB.segmentMru) (hempty : e.parses [] = false) {a b : Sess} {evsA evsB : List ((Bytes → Bool) × Sess.Ev)}
    (ha : a = (newSess refuseA initA initB).run e evsA) (hb : b = (newSess refuseB initB' initA').run e evsB)
    (hreq : ∀ d ∈ a.requests, e.parses d = true) (hrecvA : recvs evsA <+: b.out) (hrecvB : recvs evsB <+: a.out) (k : Nat) :
    (k, .failure) ∉ a.results := by
  intro hk
  obtain ⟨_, hbroken, _⟩ := conn_delivery e refuseA refuseB initA initB initA' initB' hmru hempty ha hb hreq hrecvA hrecvB
  obtain ⟨parts, groups, pend, htx, hrx, hpartsRun, hgsRun, hpre, _⟩ :=
    conn_lined e refuseA refuseB initA initB initA' initB' hmru hempty ha hb hreq hrecvB
  rw [ha] at hk
  rcases failure_event hmru evsA hk with h | ⟨r, hr, hack⟩
  · rw [← ha] at h
    have := hreq _ (List.mem_of_getElem? h)
    rw [hempty] at this
    cases this
  · rcases hrx.refs r (k + 1) (hrecvA.subset hr) with ⟨g, hg, hnone, d, hd, hdt⟩ | hbr
    · obtain ⟨i, hi⟩ := List.getElem?_of_mem hg
      obtain ⟨data, part, h1, h2, h3, h4, h5⟩ := runs_part htx hpartsRun hgsRun hpre (runsOf_group (pend := pend) hi)
      have hik : i = k := by
        have := h5 d hd
        omega
      subst hik
      have hok := hrx.ok g hg
      unfold Group.Ok at hok
      rw [hnone] at hok
      obtain ⟨d', hg1, _, x, hx, _⟩ := hok
      cases hrf : refuseA with
      | false =>
        unfold PartOk at h4
        rw [hrf] at h4
        simp only [Bool.false_eq_true, if_false] at h4
        rw [h4.2 d' (h3.subset (by rw [hg1]; simp))] at hx
        cases hx
      | true =>
        obtain ⟨n, hn⟩ := hack hrf
        have hn : (i + 1, n) ∈ acksIn b.out := by
          obtain ⟨p, hp, hp'⟩ := List.mem_filterMap.mp hn
          exact List.mem_filterMap.mpr ⟨p, hrecvA.subset hp, hp'⟩
        rw [hrx.acks, accepted_groups hrx] at hn
        obtain ⟨y, hy, hyt⟩ := ackValues_tid hn
        rcases List.mem_append.mp hy with hy | hy
        · obtain ⟨l, hl, hyl⟩ := List.mem_flatten.mp hy
          obtain ⟨g', hg', rfl⟩ := List.mem_map.mp hl
          obtain ⟨hg1', hg2'⟩ := List.mem_filter.mp hg'
          obtain ⟨j, hj⟩ := List.getElem?_of_mem hg1'
          obtain ⟨_, _, _, _, _, _, h6⟩ := runs_part htx hpartsRun hgsRun hpre (runsOf_group (pend := pend) hj)
          have hji : j = i := by
            have := h6 y hyl
            omega
          subst hji
          rw [hi] at hj
          cases hj
          rw [hnone] at hg2'
          cases hg2'
        · have hne : pend ≠ [] := by rintro rfl; cases hy
          obtain ⟨_, _, _, _, _, _, h6⟩ := runs_part htx hpartsRun hgsRun hpre (runsOf_pend (groups := groups) hne)
          have := h6 y hy
          have := (List.getElem?_eq_some_iff.mp hi).1
          omega
    · exact hbr hbroken

/-- The answers to the last transfer, when everything has been read. -/
theorem conn_last {e : Env} {refuse : Bool} {mru : Nat} {a b : Sess} {parts groups pend} (htx : TxShape e refuse mru a parts)
    (hrx : RxShape e b groups pend) (hpartsRun : ∀ part ∈ parts, StartRun part) (hgsRun : ∀ g ∈ runsOf groups pend, StartRun g)
    (hrefusal : ∀ d, (d, false) ∈ b.handled → ∃ r, .xferRefuse r d.tid ∈ b.out)
    (heq : (runsOf groups pend).flatten = parts.flatten) {ps l} (hps : parts = ps ++ [l]) :
    (∃ r, .xferRefuse r (ps.length + 1) ∈ b.out) ∨ ackLens (ps.length + 1) b.out = (ackValues 0 l).map (·.2) := by
  have hruns := runs_eq hgsRun hpartsRun heq
  have htid : ∀ (i : Nat) r, (runsOf groups pend)[i]? = some r → ∀ d ∈ r, d.tid = i + 1 := by
    intro i r hi
    obtain ⟨_, _, _, _, _, _, h⟩ := runs_part htx hpartsRun hgsRun (heq ▸ List.prefix_refl _) hi
    exact h
  have hl : (runsOf groups pend)[ps.length]? = some l := by rw [hruns, hps]; simp
  have hlen : (runsOf groups pend).length = ps.length + 1 := by rw [hruns, hps]; simp
  have hstart : StartRun l := hpartsRun l (by rw [hps]; simp)
  have htl := htid _ _ hl
  -- all transfers before are numbered differently
  have key : ∀ X : List XferSeg, (∀ d ∈ X, d.tid ≠ ps.length + 1) → accepted b = X ++ l →
      ackLens (ps.length + 1) b.out = (ackValues 0 l).map (·.2) := by
    intro X hX hacc
    unfold ackLens
    rw [hrx.acks, hacc, ackValues_append, List.filterMap_append, filter_tid_none, filter_tid, List.nil_append, ackValues_start hstart]
    · rintro ⟨t, m⟩ hx
      obtain ⟨d, hd, rfl⟩ := ackValues_tid hx
      exact htl d hd
    · rintro ⟨t, m⟩ hx
      obtain ⟨d, hd, rfl⟩ := ackValues_tid hx
      exact hX d hd
  have hbefore : ∀ n : Nat, n = ps.length → ∀ g ∈ (groups.take n), ∀ d ∈ g.1, d.tid ≠ ps.length + 1 := by
    rintro n rfl g hg d hd
    obtain ⟨i, hi⟩ := List.getElem?_of_mem hg
    have hlt : i < ps.length := by
      have := (List.getElem?_eq_some_iff.mp hi).1
      rw [List.length_take] at this
      omega
    rw [List.getElem?_take_of_lt hlt] at hi
    have := htid i _ (runsOf_group (pend := pend) hi) d hd
    omega
  by_cases hpend : pend = []
  · have hglen : groups.length = ps.length + 1 := by
      rw [← hlen]
      simp [runsOf, hpend]
    have hg : ∃ g, groups = groups.take ps.length ++ [g] := by
      refine ⟨groups[ps.length]'(by omega), ?_⟩
      rw [List.take_append_getElem]
      rw [List.take_of_length_le (by omega)]
    obtain ⟨g, hg⟩ := hg
    have hgi : groups[ps.length]? = some g := by
      rw [hg, List.getElem?_append_right (by rw [List.length_take]; omega), List.length_take, show ps.length - min ps.length groups.length = 0 by omega]
      rfl
    have hgl : g.1 = l := by
      have := runsOf_group (pend := pend) hgi
      rw [hl] at this
      exact (Option.some.inj this).symm
    cases hgo : g.2 with
    | none =>
      left
      obtain ⟨x, t, hxt, _, _⟩ := hstart
      have hmem : (x, false) ∈ b.handled := by
        rw [hrx.split]
        refine List.mem_append_left _ (List.mem_flatten.mpr ⟨g.items, List.mem_map.mpr ⟨g, List.mem_of_getElem? hgi, rfl⟩, ?_⟩)
        rw [Group.items, hgo, hgl, hxt]
        simp
      obtain ⟨r, hr⟩ := hrefusal x hmem
      exact ⟨r, by rw [← htl x (by rw [hxt]; simp)]; exact hr⟩
    | some data =>
      right
      refine key (((groups.take ps.length).filter (·.2.isSome)).map (·.1)).flatten ?_ ?_
      · intro d hd
        obtain ⟨l', hl', hd'⟩ := List.mem_flatten.mp hd
        obtain ⟨g', hg', rfl⟩ := List.mem_map.mp hl'
        exact hbefore _ rfl g' (List.mem_filter.mp hg').1 d hd'
      · rw [accepted_groups hrx, hpend, List.append_nil]
        conv => lhs; rw [hg]
        rw [List.filter_append, List.map_append, List.flatten_append, ← hgl]
        congr 1
        simp [hgo]
  · right
    have hglen : groups.length = ps.length := by
      have := hlen
      simp [runsOf, hpend] at this
      exact this
    have hpl : pend = l := by
      have := runsOf_pend (groups := groups) hpend
      rw [hglen, hl] at this
      exact (Option.some.inj this).symm
    refine key (((groups.filter (·.2.isSome)).map (·.1)).flatten) ?_ ?_
    · intro d hd
      obtain ⟨l', hl', hd'⟩ := List.mem_flatten.mp hd
      obtain ⟨g', hg', rfl⟩ := List.mem_map.mp hl'
      refine hbefore _ rfl g' ?_ d hd'
      rw [List.take_of_length_le (by omega)]
      exact (List.mem_filter.mp hg').1
    · rw [accepted_groups hrx, hpl]

/-- Two running sessions that have read everything the other has written: nothing is being sent. -/
theorem conn_live (e : Env) (refuseA refuseB : Bool) (initA initB initA' initB' : SessInit)
    (hmru : 0 < initB.segmentMru) (hempty : e.parses [] = false) {a b : Sess} {evsA evsB : List ((Bytes → Bool) × Sess.Ev)}
    (ha : a = (newSess refuseA initA initB).run e evsA) (hb : b = (newSess refuseB initB' initA').run e evsB)
    (hreq : ∀ d ∈ a.requests, e.parses d = true) (hrecvA : recvs evsA = b.out) (hrecvB : recvs evsB = a.out)
    (hta : a.isTerminated = false) (htb : b.isTerminated = false) : a.tx = .idle := by
  obtain ⟨parts, groups, pend, htx, hrx, hpartsRun, hgsRun, hpre, heq⟩ :=
    conn_lined e refuseA refuseB initA initB initA' initB' hmru hempty ha hb hreq (hrecvB ▸ List.prefix_refl _)
  have heq := heq htb hrecvB
  have hw := waits_run (e := e) (refuse := refuseA) (loc := initA) hmru evsA
  rw [← ha, hrecvA] at hw
  have hw := hw hta
  have hrefusal : ∀ d, (d, false) ∈ b.handled → ∃ r, .xferRefuse r d.tid ∈ b.out := by
    intro d hd
    rw [hb] at hd ⊢
    exact run_refusal e _ rfl evsB hd
  have hshape := htx.tx
  rw [hta] at hshape
  simp only [Bool.false_eq_true, false_or] at hshape
  have hsplit : ∀ req, req + 1 = a.requests.length → ∀ part, parts[req]? = some part → ∃ ps, parts = ps ++ [part] ∧ ps.length = req := by
    intro req hreq part hpart
    have hlt := (List.getElem?_eq_some_iff.mp hpart).1
    refine ⟨parts.take req, ?_, by simp; omega⟩
    have := (List.getElem?_eq_some_iff.mp hpart).2
    rw [← this, List.take_append_getElem, List.take_of_length_le (by rw [htx.len]; omega)]
  cases htxs : a.tx with
  | idle => rfl
  | terminated => rw [htxs] at hshape; exact hshape.elim
  | transferRequest data req =>
    exfalso
    rw [htxs] at hshape
    obtain ⟨h1, h2, h3, h4, ps, h5⟩ := hshape
    have hpl : ps.length = req := by
      have := htx.len
      rw [h5] at this
      simp at this
      omega
    obtain ⟨g1, g2⟩ := hw.request data req htxs
    rcases conn_last htx hrx hpartsRun hgsRun hrefusal heq h5 with ⟨r, hr⟩ | hack
    · exact g2 r (by rw [htx.tid, ← h1, ← hpl]; exact hr)
    · rw [hpl, h1, ← htx.tid, g1] at hack
      simp [ackValues] at hack
  | sending len req =>
    exfalso
    rw [htxs] at hshape
    obtain ⟨h1, ⟨d, h2, h3, part, h4, h5⟩, _⟩ := hshape
    obtain ⟨ps, hps, hpl⟩ := hsplit req h1 part h4
    obtain ⟨g1, g2, g3⟩ := hw.sending len req htxs
    have hok := htx.ok req d part h2 h4
    have hdne : d ≠ [] := by
      rintro rfl
      have := hreq _ (List.mem_of_getElem? h2)
      rw [hempty] at this
      cases this
    rcases conn_last htx hrx hpartsRun hgsRun hrefusal heq hps with ⟨r, hr⟩ | hack
    · exact g1 r (by rw [htx.tid, ← h1, ← hpl]; exact hr)
    · rw [hpl, h1, ← htx.tid] at hack
      rw [hack, htx.hrefuse] at g2 g3
      unfold PartOk at hok
      cases hrf : refuseA with
      | false =>
        have hg := g2 hrf
        obtain ⟨x, t, hxt, hxs, hts⟩ := hpartsRun part (List.mem_of_getElem? h4)
        have hb' : (bytesOf part).length = x.buf.length + (bytesOf t).length := by rw [hxt]; simp [bytesOf]
        by_cases ht : t = []
        · have := hg x.buf.length (by rw [hxt]; simp [ackValues, hxs])
          rw [ht] at hb'
          simp [bytesOf] at hb'
          rw [← h3, ← h5] at this
          simp [bytesOf] at this
          omega
        · obtain ⟨y, hy⟩ := ackValues_last hts ht x.buf.length
          have := hg (x.buf.length + (bytesOf t).length) (by
            rw [hxt]
            simp only [ackValues, hxs, if_true, List.map_cons, List.mem_cons]
            exact .inr (List.mem_map.mpr ⟨_, hy, rfl⟩))
          rw [← hb', h5] at this
          omega
      | true =>
        obtain ⟨_, hg⟩ := g3 hrf
        rw [hrf] at hok
        simp only [if_true] at hok
        rcases hok with ⟨rfl, _⟩ | ⟨rest, rfl, hrest⟩
        · exact hdne h5.symm
        · have hb' : bytesOf rest = d := h5
          have hne : rest ≠ [] := by
            rintro rfl
            exact hdne hb'.symm
          have hns : ∀ y ∈ rest, y.flags.start = false := by
            obtain ⟨x, t, hxt, _, hts⟩ := hpartsRun _ (List.mem_of_getElem? h4)
            cases hxt
            exact hts
          obtain ⟨y, hy⟩ := ackValues_last hns hne 0
          have := hg (0 + (bytesOf rest).length) (by
            simp only [ackValues, Sess.requestSeg, if_true, List.map_cons, List.tail_cons, List.length_nil]
            exact List.mem_map.mpr ⟨_, hy, rfl⟩)
          rw [hb'] at this
          omega

end Dtn.Tcpcl
