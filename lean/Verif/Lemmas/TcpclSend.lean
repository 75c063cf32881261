import Verif.Lemmas.TcpclReceive
/-! Lemmas about the sending side of a TCPCL session. -/

namespace Dtn.Tcpcl
open Dtn.Spec

theorem segsIn_append (a b : List Packet) : segsIn (a ++ b) = segsIn a ++ segsIn b := by
  simp [segsIn, List.filterMap_append]

theorem segsIn_segs (segs : List XferSeg) : segsIn (segs.map Packet.xferSeg) = segs := by
  induction segs with
  | nil => rfl
  | cons x xs ih =>
    simp only [segsIn] at ih
    simp only [segsIn, List.map_cons, List.filterMap_cons, ih]

/-- Whether a message is a transfer segment. -/
def isSeg : Packet → Bool
  | .xferSeg _ => true
  | _ => false

theorem segsIn_singleton_of_not {p : Packet} (h : isSeg p = false) : segsIn [p] = [] := by
  cases p <;> simp_all [segsIn, isSeg]

/-- The segments written for one request. -/
def PartOk (e : Env) (refuse : Bool) (mru tid : Nat) (data : Bytes) (part : List XferSeg) : Prop :=
  if refuse then
    (part = [] ∧ e.parses data = false) ∨
    ∃ rest, part = Sess.requestSeg e tid data :: rest ∧ (rest = [] ∨ IsSegmentation false tid mru data rest)
  else IsSegmentation true tid mru data part ∧ ∀ d ∈ part, d.extensions = []

/-- Sending-side invariant; `parts` are the segments written for each request. -/
structure TxShape (e : Env) (refuse : Bool) (mru : Nat) (s : Sess) (parts : List (List XferSeg)) : Prop where
  hrefuse : s.refuseExisting = refuse
  hmru : s.segmentMru = mru
  tid : s.lastTid = s.requests.length
  len : parts.length = s.requests.length
  segs : segsIn s.out = parts.flatten
  ok : ∀ k data part, s.requests[k]? = some data → parts[k]? = some part → PartOk e refuse mru (k + 1) data part
  nodup : (s.results.map (·.1)).Nodup
  bound : ∀ r ∈ s.results, r.1 < s.requests.length
  tx : s.isTerminated = true ∨ match s.tx with
    | .idle => True
    | .sending len req => req + 1 = s.requests.length ∧ (∃ d, s.requests[req]? = some d ∧ d.length = len ∧ ∃ part, parts[req]? = some part ∧ bytesOf part = d) ∧
        req ∉ s.results.map (·.1)
    | .transferRequest data req => req + 1 = s.requests.length ∧ s.requests[req]? = some data ∧
        req ∉ s.results.map (·.1) ∧ refuse = true ∧ ∃ parts', parts = parts' ++ [[Sess.requestSeg e (req + 1) data]]
    | .terminated => False

/-- The sending-side fields of two sessions agree (or the second has been terminated). -/
structure SameTx (s s' : Sess) : Prop where
  tx : s'.tx = s.tx ∨ s'.isTerminated = true
  term : s.isTerminated = true → s'.isTerminated = true
  refuse : s'.refuseExisting = s.refuseExisting
  mru : s'.segmentMru = s.segmentMru
  tid : s'.lastTid = s.lastTid
  requests : s'.requests = s.requests
  results : s'.results = s.results
  segs : segsIn s'.out = segsIn s.out

theorem TxShape.same {e : Env} {refuse mru} {s s' : Sess} {parts} (h : TxShape e refuse mru s parts)
    (hs : SameTx s s') : TxShape e refuse mru s' parts where
  hrefuse := hs.refuse.trans h.hrefuse
  hmru := hs.mru.trans h.hmru
  tid := by rw [hs.tid, hs.requests, h.tid]
  len := by rw [hs.requests, h.len]
  segs := by rw [hs.segs, h.segs]
  ok := by rw [hs.requests]; exact h.ok
  nodup := by rw [hs.results]; exact h.nodup
  bound := by rw [hs.results, hs.requests]; exact h.bound
  tx := by
    rcases h.tx with ht | hr
    · exact Or.inl (hs.term ht)
    · rcases hs.tx with hx | hx
      · right; rw [hx, hs.requests, hs.results]; exact hr
      · exact Or.inl hx

theorem SameTx.refl (s : Sess) : SameTx s s := ⟨Or.inl rfl, id, rfl, rfl, rfl, rfl, rfl, rfl⟩

theorem SameTx.trans {a b c : Sess} (h1 : SameTx a b) (h2 : SameTx b c) : SameTx a c where
  tx := by
    rcases h2.tx with h | h
    · rcases h1.tx with h' | h'
      · left; rw [h, h']
      · right; exact h2.term h'
    · exact Or.inr h
  term := fun h => h2.term (h1.term h)
  refuse := h2.refuse.trans h1.refuse
  mru := h2.mru.trans h1.mru
  tid := h2.tid.trans h1.tid
  requests := h2.requests.trans h1.requests
  results := h2.results.trans h1.results
  segs := h2.segs.trans h1.segs

theorem SameTx.terminated (s : Sess) : SameTx s s.terminated :=
  ⟨Or.inr (by simp [Sess.terminated, Sess.isTerminated]), fun _ => by simp [Sess.terminated, Sess.isTerminated],
    rfl, rfl, rfl, rfl, rfl, rfl⟩

theorem SameTx.send (s : Sess) (p : Packet) (hp : isSeg p = false) : SameTx s (s.send p) := by
  refine ⟨Or.inl rfl, id, rfl, rfl, rfl, rfl, rfl, ?_⟩
  simp only [Sess.send, segsIn_append, segsIn_singleton_of_not hp, List.append_nil]

theorem SameTx.fields (s s' : Sess) (hs : s.isTerminated = false) (h1 : s'.tx = s.tx)
    (h2 : s'.refuseExisting = s.refuseExisting) (h3 : s'.segmentMru = s.segmentMru) (h4 : s'.lastTid = s.lastTid)
    (h5 : s'.requests = s.requests) (h6 : s'.results = s.results) (h7 : segsIn s'.out = segsIn s.out) :
    SameTx s s' := ⟨Or.inl h1, fun h => by simp [hs] at h, h2, h3, h4, h5, h6, h7⟩

theorem SameTx.rx (s : Sess) (hs : s.isTerminated = false) (r : RxState) : SameTx s { s with rx := r } :=
  SameTx.fields _ _ hs rfl rfl rfl rfl rfl rfl rfl

theorem SameTx.processBundle (e : Env) (s : Sess) (hs : s.isTerminated = false) (buf : Bytes) (tid : Nat) :
    SameTx s (s.processBundle e buf tid) := by
  unfold Sess.processBundle
  split
  · exact SameTx.fields _ _ hs rfl rfl rfl rfl rfl rfl rfl
  · refine SameTx.fields _ _ hs rfl rfl rfl rfl rfl rfl ?_
    simp only [Sess.send, segsIn_append, segsIn_singleton_of_not (p := .xferRefuse _ _) rfl, List.append_nil]

theorem SameTx.receiveSeg (e : Env) (s : Sess) (hs : s.isTerminated = false) (d : XferSeg) :
    SameTx s (s.receiveSeg e d) := by
  have hack : ∀ (a : XferAck) (h : List (XferSeg × Bool)),
      SameTx s { s with handled := h, out := s.out ++ [.xferAck a] } := by
    intro a h
    refine SameTx.fields _ _ hs rfl rfl rfl rfl rfl rfl ?_
    simp only [segsIn_append, segsIn_singleton_of_not (p := .xferAck _) rfl, List.append_nil]
  unfold Sess.receiveSeg
  split
  · split
    · exact SameTx.terminated s
    · split
      · exact SameTx.terminated s
      · simp only
        split
        · exact (hack _ _).trans (SameTx.processBundle e _ (by exact hs) _ _)
        · exact (hack _ (s.handled ++ [(d, true)])).trans (SameTx.fields _ _ (by exact hs) rfl rfl rfl rfl rfl rfl rfl)
  · split
    · exact SameTx.terminated s
    · split
      · refine SameTx.fields _ _ hs rfl rfl rfl rfl rfl rfl ?_
        simp only [Sess.send, segsIn_append, segsIn_singleton_of_not (p := .xferRefuse _ _) rfl, List.append_nil]
      · simp only
        split
        · exact (hack _ _).trans (SameTx.processBundle e _ (by exact hs) _ _)
        · exact (hack _ (s.handled ++ [(d, true)])).trans (SameTx.fields _ _ (by exact hs) rfl rfl rfl rfl rfl rfl rfl)
  · exact SameTx.terminated s

/-- A result for the current request. -/
theorem TxShape.respond {e : Env} {refuse mru} {s : Sess} {parts} (h : TxShape e refuse mru s parts) {req : Nat}
    (hreq : req + 1 = s.requests.length) (hfresh : req ∉ s.results.map (·.1)) (r : TransferResult) :
    TxShape e refuse mru { s.respond req r with tx := .idle } parts where
  hrefuse := h.hrefuse
  hmru := h.hmru
  tid := h.tid
  len := h.len
  segs := h.segs
  ok := h.ok
  nodup := by
    simp only [Sess.respond, List.map_append, List.map_cons, List.map_nil]
    refine List.nodup_append.mpr ⟨h.nodup, by simp, ?_⟩
    intro a ha b hb hab
    simp at hb; subst hb; subst hab; exact hfresh ha
  bound := by
    intro x hx
    simp only [Sess.respond, List.mem_append, List.mem_singleton] at hx
    rcases hx with hx | rfl
    · exact h.bound x hx
    · simp only [Sess.respond]; omega
  tx := Or.inr trivial

theorem segmentation_nil (st : Bool) (tid mru : Nat) : IsSegmentation st tid mru [] [] :=
  ⟨rfl, by simp, by simp, by simp⟩

theorem segments_isSegmentation {refuse : Bool} {tid mru : Nat} (hm : 0 < mru) (data : Bytes) :
    IsSegmentation (!refuse) tid mru data (segments refuse tid mru data) := by
  have hsp := segments_spec (refuse := refuse) (tid := tid) (data := data) hm
  by_cases hd : data = []
  · have : segments refuse tid mru data = [] := hsp.1.mpr hd
    rw [this, hd]; exact segmentation_nil _ _ _
  · have := (hsp.2.2 hd).isSegmentation
    rwa [hsp.2.1] at this

theorem segments_ext (refuse : Bool) (tid mru : Nat) (data : Bytes) : ∀ d ∈ segments refuse tid mru data, d.extensions = [] := by
  have hend : ∀ l : List XferSeg, (∀ d ∈ l, d.extensions = []) → ∀ d ∈ setEnd l, d.extensions = [] := by
    intro l
    induction l with
    | nil => intro _ d hd; simp [setEnd] at hd
    | cons x l ih =>
      intro h d hd
      cases l with
      | nil =>
        simp only [setEnd, List.mem_singleton] at hd
        rw [hd]
        exact h x (by simp)
      | cons y l =>
        simp only [setEnd] at hd
        rcases List.mem_cons.mp hd with rfl | hd
        · exact h _ (by simp)
        · exact ih (fun d hd => h d (by simp [hd])) d hd
  unfold segments
  apply hend
  have h0 : ∀ d ∈ (chunks mru data).map (fun buf => { flags := {}, buf := buf, len := buf.length, tid := tid, extensions := [] : XferSeg }),
      d.extensions = [] := by
    intro d hd
    obtain ⟨b, _, rfl⟩ := List.mem_map.mp hd
    rfl
  split
  · exact h0
  · intro d hd
    generalize (chunks mru data).map (fun buf => { flags := {}, buf := buf, len := buf.length, tid := tid, extensions := [] : XferSeg }) = l at hd h0
    cases l with
    | nil => simp [setStart] at hd
    | cons x l =>
      simp only [setStart] at hd
      rcases List.mem_cons.mp hd with rfl | hd
      · exact h0 x (by simp)
      · exact h0 d (by simp [hd])

/-- `send_bundle` for the current request, in terms of the parts. -/
theorem TxShape.sendBundle {e : Env} {refuse mru} {s : Sess} {data : Bytes} {req : Nat} {init last}
    (hm : 0 < mru) (hrefuse : s.refuseExisting = refuse) (hmru : s.segmentMru = mru)
    (htid : s.lastTid = s.requests.length) (hlen : init.length + 1 = s.requests.length)
    (hsegs : segsIn s.out = (init ++ [last]).flatten)
    (hlast : last = if refuse then [Sess.requestSeg e (req + 1) data] else [])
    (hok : ∀ k data part, k ≠ req → s.requests[k]? = some data → (init ++ [last])[k]? = some part →
      PartOk e refuse mru (k + 1) data part)
    (hnodup : (s.results.map (·.1)).Nodup) (hbound : ∀ r ∈ s.results, r.1 < s.requests.length)
    (hreq : req + 1 = s.requests.length) (hdata : s.requests[req]? = some data)
    (hfresh : req ∉ s.results.map (·.1)) :
    ∃ parts, TxShape e refuse mru (s.sendBundle data req) parts := by
  have hsegm := segments_isSegmentation (refuse := refuse) (tid := req + 1) hm data
  have hsp := segments_spec (refuse := refuse) (tid := req + 1) (data := data) hm
  have hpart : PartOk e refuse mru (req + 1) data (last ++ segments refuse (req + 1) mru data) := by
    subst hlast
    unfold PartOk
    cases refuse
    · simpa using ⟨hsegm, segments_ext _ _ _ _⟩
    · simp only [if_true]
      right
      exact ⟨_, rfl, Or.inr hsegm⟩
  have hok' : ∀ k data' part, s.requests[k]? = some data' →
      (init ++ [last ++ segments refuse (req + 1) mru data])[k]? = some part →
      PartOk e refuse mru (k + 1) data' part := by
    intro k data' part h1 h2
    by_cases hk : k = req
    · subst hk
      have hki : k = init.length := by omega
      rw [List.getElem?_append_right (by omega), ← hki] at h2
      simp at h2
      rw [hdata] at h1
      cases h1; subst h2; exact hpart
    · have hk' : k < s.requests.length := (List.getElem?_eq_some_iff.mp h1).1
      refine hok k data' part hk h1 ?_
      rw [List.getElem?_append_left (by omega)] at h2 ⊢
      exact h2
  unfold Sess.sendBundle
  have hm0 : ¬ s.segmentMru = 0 := by omega
  rw [if_neg hm0]
  simp only
  have hseq : segments s.refuseExisting s.lastTid s.segmentMru data = segments refuse (req + 1) mru data := by
    rw [hrefuse, hmru, htid, hreq]
  rw [hseq]
  split
  · next hnil =>
    refine ⟨init ++ [last], ?_⟩
    refine ⟨hrefuse, hmru, htid, by simp [hlen, Sess.respond], hsegs, ?_, ?_, ?_, Or.inr trivial⟩
    · rw [hnil, List.append_nil] at hok'; exact hok'
    · simp only [Sess.respond, List.map_append, List.map_cons, List.map_nil]
      refine List.nodup_append.mpr ⟨hnodup, by simp, ?_⟩
      intro a ha b hb hab
      simp at hb; subst hb; subst hab; exact hfresh ha
    · intro x hx
      simp only [Sess.respond, List.mem_append, List.mem_singleton] at hx
      rcases hx with hx | rfl
      · exact hbound x hx
      · simp only [Sess.respond]; omega
  · rw [foldl_send_fields]
    refine ⟨init ++ [last ++ segments refuse (req + 1) mru data], ?_⟩
    refine ⟨hrefuse, hmru, htid, by simp [hlen], ?_, hok', hnodup, hbound,
      Or.inr ⟨hreq, ⟨data, hdata, rfl, _, by rw [List.getElem?_append_right (by omega)]; simp [show req - init.length = 0 by omega]; rfl, ?_⟩, hfresh⟩⟩
    rotate_left
    · have h1 : bytesOf (segments refuse (req + 1) mru data) = data := hsegm.concat
      have h2 : bytesOf last = [] := by subst hlast; cases refuse <;> rfl
      have h3 : bytesOf (last ++ segments refuse (req + 1) mru data) = bytesOf last ++ bytesOf (segments refuse (req + 1) mru data) := by
        simp [bytesOf]
      rw [h3, h1, h2, List.nil_append]
    simp only [segsIn_append, hsegs, segsIn_segs]
    simp

theorem TxShape.request {e : Env} {refuse mru} {s : Sess} {parts} (h : TxShape e refuse mru s parts)
    (hm : 0 < mru) (data : Bytes) : ∃ parts', TxShape e refuse mru (s.request e data) parts' := by
  have hfresh : s.requests.length ∉ s.results.map (·.1) := by
    intro hx
    obtain ⟨r, hr, hr'⟩ := List.mem_map.mp hx
    have := h.bound r hr
    omega
  have hbound : ∀ r ∈ s.results, r.1 < (s.requests ++ [data]).length := by
    intro r hr; have := h.bound r hr; simp; omega
  have hok : ∀ (last : List XferSeg) k data' part, k ≠ s.requests.length → (s.requests ++ [data])[k]? = some data' →
      (parts ++ [last])[k]? = some part → PartOk e refuse mru (k + 1) data' part := by
    intro last k data' part hk h1 h2
    have hk' : k < s.requests.length := by
      have := (List.getElem?_eq_some_iff.mp h1).1
      simp at this; omega
    rw [List.getElem?_append_left hk'] at h1
    rw [List.getElem?_append_left (by rw [h.len]; exact hk')] at h2
    exact h.ok k data' part h1 h2
  have hok' : ∀ (last : List XferSeg), PartOk e refuse mru (s.requests.length + 1) data last →
      ∀ k data' part, (s.requests ++ [data])[k]? = some data' →
      (parts ++ [last])[k]? = some part → PartOk e refuse mru (k + 1) data' part := by
    intro last hl k data' part h1 h2
    by_cases hk : k = s.requests.length
    · subst hk
      rw [List.getElem?_append_right (by omega)] at h1
      rw [List.getElem?_append_right (by rw [h.len]; omega)] at h2
      simp [h.len] at h1 h2
      subst h1; subst h2; exact hl
    · exact hok last k data' part hk h1 h2
  unfold Sess.request
  simp only
  split
  · next hr =>
    have hr' : refuse = true := by rw [← h.hrefuse]; exact hr
    split
    · next hp =>
      refine ⟨parts ++ [[Sess.requestSeg e (s.lastTid + 1) data]], h.hrefuse, h.hmru, ?_, ?_, ?_, ?_, h.nodup, hbound,
        Or.inr ⟨?_, ?_, hfresh, hr', parts, ?_⟩⟩
      · simp [Sess.send, h.tid]
      · simp [Sess.send, h.len]
      · simp only [Sess.send, segsIn_append, h.segs]
        simp [segsIn]
      · refine hok' _ ?_
        unfold PartOk
        rw [if_pos hr']
        right
        exact ⟨[], by rw [h.tid], Or.inl rfl⟩
      · simp [Sess.send]
      · simp [Sess.send]
      · rw [h.tid]
    · next hp =>
      refine ⟨parts ++ [[]], h.hrefuse, h.hmru, ?_, ?_, ?_, ?_, h.nodup, hbound,
        Or.inl (by simp [Sess.terminated, Sess.isTerminated])⟩
      · simp [Sess.terminated, h.tid]
      · simp [Sess.terminated, h.len]
      · simp [Sess.terminated, h.segs]
      · refine hok' _ ?_
        unfold PartOk
        rw [if_pos hr']
        exact Or.inl ⟨rfl, by simpa using hp⟩
  · next hr =>
    have hr' : refuse = false := by
      rw [← h.hrefuse]; simpa using hr
    refine TxShape.sendBundle (init := parts) (last := []) hm h.hrefuse h.hmru ?_ ?_ ?_ ?_ ?_ h.nodup hbound ?_ ?_ hfresh
    · simp [h.tid]
    · simp [h.len]
    · simp [h.segs]
    · rw [hr']; rfl
    · exact hok []
    · simp
    · simp

theorem TxShape.receive {e : Env} {refuse mru} {s : Sess} {parts} (h : TxShape e refuse mru s parts)
    (hm : 0 < mru) (hs : s.isTerminated = false) (p : Packet) :
    ∃ parts', TxShape e refuse mru (s.receive e p) parts' := by
  have htx := h.tx
  rw [hs] at htx
  simp only [Bool.false_eq_true, false_or] at htx
  have hterm : ∃ parts', TxShape e refuse mru s.terminated parts' := ⟨parts, h.same (SameTx.terminated s)⟩
  unfold Sess.receive
  split
  · split
    · exact hterm
    · exact ⟨parts, h.same ((SameTx.send s _ rfl).trans (SameTx.terminated _))⟩
  · exact ⟨parts, h.same (SameTx.receiveSeg e s hs _)⟩
  · split
    · next data req heq =>
      rw [heq] at htx
      obtain ⟨h1, h2, h3, h4, init, h5⟩ := htx
      split
      · exact hterm
      · refine TxShape.sendBundle (init := init) (last := [Sess.requestSeg e (req + 1) data]) hm h.hrefuse h.hmru
          h.tid ?_ ?_ ?_ ?_ h.nodup h.bound h1 h2 h3
        · have := h.len; rw [h5] at this; simpa using this
        · rw [← h5]; exact h.segs
        · rw [h4]; rfl
        · intro k data' part _ hk hk'; rw [← h5] at hk'; exact h.ok k data' part hk hk'
    · next len req heq =>
      rw [heq] at htx
      obtain ⟨h1, _, h3⟩ := htx
      split
      · exact hterm
      · split
        · exact ⟨parts, h⟩
        · exact ⟨parts, h.respond h1 h3 _⟩
    · exact hterm
  · split
    · next data req heq =>
      rw [heq] at htx
      split
      · exact hterm
      · exact ⟨parts, h.respond htx.1 htx.2.2.1 _⟩
    · next len req heq =>
      rw [heq] at htx
      split
      · exact hterm
      · exact ⟨parts, h.respond htx.1 htx.2.2 _⟩
    · exact hterm
  · exact hterm

theorem SameTx.keep (s : Sess) : SameTx s { s with keepaliveReceived := false, keepaliveSent := false } :=
  ⟨Or.inl rfl, id, rfl, rfl, rfl, rfl, rfl, rfl⟩

theorem step_recv {e : Env} {s : Sess} (hs : s.isTerminated = false) {p : Packet} (hk : p ≠ .keepAlive) :
    s.step e (.recv p) = { s.receive e p with keepaliveReceived := false, keepaliveSent := false } := by
  unfold Sess.step
  simp only [hs, Bool.false_eq_true, if_false]

theorem step_keepAlive_tx {e : Env} {s : Sess} (hs : s.isTerminated = false) :
    SameTx s (s.step e (.recv .keepAlive)) := by
  unfold Sess.step
  simp only [hs, Bool.false_eq_true, if_false]
  split
  · exact SameTx.fields _ _ hs rfl rfl rfl rfl rfl rfl rfl
  · refine SameTx.fields _ _ hs rfl rfl rfl rfl rfl rfl ?_
    simp only [Sess.send, segsIn_append, segsIn_singleton_of_not (p := .keepAlive) rfl, List.append_nil]

theorem step_timeout_tx {e : Env} {s : Sess} (hs : s.isTerminated = false) : SameTx s (s.step e .timeout) := by
  unfold Sess.step
  simp only [hs, Bool.false_eq_true, if_false]
  have h2 : ∀ s1 : Sess, SameTx s s1 → SameTx s
      (if (!s1.keepaliveReceived && s1.keepaliveSent) = true then s1.terminate .idleTimeout else s1) := by
    intro s1 h1
    split
    · exact h1.trans ((SameTx.send _ (.sessTerm false .idleTimeout) rfl).trans (SameTx.terminated _))
    · exact h1
  split
  · exact h2 _ (SameTx.refl s)
  · refine h2 _ (SameTx.fields _ _ hs rfl rfl rfl rfl rfl rfl ?_)
    simp only [Sess.send, segsIn_append, segsIn_singleton_of_not (p := .keepAlive) rfl, List.append_nil]

theorem TxShape.step {e : Env} {refuse mru} {s : Sess} {parts} (h : TxShape e refuse mru s parts)
    (hm : 0 < mru) (ev : Sess.Ev) : ∃ parts', TxShape e refuse mru (s.step e ev) parts' := by
  by_cases hs : s.isTerminated = true
  · exact ⟨parts, by simpa [Sess.step, hs] using h⟩
  have hs : s.isTerminated = false := by simpa using hs
  cases ev with
  | recv p =>
    by_cases hk : p = .keepAlive
    · subst hk; exact ⟨parts, h.same (step_keepAlive_tx hs)⟩
    · rw [step_recv hs hk]
      obtain ⟨parts', h'⟩ := h.receive hm hs p
      exact ⟨parts', h'.same (SameTx.keep _)⟩
  | request data =>
    unfold Sess.step
    simp only [hs, Bool.false_eq_true, if_false]
    split
    · exact h.request hm data
    · exact ⟨_, h⟩
  | closed =>
    unfold Sess.step
    simp only [hs, Bool.false_eq_true, if_false]
    split
    · exact ⟨_, h.same ((SameTx.send s _ rfl).trans (SameTx.terminated _))⟩
    · exact ⟨_, h⟩
  | timeout => exact ⟨parts, h.same (step_timeout_tx hs)⟩
  | lost =>
    unfold Sess.step
    simp only [hs, Bool.false_eq_true, if_false]
    exact ⟨_, h.same (SameTx.terminated s)⟩

theorem PartOk.env {e : Env} {refuse mru tid data part} (has : Bytes → Bool) :
    PartOk { e with hasItem := has } refuse mru tid data part ↔ PartOk e refuse mru tid data part := Iff.rfl

theorem TxShape.env {e : Env} {refuse mru} {s : Sess} {parts} (h : TxShape e refuse mru s parts)
    (has : Bytes → Bool) : TxShape { e with hasItem := has } refuse mru s parts :=
  ⟨h.1, h.2, h.3, h.4, h.5, h.6, h.7, h.8, h.9⟩

theorem TxShape.unenv {e : Env} {refuse mru} {s : Sess} {parts} {has : Bytes → Bool}
    (h : TxShape { e with hasItem := has } refuse mru s parts) : TxShape e refuse mru s parts :=
  ⟨h.1, h.2, h.3, h.4, h.5, h.6, h.7, h.8, h.9⟩

theorem TxShape.run {e : Env} {refuse mru} (hm : 0 < mru) (evs : List ((Bytes → Bool) × Sess.Ev)) :
    ∀ {s : Sess} {parts}, TxShape e refuse mru s parts → ∃ parts', TxShape e refuse mru (s.run e evs) parts' := by
  induction evs with
  | nil => intro s parts h; exact ⟨_, h⟩
  | cons x evs ih =>
    intro s parts h
    obtain ⟨q, h'⟩ := (h.env x.1).step hm x.2
    exact ih h'.unenv

theorem TxShape.fresh (e : Env) (refuse : Bool) (loc remote : SessInit) :
    TxShape e refuse remote.segmentMru (newSess refuse loc remote) [] :=
  ⟨rfl, rfl, rfl, rfl, rfl, by simp, by simp [newSess], by simp [newSess], Or.inr trivial⟩

theorem run_snoc (e : Env) (s : Sess) (evs : List ((Bytes → Bool) × Sess.Ev)) (x : (Bytes → Bool) × Sess.Ev) :
    s.run e (evs ++ [x]) = (s.run e evs).step { e with hasItem := x.1 } x.2 := by
  simp [Sess.run]

/-- Where successful results come from. -/
theorem step_success {e : Env} {refuse mru} {s : Sess} {parts} (h : TxShape e refuse mru s parts)
    {ev : Sess.Ev} {k : Nat} (hnew : (k, .successful) ∈ (s.step e ev).results)
    (hold : (k, .successful) ∉ s.results) :
    ∃ data, s.requests[k]? = some data ∧ k ∉ s.results.map (·.1) ∧
      ((∃ a, ev = .recv (.xferAck a) ∧ a.tid = k + 1 ∧ data.length ≤ a.len ∧ s.tx = .sending data.length k) ∨
       (∃ r, ev = .recv (.xferRefuse r (k + 1)) ∧ refuse = true ∧ s.tx = .transferRequest data k ∧
          parts.getLast? = some [Sess.requestSeg e (k + 1) data])) := by
  by_cases hs : s.isTerminated = true
  · simp [Sess.step, hs] at hnew; exact absurd hnew hold
  have hs : s.isTerminated = false := by simpa using hs
  have htx := h.tx
  rw [hs] at htx
  simp only [Bool.false_eq_true, false_or] at htx
  have no : ∀ {s'}, SameTx s s' → (k, TransferResult.successful) ∉ s'.results :=
    fun hh => by rw [hh.results]; exact hold
  have hsb : ∀ (s' : Sess) (data : Bytes) (req : Nat), s'.results = s.results →
      (k, TransferResult.successful) ∉ (s'.sendBundle data req).results := by
    intro s' data req hr
    unfold Sess.sendBundle
    split
    · simp only [Sess.terminated]; rw [hr]; exact hold
    · simp only
      split
      · simp [Sess.respond, hr, hold]
      · rw [foldl_send_fields]; simp only; rw [hr]; exact hold
  cases ev with
  | recv p =>
    by_cases hk : p = .keepAlive
    · subst hk; exact absurd hnew (no (step_keepAlive_tx hs))
    rw [step_recv hs hk] at hnew
    replace hnew : (k, TransferResult.successful) ∈ (s.receive e p).results := hnew
    cases p with
    | xferAck a =>
      simp only [Sess.receive] at hnew
      split at hnew
      · next data req heq =>
        split at hnew
        · exact absurd hnew (no (SameTx.terminated s))
        · exact absurd hnew (hsb s data req rfl)
      · next len req heq =>
        rw [heq] at htx
        obtain ⟨h1, ⟨d, h2, h2', _⟩, h3⟩ := htx
        split at hnew
        · exact absurd hnew (no (SameTx.terminated s))
        · next htid =>
          split at hnew
          · exact absurd hnew hold
          · next hlen =>
            simp only [Sess.respond, List.mem_append, List.mem_singleton, Prod.mk.injEq] at hnew
            rcases hnew with hnew | ⟨rfl, _⟩
            · exact absurd hnew hold
            · refine ⟨d, h2, h3, Or.inl ⟨a, rfl, ?_, by omega, by rw [heq, h2']⟩⟩
              have := h.tid
              have htid : a.tid = s.lastTid := by simpa using htid
              omega
      · exact absurd hnew (no (SameTx.terminated s))
    | xferRefuse r tid =>
      simp only [Sess.receive] at hnew
      split at hnew
      · next data req heq =>
        rw [heq] at htx
        obtain ⟨h1, h2, h3, h4, init, h5⟩ := htx
        split at hnew
        · exact absurd hnew (no (SameTx.terminated s))
        · next htid =>
          simp only [Sess.respond, List.mem_append, List.mem_singleton, Prod.mk.injEq] at hnew
          rcases hnew with hnew | ⟨rfl, _⟩
          · exact absurd hnew hold
          · refine ⟨data, h2, h3, Or.inr ⟨r, ?_, h4, heq, by rw [h5]; simp⟩⟩
            have := h.tid
            have htid : tid = s.lastTid := by simpa using htid
            rw [htid, this, h1]
      · split at hnew
        · exact absurd hnew (no (SameTx.terminated s))
        · simp [Sess.respond] at hnew; exact absurd hnew hold
      · exact absurd hnew (no (SameTx.terminated s))
    | sessTerm reply reason =>
      simp only [Sess.receive] at hnew
      split at hnew
      · exact absurd hnew (no (SameTx.terminated s))
      · exact absurd hnew (no ((SameTx.send s _ rfl).trans (SameTx.terminated _)))
    | xferSeg d => exact absurd hnew (no (SameTx.receiveSeg e s hs d))
    | keepAlive => exact absurd rfl hk
    | _ => exact absurd hnew (no (SameTx.terminated s))
  | request data =>
    unfold Sess.step at hnew
    simp only [hs, Bool.false_eq_true, if_false] at hnew
    split at hnew
    · unfold Sess.request at hnew
      simp only at hnew
      split at hnew
      · split at hnew
        · exact absurd hnew hold
        · exact absurd hnew hold
      · exact absurd hnew (hsb _ _ _ rfl)
    · exact absurd hnew hold
  | closed =>
    unfold Sess.step at hnew
    simp only [hs, Bool.false_eq_true, if_false] at hnew
    split at hnew <;> exact absurd hnew hold
  | timeout => exact absurd hnew (no (step_timeout_tx hs))
  | lost =>
    unfold Sess.step at hnew
    simp only [hs, Bool.false_eq_true, if_false] at hnew
    exact absurd hnew hold

end Dtn.Tcpcl
