import Verif.Lemmas.TcpclPair
import Verif.Lemmas.TcpclIO
import Verif.Lemmas.TcpPoolSess
import Verif.Spec.Tcpcl
/-! C45–C48, C62: TCPCL sessions. -/

namespace Dtn.Props
open Tcpcl Spec

/-! ## C45 -/

/-- C45, sending: whatever happens to a session, what it writes for its k-th request is a correct segmentation of
exactly the requested bytes under transfer id k+1. In the mode that asks the peer first, it is preceded by a START
segment without data (and nothing follows if the peer refuses; nothing is sent at all for data that is not
a bundle). -/
theorem C45_tcpcl_segments_every_request (e : Env) (refuse : Bool) (loc remote : SessInit)
    (hmru : 0 < remote.segmentMru) (evs : List ((Bytes → Bool) × Sess.Ev)) (s : Sess)
    (hs : s = (newSess refuse loc remote).run e evs) :
    ∃ parts : List (List XferSeg), segsIn s.out = parts.flatten ∧ parts.length = s.requests.length ∧
      ∀ k data part, s.requests[k]? = some data → parts[k]? = some part →
        (refuse = false → IsSegmentation true (k + 1) remote.segmentMru data part) ∧
        (refuse = true → (part = [] ∧ e.parses data = false) ∨
          ∃ q rest, part = q :: rest ∧ q.buf = [] ∧ q.len = 0 ∧ q.tid = k + 1 ∧ q.flags.start = true ∧
            q.flags.end = false ∧ (rest = [] ∨ IsSegmentation false (k + 1) remote.segmentMru data rest)) := by
  obtain ⟨parts, h⟩ := TxShape.run hmru evs (TxShape.fresh e refuse loc remote)
  rw [← hs] at h
  refine ⟨parts, h.segs, h.len, ?_⟩
  intro k data part h1 h2
  have := h.ok k data part h1 h2
  unfold PartOk at this
  constructor
  · intro hr; rw [hr] at this; simp only [Bool.false_eq_true, if_false] at this; exact this.1
  · intro hr
    rw [if_pos hr] at this
    rcases this with h3 | ⟨rest, rfl, h3⟩
    · exact Or.inl h3
    · exact Or.inr ⟨_, rest, rfl, rfl, rfl, rfl, rfl, rfl, h3⟩

/-- An environment for the examples: bundles are the byte strings starting with 0x9f. -/
def exSessEnv : Env := { parses := fun b => b.head? = some 0x9f, bundleId := fun b => b.take 3, hasItem := fun _ => false }

/-- Announced parameters for the examples. -/
def exSessInit : SessInit := { keepalive := 30, segmentMru := 3, transferMru := 100, nodeId := [1] }

example : segsIn ((newSess false exSessInit exSessInit).run exSessEnv
    [(fun _ => false, .request [0x9f, 1, 2, 3, 4, 5, 6])]).out =
    [{ flags := { start := true }, tid := 1, len := 3, buf := [0x9f, 1, 2], extensions := [] },
     { flags := {}, tid := 1, len := 3, buf := [3, 4, 5], extensions := [] },
     { flags := { «end» := true }, tid := 1, len := 1, buf := [6], extensions := [] }] := by decide

theorem recv_rest (e : Env) (tid : Nat) : ∀ (l : List XferSeg) (s : Sess) (buf : Bytes), l ≠ [] →
    s.rx = .receiving buf tid → s.tx ≠ .terminated → (∀ d ∈ l, d.tid = tid ∧ d.flags.start = false) →
    (∀ i d, l[i]? = some d → (d.flags.end = true ↔ i + 1 = l.length)) → e.parses (buf ++ bytesOf l) = true →
    let s' := l.foldl (fun s d => s.step e (.recv (.xferSeg d))) s
    s'.processed = s.processed ++ [buf ++ bytesOf l] ∧ s'.rx = .idle ∧ s'.tx = s.tx ∧ s'.broken = s.broken := by
  intro l
  induction l with
  | nil => intro s buf h; exact absurd rfl h
  | cons d l ih =>
    intro s buf _ hrx htx hflags hend hparse
    have hs : s.isTerminated = false := by simp [Sess.isTerminated, hrx, htx]
    have hd := hflags d (by simp)
    simp only [List.foldl_cons]
    rw [step_recv hs (by intro h; cases h)]
    simp only [Sess.receive, Sess.receiveSeg, hrx, hd.1, hd.2, Bool.false_eq_true, if_false, ne_eq, not_true_eq_false]
    by_cases hl : l = []
    · subst hl
      have he : d.flags.end = true := (hend 0 d rfl).mpr rfl
      have hp : e.parses (buf ++ d.buf) = true := by simpa [bytesOf] using hparse
      simp [he, Sess.processBundle, hp, Sess.send, bytesOf]
    · have he : d.flags.end = false := by
        have := hend 0 d rfl
        cases hh : d.flags.end
        · rfl
        · have h1 := this.mp hh
          simp at h1; exact absurd h1 hl
      simp only [he, Bool.false_eq_true, if_false]
      have := ih (buf := buf ++ d.buf) (s := { s with
          rx := .receiving (buf ++ d.buf) tid, keepaliveReceived := false, keepaliveSent := false,
          handled := s.handled ++ [(d, true)],
          out := s.out ++ [.xferAck { flags := {}, tid := tid, len := (buf ++ d.buf).length }] })
        hl rfl htx (fun x hx => hflags x (by simp [hx])) (by
          intro i x hx
          have := hend (i + 1) x (by rw [List.getElem?_cons_succ]; exact hx)
          rw [this]; simp) (by simpa [bytesOf, List.append_assoc] using hparse)
      simp only [bytesOf, List.map_cons, List.flatten_cons, List.append_assoc] at this ⊢
      exact this

/-- C45, receiving: an idle receiver that reads the segments of any correct segmentation of a bundle hands exactly the
bytes of the bundle to processing, once, and is idle again. -/
theorem C45_tcpcl_reassembles (e : Env) (s : Sess) (tid mru : Nat) (data : Bytes) (segs : List XferSeg)
    (h : IsSegmentation true tid mru data segs) (hne : data ≠ []) (hparse : e.parses data = true)
    (hidle : s.rx = .idle) (hlive : s.tx ≠ .terminated) (hext : ∀ d ∈ segs, d.extensions = []) :
    let s' := segs.foldl (fun s d => s.step e (.recv (.xferSeg d))) s
    s'.processed = s.processed ++ [data] ∧ s'.rx = .idle ∧ s'.tx = s.tx ∧ s'.broken = s.broken := by
  cases segs with
  | nil => exact absurd h.concat.symm hne
  | cons d l =>
    have hs : s.isTerminated = false := by simp [Sess.isTerminated, hidle, hlive]
    have hst : d.flags.start = true := (h.startFlag 0 d rfl).mpr ⟨rfl, rfl⟩
    have hx := hext d (by simp)
    have hcat : d.buf ++ bytesOf l = data := by simpa [bytesOf] using h.concat
    have href : s.refuses e d = false := by simp [Sess.refuses, hx]
    have hne' : d.flags.isEmpty = false := by simp [SegFlags.isEmpty, hst]
    simp only [List.foldl_cons]
    rw [step_recv hs (by intro h; cases h)]
    simp only [Sess.receive, Sess.receiveSeg, hidle, hst, Bool.not_true, Bool.and_false, hne', Bool.or_self,
      Bool.false_eq_true, if_false, href]
    by_cases hl : l = []
    · subst hl
      have he : d.flags.end = true := (h.endFlag 0 d rfl).mpr rfl
      have hp : e.parses d.buf = true := by
        rw [← hcat] at hparse; simpa [bytesOf] using hparse
      have hb : d.buf = data := by rw [← hcat]; simp [bytesOf]
      simp [he, Sess.processBundle, Sess.send, hb]
      rw [← hb, hp]; simp
    · have he : d.flags.end = false := by
        have := h.endFlag 0 d rfl
        cases hh : d.flags.end
        · rfl
        · have h1 := this.mp hh
          simp at h1; exact absurd h1 hl
      simp only [he, Bool.false_eq_true, if_false]
      have := recv_rest e d.tid l (s := { s with
          rx := .receiving d.buf d.tid, keepaliveReceived := false, keepaliveSent := false,
          handled := s.handled ++ [(d, true)],
          out := s.out ++ [.xferAck { flags := {}, tid := d.tid, len := d.len }] }) d.buf hl rfl hlive
        (by
          intro x hx
          have h1 := (h.bounds x (by simp [hx])).2.2.2
          have h2 := (h.bounds d (by simp)).2.2.2
          refine ⟨by rw [h1, h2], ?_⟩
          obtain ⟨i, hi⟩ := List.getElem?_of_mem hx
          have := h.startFlag (i + 1) x (by rw [List.getElem?_cons_succ]; exact hi)
          cases hh : x.flags.start
          · rfl
          · have := (this.mp hh).2; omega)
        (by
          intro i x hx
          have := h.endFlag (i + 1) x (by rw [List.getElem?_cons_succ]; exact hx)
          rw [this]; simp) (by rw [hcat]; exact hparse)
      simp only [hcat] at this
      exact this

example : (segments false 7 3 [0x9f, 1, 2, 3, 4, 5, 6]).map (·.buf) = [[0x9f, 1, 2], [3, 4, 5], [6]] ∧
    exSessEnv.parses [0x9f, 1, 2, 3, 4, 5, 6] = true ∧ (newSess false exSessInit exSessInit).rx = .idle := by decide

/-! ## C46 -/

/-- C46: every request gets at most one result, and it is reported successful only at the moment the peer's
acknowledgement of at least its full length arrives under its own transfer id — or, in the mode that asks first, when
the peer refuses the transfer that was asked for. -/
theorem C46_tcpcl_success_needs_full_ack_partial (e : Env) (refuse : Bool) (loc remote : SessInit)
    (hmru : 0 < remote.segmentMru) (evs : List ((Bytes → Bool) × Sess.Ev)) (has : Bytes → Bool) (ev : Sess.Ev)
    (s s' : Sess) (hs : s = (newSess refuse loc remote).run e evs)
    (hs' : s' = (newSess refuse loc remote).run e (evs ++ [(has, ev)])) :
    (s'.results.map (·.1)).Nodup ∧ (∀ r ∈ s'.results, r.1 < s'.requests.length) ∧
    ∀ k, (k, .successful) ∈ s'.results → (k, .successful) ∉ s.results →
      ∃ data, s.requests[k]? = some data ∧
        ((∃ a, ev = .recv (.xferAck a) ∧ a.tid = k + 1 ∧ data.length ≤ a.len) ∨
         (∃ r, ev = .recv (.xferRefuse r (k + 1)) ∧ refuse = true ∧
           ∃ q, (segsIn s.out).getLast? = some q ∧ q.tid = k + 1 ∧ q.flags.start = true ∧ q.buf = [])) := by
  obtain ⟨parts, h⟩ := TxShape.run hmru evs (TxShape.fresh e refuse loc remote)
  obtain ⟨parts', h'⟩ := TxShape.run hmru (evs ++ [(has, ev)]) (TxShape.fresh e refuse loc remote)
  rw [← hs] at h
  rw [← hs'] at h'
  refine ⟨h'.nodup, h'.bound, ?_⟩
  intro k hnew hold
  rw [hs', run_snoc, ← hs] at hnew
  obtain ⟨data, h1, _, h2⟩ := step_success (h.env has) hnew hold
  refine ⟨data, h1, ?_⟩
  rcases h2 with ⟨a, h2, h3, h4, _⟩ | ⟨r, h2, h3, _, h5⟩
  · exact Or.inl ⟨a, h2, h3, h4⟩
  · refine Or.inr ⟨r, h2, h3, Sess.requestSeg e (k + 1) data, ?_, rfl, rfl, rfl⟩
    rw [h.segs]
    obtain ⟨init, hinit⟩ := List.getLast?_eq_some_iff.mp h5
    rw [hinit, List.flatten_append]
    simp
    rfl

/-- A history in which a transfer is acknowledged step by step. -/
def exAcked : List ((Bytes → Bool) × Sess.Ev) :=
  [(fun _ => false, .request [0x9f, 1, 2, 3]), (fun _ => false, .recv (.xferAck { flags := {}, tid := 1, len := 3 }))]

example : ((newSess false exSessInit exSessInit).run exSessEnv exAcked).results = [] ∧
    ((newSess false exSessInit exSessInit).run exSessEnv
      (exAcked ++ [(fun _ => false, .recv (.xferAck { flags := {}, tid := 1, len := 4 }))])).results =
      [(0, .successful)] := by decide

/-- C46 is false for refusals: in the mode that asks first, a refusal for any reason — here that the peer has no
resources — is reported as success although nothing of the bundle was transferred. -/
theorem C46_refusal_reported_successful_violated (e : Env) (loc remote : SessInit) (data : Bytes)
    (has : Bytes → Bool) (hparse : e.parses data = true) :
    let s := (newSess true loc remote).run e
      [(has, .request data), (has, .recv (.xferRefuse .noResources 1))]
    s.results = [(0, .successful)] ∧ (segsIn s.out).map (·.buf) = [[]] := by
  simp [newSess, Sess.run, Sess.step, Sess.isTerminated, Sess.request, hparse, Sess.send, Sess.receive,
    Sess.respond, Sess.requestSeg, segsIn]

example : exSessEnv.parses [0x9f, 1] = true := by decide

/-- C45/C46 end to end: connect two sessions of this implementation, with any announced parameters (segment limit of the
receiver positive), any choice of the ask-first mode at each end, and let requests, timeouts, closing, connection
loss and message arrivals happen at both ends in any order. If what the first end is asked to send are bundles, then
the second end processes a subsequence of the requested bundles, in order, byte for byte and never a corrupted one; and
every request reported successful has been processed by the second end or was, at some moment when the second end
read a message, already in its store. -/
theorem C46_tcpcl_end_to_end (e : Env) (refuseA refuseB : Bool) (initA initB : SessInit)
    (hmru : 0 < initB.segmentMru) (hempty : e.parses [] = false) (evs : List Pair.Ev)
    (hreq : ∀ d, .atA (.request d) ∈ evs → e.parses d = true) (p : Pair)
    (hp : p = Pair.run e { a := newSess refuseA initA initB, b := newSess refuseB initB initA } evs) :
    p.b.processed.Sublist p.a.requests ∧ p.b.broken = [] ∧
    ∀ k, (k, .successful) ∈ p.a.results → ∃ data, p.a.requests[k]? = some data ∧
      (data ∈ p.b.processed ∨ ∃ has, .toB has ∈ evs ∧ has (e.bundleId data) = true) :=
  pair_delivery e refuseA refuseB initA initB initA initB hmru hempty evs hreq p hp

/-- An execution of two connected sessions. -/
def exPairEvs : List Pair.Ev :=
  [.atA (.request [0x9f, 1, 2, 3]), .atB (.request [0x9f, 9]), .toB fun _ => false, .toB fun _ => false,
   .toA fun _ => false, .toA fun _ => false, .toA fun _ => false, .toB fun _ => false]

example : exSessEnv.parses [] = false ∧ 0 < exSessInit.segmentMru ∧
    (let p := Pair.run exSessEnv { a := newSess false exSessInit exSessInit, b := newSess false exSessInit exSessInit } exPairEvs
     p.a.results = [(0, .successful)] ∧ p.b.processed = [[0x9f, 1, 2, 3]] ∧ p.b.results = [(0, .successful)] ∧
     p.a.processed = [[0x9f, 9]]) := by decide

/-- An execution in which the second end has the bundle already. -/
def exPairRefused : List Pair.Ev :=
  [.atA (.request [0x9f, 1, 2, 3]), .toB fun i => i = [0x9f, 1, 2], .toA fun _ => false]

example : (let p := Pair.run exSessEnv { a := newSess true exSessInit exSessInit, b := newSess true exSessInit exSessInit } exPairRefused;
     p.a.results = [(0, TransferResult.successful)] ∧ p.b.processed = []) := by decide

/-! ## C47 -/

/-- C47: in every history of a session whose peer sends well-formed messages, the acknowledgements written are exactly
the running byte counts of the segments taken over; the segments taken over are complete transfers (in one piece, START
first, END last, same transfer id) followed by at most one unfinished one; exactly the data of the complete
transfers is processed or rejected as unparsable, in order; and no segment is skipped: the segments taken over or
refused are the received ones, up to the one that made the session end. -/
theorem C47_tcpcl_acks_and_transfers (e : Env) (refuse : Bool) (loc remote : SessInit)
    (evs : List ((Bytes → Bool) × Sess.Ev)) (hw : ∀ x ∈ evs, ∀ p, x.2 = .recv p → WellFormed p) (s : Sess)
    (hs : s = (newSess refuse loc remote).run e evs) :
    acksIn s.out = ackValues 0 (accepted s) ∧
    (∃ (transfers : List (List XferSeg × Bytes)) (pend : List XferSeg),
      accepted s = (transfers.map (·.1)).flatten ++ pend ∧
      (∀ t ∈ transfers, IsTransfer t.1 t.2) ∧ (∀ d ∈ pend, d.flags.end = false) ∧
      s.processed = (transfers.map (·.2)).filter e.parses ∧
      s.broken = (transfers.map (·.2)).filter fun d => !e.parses d) ∧
    s.handled.map (·.1) <+: segsIn (recvs evs) ∧
    (s.isTerminated = false → s.handled.map (·.1) = segsIn (recvs evs)) := by
  have hlen : ∀ x ∈ evs, ∀ d, x.2 = .recv (.xferSeg d) → d.len = d.buf.length :=
    fun x hx d hd => (hw x hx _ hd).2.1
  obtain ⟨groups, pend, h⟩ := RxShape.run (e := e) (s := newSess refuse loc remote) evs
    (RxShape.fresh ⟨_, _, _, rfl⟩) hlen
  rw [← hs] at h
  have hpre := handled_prefix e (newSess refuse loc remote) rfl evs
  rw [← hs] at hpre
  refine ⟨h.acks, ⟨groups.filterMap (fun g => g.2.map fun d => (g.1, d)), pend, ?_, ?_, ?_, ?_, ?_⟩, hpre⟩
  · rw [accepted_groups h]
    congr 1
    clear h
    induction groups with
    | nil => rfl
    | cons g groups ih =>
      obtain ⟨l, o⟩ := g
      cases o <;> simp [ih]
  · intro t ht
    obtain ⟨g, hg, hgt⟩ := List.mem_filterMap.mp ht
    obtain ⟨d, hd, rfl⟩ := Option.map_eq_some_iff.mp hgt
    have := h.ok g hg
    unfold Group.Ok at this
    rw [hd] at this; exact this
  · rcases h.pending with rfl | ⟨tid, ht⟩
    · simp
    · exact ht.2.2.2
  · rw [h.processed]
    congr 1
    rw [List.map_filterMap]
    congr 1
    funext g
    cases g.2 <;> rfl
  · rw [h.broken]
    congr 1
    rw [List.map_filterMap]
    congr 1
    funext g
    cases g.2 <;> rfl

/-- A history with two transfers. -/
def exReceive : List ((Bytes → Bool) × Sess.Ev) :=
  [(fun _ => false, .recv (.xferSeg { flags := { start := true }, tid := 4, len := 2, buf := [0x9f, 1], extensions := [] })),
   (fun _ => false, .recv .keepAlive),
   (fun _ => false, .recv (.xferSeg { flags := { «end» := true }, tid := 4, len := 1, buf := [2], extensions := [] })),
   (fun _ => false, .recv (.xferSeg { flags := { start := true, «end» := true }, tid := 5, len := 1, buf := [7], extensions := [] }))]

example : (∀ x ∈ exReceive, ∀ p, x.2 = .recv p → WellFormed p) ∧
    (let s := (newSess false exSessInit exSessInit).run exSessEnv exReceive
     acksIn s.out = [(4, 2), (4, 3), (5, 1)] ∧ s.processed = [[0x9f, 1, 2]] ∧ s.broken = [[7]]) := by
  refine ⟨?_, by decide⟩
  intro x hx p hp
  simp only [exReceive, List.mem_cons, List.not_mem_nil, or_false] at hx
  rcases hx with rfl | rfl | rfl | rfl <;> cases hp <;> simp [WellFormed]

/-- C47: a segment out of sequence — a START in the middle of a transfer, another transfer id, or a first segment
without START — ends the session; nothing is acknowledged, taken over or processed. -/
theorem C47_out_of_sequence_ends_session (e : Env) (s : Sess) (d : XferSeg) (hlive : s.isTerminated = false)
    (hseq : (∃ buf tid, s.rx = .receiving buf tid ∧ (d.flags.start = true ∨ d.tid ≠ tid)) ∨
      (s.rx = .idle ∧ d.flags.start = false)) :
    let s' := s.step e (.recv (.xferSeg d))
    s'.isTerminated = true ∧ s'.out = s.out ∧ accepted s' = accepted s ∧ s'.processed = s.processed ∧
      s'.broken = s.broken := by
  have key : s.receiveSeg e d = s.terminated := by
    unfold Sess.receiveSeg
    rcases hseq with ⟨buf, tid, h1, h2⟩ | ⟨h1, h2⟩
    · rw [h1]
      simp only
      split
      · rfl
      · split
        · rfl
        · next h3 h4 =>
          rcases h2 with h2 | h2
          · exact absurd h2 h3
          · exact absurd (fun h => h2 h.symm) h4
    · rw [h1]
      simp only
      rw [if_pos]
      cases hf : d.flags with
      | mk en st => rw [hf] at h2; cases en <;> simp_all [SegFlags.isEmpty]
  rw [step_recv hlive (by intro h; cases h)]
  simp only [Sess.receive, key]
  exact ⟨by simp [Sess.terminated, Sess.isTerminated], rfl, rfl, rfl, rfl⟩

example : ((newSess false exSessInit exSessInit).run exSessEnv (exReceive.take 1)).rx = .receiving [0x9f, 1] 4 := by decide

/-! ## C48 -/

/-- C48, the proved part: the keepalive interval of both ends is the minimum of the two announced ones. -/
theorem C48_keepalive_negotiated_partial (refuse refuse' : Bool) (a b : SessInit) :
    (newSess refuse a b).keepalive = min a.keepalive b.keepalive ∧
    (newSess refuse' b a).keepalive = (newSess refuse a b).keepalive := by
  simp [newSess, negotiateKeepalive, Nat.min_comm]

/-- Without keepalives of the peer the session takes no keepalive for sent or received, or has ended. -/
theorem noKeepalive_flags {e : Env} {refuse : Bool} {a b : SessInit} {evs : List ((Bytes → Bool) × Sess.Ev)} (h : NoKeepalive evs) :
    ((newSess refuse a b).run e evs).isTerminated = true ∨
      (((newSess refuse a b).run e evs).keepaliveReceived = false ∧ ((newSess refuse a b).run e evs).keepaliveSent = false) := by
  obtain ⟨before, since, rfl, hb, hs⟩ := h
  have ended : ∀ (e : Env) (s : Sess) ev, s.isTerminated = true → s.step e ev = s := by
    intro e s ev ht
    unfold Sess.step
    rw [if_pos ht]
  have ht : ∀ s' : Sess, s'.terminated.isTerminated = true := fun s' => by simp [Sess.terminated, Sess.isTerminated]
  induction since using List.reverseRecOn with
  | nil =>
    rw [List.append_nil]
    rcases hb with rfl | ⟨has, p, hl, hp⟩
    · exact Or.inr ⟨rfl, rfl⟩
    · obtain ⟨l, rfl⟩ := List.getLast?_eq_some_iff.mp hl
      simp only [Sess.run, List.foldl_append, List.foldl_cons, List.foldl_nil]
      generalize List.foldl _ _ l = s
      by_cases hd : s.isTerminated = true
      · rw [ended _ _ _ hd]; exact Or.inl hd
      · right
        rw [step_recv (by simpa using hd) hp]
        exact ⟨rfl, rfl⟩
  | append_singleton l x ih =>
    have ih := ih fun y hy => hs y (List.mem_append_left _ hy)
    have hx := hs x (by simp)
    rw [← List.append_assoc]
    simp only [Sess.run, List.foldl_append, List.foldl_cons, List.foldl_nil] at ih ⊢
    generalize List.foldl _ (List.foldl _ _ before) l = s at ih
    rcases ih with ih | ⟨h1, h2⟩
    · rw [ended _ _ _ ih]; exact Or.inl ih
    · by_cases hd : s.isTerminated = true
      · rw [ended _ _ _ hd]; exact Or.inl hd
      obtain ⟨has, ev⟩ := x
      cases ev with
      | recv p =>
        right
        rw [step_recv (by simpa using hd) (fun h => hx (by rw [h]))]
        exact ⟨rfl, rfl⟩
      | request d =>
        unfold Sess.step
        rw [if_neg hd]
        simp only
        split
        · right
          have hsb : ∀ (s' : Sess) (req : Nat), s'.keepaliveReceived = false → s'.keepaliveSent = false →
              (s'.sendBundle d req).keepaliveReceived = false ∧ (s'.sendBundle d req).keepaliveSent = false := by
            intro s' req g1 g2
            rcases TcpPool.sendBundle_cases s' d req with g | g | ⟨out, g⟩ <;> rw [g] <;> exact ⟨g1, g2⟩
          unfold Sess.request
          dsimp only
          by_cases hr : s.refuseExisting = true
          · rw [if_pos hr]
            split <;> exact ⟨rfl, rfl⟩
          · rw [if_neg hr]
            exact hsb _ _ rfl rfl
        · exact Or.inr ⟨h1, h2⟩
      | closed =>
        unfold Sess.step
        rw [if_neg hd]
        simp only
        split
        · exact Or.inl (ht _)
        · exact Or.inr ⟨h1, h2⟩
      | timeout =>
        left
        unfold Sess.step
        rw [if_neg hd]
        simp only [h2, Bool.false_eq_true, if_false]
        rw [if_pos (by simp [Sess.send, h1])]
        exact ht _
      | lost =>
        left
        unfold Sess.step
        rw [if_neg hd]
        exact ht _

/-- C48, the proved part: whatever happened before, a silent interval makes a session send a keepalive if the peer has sent none since its last
other message. The session is ended right behind it, see `C48_first_timeout_terminates_violated`. -/
theorem C48_timeout_sends_keepalive_partial (e : Env) (refuse : Bool) (a b : SessInit) (evs : List ((Bytes → Bool) × Sess.Ev)) (has : Bytes → Bool)
    (hq : NoKeepalive evs) (hlive : ((newSess refuse a b).run e evs).isTerminated = false) :
    ((newSess refuse a b).run e (evs ++ [(has, .timeout)])).out =
      ((newSess refuse a b).run e evs).out ++ [.keepAlive, .sessTerm false .idleTimeout] := by
  rcases noKeepalive_flags hq with h | ⟨h1, h2⟩
  · rw [hlive] at h; cases h
  · simp only [Sess.run, List.foldl_append, List.foldl_cons, List.foldl_nil] at hlive h1 h2 ⊢
    generalize List.foldl _ _ evs = s at hlive h1 h2
    unfold Sess.step
    simp only [hlive, Bool.false_eq_true, if_false, h2]
    rw [if_pos (by simp [Sess.send, h1])]
    simp [Sess.terminate, Sess.send, Sess.terminated]

/-- C48 is false: whatever happened before, if the peer has not just sent a keepalive, the very first silent interval ends the session at
once; the peer is given no time to answer. -/
theorem C48_first_timeout_terminates_violated (e : Env) (refuse : Bool) (a b : SessInit) (evs : List ((Bytes → Bool) × Sess.Ev)) (has : Bytes → Bool)
    (hq : NoKeepalive evs) : ((newSess refuse a b).run e (evs ++ [(has, .timeout)])).isTerminated = true := by
  have hs := noKeepalive_flags (e := e) (refuse := refuse) (a := a) (b := b) hq
  simp only [Sess.run, List.foldl_append, List.foldl_cons, List.foldl_nil] at hs ⊢
  generalize List.foldl _ _ evs = s at hs
  unfold Sess.step
  rcases hs with h | ⟨h1, h2⟩
  · rw [if_pos h]; exact h
  · by_cases hd : s.isTerminated = true
    · rw [if_pos hd]; exact hd
    · rw [if_neg hd]
      simp only [h2, Bool.false_eq_true, if_false]
      rw [if_pos (by simp [Sess.send, h1])]
      simp [Sess.terminate, Sess.terminated, Sess.isTerminated]

/-- C48 is false: a keepalive of the peer is answered by one, and then no number of silent intervals ends the session or makes it send
anything. -/
theorem C48_dead_peer_never_detected_violated (e : Env) (refuse : Bool) (a b : SessInit) (evs : List ((Bytes → Bool) × Sess.Ev))
    (hq : NoKeepalive evs) (hlive : ((newSess refuse a b).run e evs).isTerminated = false) (has has' : Bytes → Bool) (n : Nat) :
    let s := (newSess refuse a b).run e (evs ++ (has, .recv .keepAlive) :: List.replicate n (has', .timeout))
    s.isTerminated = false ∧ s.out = ((newSess refuse a b).run e evs).out ++ [.keepAlive] := by
  intro s
  rcases noKeepalive_flags hq with h | ⟨h1, h2⟩
  · rw [hlive] at h; cases h
  · have hs : s = (List.replicate n ((has', .timeout) : (Bytes → Bool) × Sess.Ev)).foldl (fun s x => s.step { e with hasItem := x.1 } x.2)
        (((newSess refuse a b).run e evs).step { e with hasItem := has } (.recv .keepAlive)) := by
      simp [s, Sess.run, List.foldl_append]
    generalize (newSess refuse a b).run e evs = t at *
    have ht : t.step { e with hasItem := has } (.recv .keepAlive) = { t.send .keepAlive with keepaliveSent := true, keepaliveReceived := true } := by
      unfold Sess.step
      simp only [hlive, Bool.false_eq_true, if_false, h2]
    rw [ht] at hs
    have still : ∀ m, (List.replicate m ((has', .timeout) : (Bytes → Bool) × Sess.Ev)).foldl (fun s x => s.step { e with hasItem := x.1 } x.2)
        { t.send .keepAlive with keepaliveSent := true, keepaliveReceived := true } =
        { t.send .keepAlive with keepaliveSent := true, keepaliveReceived := true } := by
      intro m
      induction m with
      | zero => rfl
      | succ m ih =>
        rw [List.replicate_succ, List.foldl_cons]
        have : Sess.step { e with hasItem := has' } { t.send .keepAlive with keepaliveSent := true, keepaliveReceived := true } .timeout =
            { t.send .keepAlive with keepaliveSent := true, keepaliveReceived := true } := by
          have hl : ({ t.send .keepAlive with keepaliveSent := true, keepaliveReceived := true } : Sess).isTerminated = false := hlive
          unfold Sess.step
          rw [hl]
          simp
        rw [this, ih]
    rw [hs, still]
    exact ⟨hlive, rfl⟩

/-- C48, the proved part: a keepalive of the peer is answered by one, and the answer to that is not answered: two ends do not answer each
other's keepalives forever. -/
theorem C48_answered_once_partial (e : Env) (refuse : Bool) (a b : SessInit) (evs : List ((Bytes → Bool) × Sess.Ev))
    (hq : NoKeepalive evs) (hlive : ((newSess refuse a b).run e evs).isTerminated = false) (has has' : Bytes → Bool) :
    ((newSess refuse a b).run e (evs ++ [(has, .recv .keepAlive)])).out = ((newSess refuse a b).run e evs).out ++ [.keepAlive] ∧
    ((newSess refuse a b).run e (evs ++ [(has, .recv .keepAlive), (has', .recv .keepAlive)])).out = ((newSess refuse a b).run e evs).out ++ [.keepAlive] := by
  rcases noKeepalive_flags hq with h | ⟨h1, h2⟩
  · rw [hlive] at h; cases h
  · simp only [Sess.run, List.foldl_append, List.foldl_cons, List.foldl_nil] at hlive h1 h2 ⊢
    generalize List.foldl _ _ evs = s at hlive h1 h2
    have ht : s.step { e with hasItem := has } (.recv .keepAlive) = { s.send .keepAlive with keepaliveSent := true, keepaliveReceived := true } := by
      unfold Sess.step
      simp only [hlive, Bool.false_eq_true, if_false, h2]
    rw [ht]
    refine ⟨rfl, ?_⟩
    have hl : ({ s.send .keepAlive with keepaliveSent := true, keepaliveReceived := true } : Sess).isTerminated = false := hlive
    unfold Sess.step
    rw [hl]
    simp [Sess.send]

/-- A session that has just received a bundle, and one that has just begun. -/
example : NoKeepalive exReceive ∧ NoKeepalive [] ∧
    ((newSess false exSessInit exSessInit).run exSessEnv exReceive).isTerminated = false := by
  refine ⟨⟨exReceive, [], rfl, Or.inr ⟨_, _, rfl, ?_⟩, by simp⟩, ⟨[], [], rfl, Or.inl rfl, by simp⟩, by decide⟩
  intro h; cases h

/-- C48 is false: a peer announcing keepalive 0 (no keepalives wanted) sets the timer to zero instead of disabling it. -/
theorem C48_zero_does_not_disable_violated (refuse : Bool) (loc remote : SessInit) (h : remote.keepalive = 0) :
    timerSecs (newSess refuse loc remote) = 0 := by
  simp [timerSecs, newSess, negotiateKeepalive, h]

/-! ## C62 -/

/-- C62, the proved part: as long as nothing else happens, messages may arrive cut into pieces in any way; the session
ends up exactly where it would be after receiving the messages whole. -/
theorem C62_tcpcl_stream_cut_irrelevant_partial (e : Env) (s : Sess) (msgs : List Packet)
    (hw : ∀ p ∈ msgs, WellFormed p ∧ ∀ t, p ≠ .contactHeader t) (pieces : List Bytes)
    (hcut : pieces.flatten = (msgs.map write).flatten) :
    ((pieces.map IOEv.bytes).foldl (SessIO.step e) { s := s }).s =
      msgs.foldl (fun s p => s.step e (.recv p)) s := by
  have hm := drainIO_messages e msgs s hw
  rcases chunks_irrelevant e pieces { s := s } with h | ⟨h1, h2⟩
  · rw [h]
    simp only [List.nil_append, hcut]
    exact hm
  · rw [h2]
    subst h1
    rw [← hcut] at hm
    simpa [drainIO_nil] using hm

example : (∀ p ∈ [Packet.keepAlive, .xferAck { flags := {}, tid := 1, len := 2 }],
    WellFormed p ∧ ∀ t, p ≠ .contactHeader t) := by simp [WellFormed]

/-- A bundle sent as one segment. -/
def exOne : Packet :=
  .xferSeg { flags := { start := true, «end» := true }, tid := 1, len := 3, buf := [0x9f, 1, 2], extensions := [] }

/-- C62 is false: if a bundle is handed to the session while a message has arrived only in part, the part already
read is lost, the rest is taken for the beginning of a message and the session breaks. Here a peer's bundle, sent
as one segment and delivered by TCP in two pieces, is received when nothing else happens, and is lost and ends the session
when the node has something to send at that moment. -/
theorem C62_request_during_read_loses_message_violated :
    let first := (write exOne).take 10
    let second := (write exOne).drop 10
    let ok := [IOEv.bytes first, .bytes second].foldl (SessIO.step exSessEnv) { s := newSess false exSessInit exSessInit }
    let bad := [IOEv.bytes first, .request [0x9f], .bytes second].foldl (SessIO.step exSessEnv)
      { s := newSess false exSessInit exSessInit }
    WellFormed exOne ∧ ok.s.processed = [[0x9f, 1, 2]] ∧ ok.s.isTerminated = false ∧
    bad.s.processed = [] ∧ bad.s.isTerminated = true := by
  refine ⟨by simp [WellFormed, exOne], ?_⟩
  decide

/-- C62 is false in general: whatever part of a message has been read when a request is taken or the timer fires is
gone. -/
theorem C62_partial_read_dropped_violated (e : Env) (io : SessIO) (data : Bytes) :
    (io.s.tx = .idle → (io.step e (.request data)).partialRead = []) ∧ (io.step e .timeout).partialRead = [] := by
  constructor
  · intro h; simp [SessIO.step, h]
  · rfl

end Dtn.Props
