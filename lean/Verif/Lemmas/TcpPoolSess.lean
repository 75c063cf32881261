import Verif.Spec.TcpPool
import Verif.Lemmas.TcpclSend
/-! Requests and results of a TCPCL session. -/

namespace Dtn.TcpPool
open Dtn.Tcpcl
open Dtn.Spec.TcpPoolSpec

/-- The request a session is sending. -/
def txReq : TxState → Option Nat
  | .sending _ req => some req
  | .transferRequest _ req => some req
  | _ => none

/-- A session answers its requests one after the other. -/
structure Tidy (s : Sess) : Prop where
  live : s.isTerminated = false
  tid : s.lastTid = s.requests.length
  tx : match s.tx with
    | .idle => s.results.map (·.1) = List.range s.requests.length
    | .sending len req => s.requests.length = req + 1 ∧ s.results.map (·.1) = List.range req ∧
        (s.requests[req]?).map List.length = some len
    | .transferRequest data req => s.requests.length = req + 1 ∧ s.results.map (·.1) = List.range req ∧
        s.requests[req]? = some data ∧ s.refuseExisting = true
    | .terminated => False

/-- The next result of a session that is sending request `req` is the one of this request; otherwise it goes on sending or ends. -/
structure Goes (s t : Sess) : Prop where
  requests : t.requests = s.requests
  refuse : t.refuseExisting = s.refuseExisting
  tidy : t.isTerminated = true ∨ Tidy t
  results : (t.results = s.results ∧ (t.isTerminated = true ∨ txReq t.tx = txReq s.tx)) ∨
    ∃ req r, txReq s.tx = some req ∧ t.results = s.results ++ [(req, r)] ∧ txReq t.tx = none ∧ t.isTerminated = false

theorem terminated_is (s : Sess) : s.terminated.isTerminated = true := by simp [Sess.terminated, Sess.isTerminated]

theorem goes_term (s : Sess) : Goes s s.terminated :=
  ⟨rfl, rfl, .inl (terminated_is s), .inl ⟨rfl, .inl (terminated_is s)⟩⟩

/-- A session in which only other fields changed. -/
theorem goes_same {s t : Sess} (h : Tidy s) (h1 : t.requests = s.requests) (h2 : t.refuseExisting = s.refuseExisting)
    (h3 : t.results = s.results) (h4 : t.tx = s.tx) (h5 : t.lastTid = s.lastTid) (h6 : t.isTerminated = false) : Goes s t := by
  refine ⟨h1, h2, .inr ⟨h6, by rw [h5, h1, h.tid], ?_⟩, .inl ⟨h3, .inr (by rw [h4])⟩⟩
  have := h.tx
  rw [h4, h1, h3, h2]
  exact this

/-- Nothing more happened than an unanswered ending, or nothing at all as far as requests go. -/
theorem goes_rx {s t : Sess} (h : Tidy s) (h1 : t.requests = s.requests) (h2 : t.refuseExisting = s.refuseExisting)
    (h3 : t.results = s.results) (h4 : t.tx = s.tx) (h5 : t.lastTid = s.lastTid) (h6 : t.rx ≠ .terminated) : Goes s t := by
  refine goes_same h h1 h2 h3 h4 h5 ?_
  have := h.live
  unfold Sess.isTerminated at this ⊢
  simp at this
  simp [h6, h4, this.2]

theorem sendBundle_cases (s : Sess) (data : Bytes) (req : Nat) :
    s.sendBundle data req = s.terminated ∨
    s.sendBundle data req = { s.respond req .failure with tx := .idle } ∨
    ∃ out, s.sendBundle data req = { s with out := out, tx := .sending data.length req } := by
  unfold Sess.sendBundle
  split
  · exact .inl rfl
  · simp only
    split
    · exact .inr (.inl rfl)
    · exact .inr (.inr ⟨_, by rw [foldl_send_fields]⟩)

theorem live_rx {s : Sess} (h : s.isTerminated = false) : s.rx ≠ .terminated ∧ s.tx ≠ .terminated := by
  simpa [Sess.isTerminated] using h

theorem live_of {s : Sess} (h1 : s.rx ≠ .terminated) (h2 : s.tx ≠ .terminated) : s.isTerminated = false := by
  simp [Sess.isTerminated, h1, h2]

theorem range_succ_map {l : List (Nat × TransferResult)} {n : Nat} {r : TransferResult} (h : l.map (·.1) = List.range n) :
    (l ++ [(n, r)]).map (·.1) = List.range (n + 1) := by
  rw [List.map_append, h, List.range_succ]
  rfl

/-- A result for the request being sent. -/
theorem goes_respond {s : Sess} (h : Tidy s) {req : Nat} (hr : txReq s.tx = some req) (r : TransferResult) :
    Goes s { s.respond req r with tx := .idle } := by
  have hlen : s.requests.length = req + 1 ∧ s.results.map (·.1) = List.range req := by
    have := h.tx
    cases hx : s.tx with
    | idle => simp [hx, txReq] at hr
    | terminated => simp [hx, txReq] at hr
    | sending len q =>
      rw [hx] at this
      simp [hx, txReq] at hr
      subst hr
      exact ⟨this.1, this.2.1⟩
    | transferRequest d q =>
      rw [hx] at this
      simp [hx, txReq] at hr
      subst hr
      exact ⟨this.1, this.2.1⟩
  refine ⟨rfl, rfl, .inr ⟨live_of (live_rx h.live).1 (by simp), h.tid, ?_⟩, .inr ⟨req, r, hr, rfl, rfl, live_of (live_rx h.live).1 (by simp)⟩⟩
  simp only [Sess.respond]
  rw [hlen.1]
  exact range_succ_map hlen.2

theorem goes_sendBundle {s : Sess} (h : Tidy s) {req : Nat} {data : Bytes} (hx : s.tx = .transferRequest data req) :
    Goes s (s.sendBundle data req) := by
  have ht := h.tx
  rw [hx] at ht
  rcases sendBundle_cases s data req with e | e | ⟨out, e⟩
  · rw [e]; exact goes_term s
  · rw [e]; exact goes_respond h (by rw [hx]; rfl) _
  · rw [e]
    refine ⟨rfl, rfl, .inr ⟨live_of (live_rx h.live).1 (by simp), h.tid, ?_⟩, .inl ⟨rfl, .inr (by rw [hx]; rfl)⟩⟩
    exact ⟨ht.1, ht.2.1, by rw [ht.2.2.1]; rfl⟩

/-- The fields about requests of a session after receiving a segment. -/
theorem receiveSeg_rx (e : Env) (s : Sess) (d : XferSeg) (h : s.isTerminated = false) :
    s.receiveSeg e d = s.terminated ∨
    ((s.receiveSeg e d).requests = s.requests ∧ (s.receiveSeg e d).refuseExisting = s.refuseExisting ∧
      (s.receiveSeg e d).results = s.results ∧ (s.receiveSeg e d).tx = s.tx ∧ (s.receiveSeg e d).lastTid = s.lastTid ∧
      (s.receiveSeg e d).rx ≠ .terminated) := by
  have hr := (live_rx h).1
  unfold Sess.receiveSeg Sess.processBundle Sess.send
  cases hx : s.rx with
  | terminated => exact absurd hx hr
  | receiving buf tid =>
    simp only
    split
    · exact .inl rfl
    · split
      · exact .inl rfl
      · right
        split
        · split <;> simp
        · simp
  | idle =>
    simp only
    split
    · exact .inl rfl
    · right
      split
      · simp
      · split
        · split <;> simp
        · simp

theorem goes_flags {s t : Sess} (h : Goes s t) (x y : Bool) :
    Goes s { t with keepaliveReceived := x, keepaliveSent := y } := by
  refine ⟨h.requests, h.refuse, ?_, h.results⟩
  rcases h.tidy with h1 | h1
  · exact .inl h1
  · exact .inr ⟨h1.live, h1.tid, h1.tx⟩

theorem goes_receive {e : Env} {s : Sess} (h : Tidy s) (p : Packet) : Goes s (s.receive e p) := by
  have hterm : ∀ t : Sess, t.requests = s.requests → t.refuseExisting = s.refuseExisting → t.results = s.results → Goes s t.terminated := by
    intro t h1 h2 h3
    exact ⟨h1, h2, .inl (terminated_is t), .inl ⟨h3, .inl (terminated_is t)⟩⟩
  cases p with
  | xferSeg d =>
    simp only [Sess.receive]
    rcases receiveSeg_rx e s d h.live with hh | ⟨h1, h2, h3, h4, h5, h6⟩
    · rw [hh]; exact goes_term s
    · exact goes_rx h h1 h2 h3 h4 h5 h6
  | xferAck a =>
    simp only [Sess.receive]
    split
    · next data req hx =>
      split
      · exact goes_term s
      · exact goes_sendBundle h hx
    · next len req hx =>
      split
      · exact goes_term s
      · split
        · exact goes_same h rfl rfl rfl rfl rfl h.live
        · exact goes_respond h (by rw [hx]; rfl) _
    · exact goes_term s
  | xferRefuse r tid =>
    simp only [Sess.receive]
    split
    · next data req hx =>
      split
      · exact goes_term s
      · exact goes_respond h (by rw [hx]; rfl) _
    · next len req hx =>
      split
      · exact goes_term s
      · exact goes_respond h (by rw [hx]; rfl) _
    · exact goes_term s
  | sessTerm reply reason =>
    simp only [Sess.receive]
    cases reply
    · exact hterm _ rfl rfl rfl
    · exact goes_term s
  | _ => exact goes_term s

/-- A session goes on by anything but a new request. -/
theorem goes_step {e : Env} {s : Sess} (h : Tidy s) {ev : Sess.Ev} (hev : ∀ d, ev ≠ .request d) : Goes s (s.step e ev) := by
  have hl := h.live
  have hsame : Goes s s := goes_same h rfl rfl rfl rfl rfl h.live
  by_cases hr : ∃ p, ev = .recv p ∧ p ≠ .keepAlive
  · obtain ⟨p, rfl, hk⟩ := hr
    rw [step_recv hl hk]
    exact goes_flags (goes_receive h p) _ _
  unfold Sess.step
  rw [if_neg (by simp [hl])]
  cases ev with
  | request d => exact absurd rfl (hev d)
  | recv p =>
    by_cases hk : p = .keepAlive
    · subst hk
      simp only
      split
      · exact goes_same h rfl rfl rfl rfl rfl h.live
      · exact goes_same h rfl rfl rfl rfl rfl h.live
    · exact absurd ⟨p, rfl, hk⟩ hr
  | closed =>
    simp only
    split
    · exact ⟨rfl, rfl, .inl (by simp [Sess.terminate, Sess.terminated, Sess.isTerminated]), .inl ⟨rfl, .inl (by simp [Sess.terminate, Sess.terminated, Sess.isTerminated])⟩⟩
    · exact hsame
  | timeout =>
    simp only
    have hs1 : ∀ b : Sess, b = (if s.keepaliveSent then s else { s.send .keepAlive with keepaliveSent := true }) →
        Goes s b ∧ b.requests = s.requests ∧ b.refuseExisting = s.refuseExisting ∧ b.results = s.results := by
      intro b hb
      subst hb
      split
      · exact ⟨hsame, rfl, rfl, rfl⟩
      · exact ⟨goes_same h rfl rfl rfl rfl rfl h.live, rfl, rfl, rfl⟩
    generalize hb : (if s.keepaliveSent then s else { s.send .keepAlive with keepaliveSent := true }) = b
    obtain ⟨h1, h2, h3, h4⟩ := hs1 b hb.symm
    split
    · exact ⟨h2, h3, .inl (by simp [Sess.terminate, Sess.terminated, Sess.isTerminated]), .inl ⟨h4, .inl (by simp [Sess.terminate, Sess.terminated, Sess.isTerminated])⟩⟩
    · exact h1
  | lost => exact goes_term s

/-- The session with a request taken but nothing sent for it yet. -/
def mid (s : Sess) (data : Bytes) : Sess :=
  { s with lastTid := s.lastTid + 1, requests := s.requests ++ [data], tx := .sending data.length s.requests.length }

theorem mid_tidy {s : Sess} (h : Tidy s) (hi : s.tx = .idle) (data : Bytes) : Tidy (mid s data) := by
  have ht := h.tx
  rw [hi] at ht
  refine ⟨live_of (live_rx h.live).1 (by simp [mid]), by simp [mid, h.tid], ?_⟩
  simp only [mid]
  refine ⟨by simp, ht, by simp⟩

/-- A session takes a request. -/
theorem goes_request {e : Env} {s : Sess} (h : Tidy s) (hi : s.tx = .idle) (data : Bytes) :
    Goes (mid s data) (s.step e (.request data)) := by
  have hm := mid_tidy h hi data
  have hl := h.live
  unfold Sess.step
  rw [if_neg (by simp [hl])]
  simp only [hi, if_true]
  unfold Sess.request
  simp only
  split
  · next hre =>
    split
    · refine ⟨rfl, rfl, .inr ⟨live_of (live_rx h.live).1 (by simp), by simp [Sess.send, h.tid], ?_⟩, .inl ⟨rfl, .inr rfl⟩⟩
      have ht := h.tx
      rw [hi] at ht
      simp only [Sess.send]
      exact ⟨by simp, ht, by simp, hre⟩
    · exact ⟨rfl, rfl, .inl (terminated_is _), .inl ⟨rfl, .inl (terminated_is _)⟩⟩
  · generalize hs1 : ({ s with lastTid := s.lastTid + 1, requests := s.requests ++ [data], keepaliveSent := false, keepaliveReceived := false } : Sess) = s1
    have e1 : s1.requests = (mid s data).requests := by rw [← hs1]; rfl
    have e2 : s1.refuseExisting = (mid s data).refuseExisting := by rw [← hs1]; rfl
    have e3 : s1.results = (mid s data).results := by rw [← hs1]; rfl
    have e4 : s1.lastTid = (mid s data).lastTid := by rw [← hs1]; rfl
    have e5 : s1.rx = s.rx := by rw [← hs1]
    have ht := h.tx
    rw [hi] at ht
    rcases sendBundle_cases s1 data s.requests.length with e | e | ⟨out, e⟩
    · rw [e]; exact ⟨e1, e2, .inl (terminated_is _), .inl ⟨e3, .inl (terminated_is _)⟩⟩
    · rw [e]
      refine ⟨e1, e2, .inr ⟨live_of (by simpa [Sess.respond, e5] using (live_rx h.live).1) (by simp), ?_, ?_⟩,
        .inr ⟨s.requests.length, .failure, rfl, by simp [Sess.respond, e3], rfl,
          live_of (by simpa [Sess.respond, e5] using (live_rx h.live).1) (by simp)⟩⟩
      · simp [Sess.respond, e4, e1, mid, h.tid]
      · simp only [Sess.respond, e3, e1, mid, List.length_append, List.length_singleton]
        exact range_succ_map ht
    · rw [e]
      refine ⟨e1, e2, .inr ⟨live_of (by simpa [e5] using (live_rx h.live).1) (by simp), by simp [e4, e1, mid, h.tid], ?_⟩, .inl ⟨e3, .inr rfl⟩⟩
      simp only [e1, e3, mid]
      exact ⟨by simp, ht, by simp⟩

theorem newSess_tidy (refuse : Bool) (loc remote : SessInit) : Tidy (newSess refuse loc remote) :=
  ⟨rfl, rfl, rfl⟩

theorem sendBundle_success {s : Sess} {data : Bytes} {req j : Nat} (h : (j, TransferResult.successful) ∈ (s.sendBundle data req).results) :
    (j, TransferResult.successful) ∈ s.results := by
  rcases sendBundle_cases s data req with e | e | ⟨out, e⟩
  · rw [e] at h; exact h
  · rw [e] at h; simpa [Sess.respond] using h
  · rw [e] at h; exact h

/-- Where a new success comes from. -/
theorem success_step {e : Env} {s : Sess} (h : Tidy s) {ev : Sess.Ev} {j : Nat}
    (hn : (j, TransferResult.successful) ∈ (s.step e ev).results) :
    (j, TransferResult.successful) ∈ s.results ∨
      ∃ p data, ev = .recv p ∧ s.requests[j]? = some data ∧ Confirms s.refuseExisting j data p := by
  have hl := h.live
  have ht := h.tx
  cases ev with
  | request d =>
    left
    unfold Sess.step at hn
    rw [if_neg (by simp [hl])] at hn
    simp only at hn
    split at hn
    · unfold Sess.request at hn
      simp only at hn
      split at hn
      · split at hn <;> exact hn
      · have := sendBundle_success hn
        exact this
    · exact hn
  | closed =>
    left
    unfold Sess.step at hn
    rw [if_neg (by simp [hl])] at hn
    simp only at hn
    split at hn <;> exact hn
  | timeout =>
    left
    unfold Sess.step at hn
    rw [if_neg (by simp [hl])] at hn
    simp only at hn
    split at hn
    · split at hn <;> exact hn
    · split at hn <;> exact hn
  | lost =>
    left
    unfold Sess.step at hn
    rw [if_neg (by simp [hl])] at hn
    exact hn
  | recv p =>
    by_cases hk : p = .keepAlive
    · subst hk
      left
      unfold Sess.step at hn
      rw [if_neg (by simp [hl])] at hn
      simp only at hn
      split at hn <;> exact hn
    rw [step_recv hl hk] at hn
    replace hn : (j, TransferResult.successful) ∈ (s.receive e p).results := hn
    cases p with
    | xferAck a =>
      simp only [Sess.receive] at hn
      split at hn
      · next data req hx =>
        split at hn
        · exact .inl hn
        · exact .inl (sendBundle_success hn)
      · next len req hx =>
        rw [hx] at ht
        split at hn
        · exact .inl hn
        · next htid =>
          split at hn
          · exact .inl hn
          · next hlen =>
            simp only [Sess.respond, List.mem_append, List.mem_singleton, Prod.mk.injEq] at hn
            rcases hn with hn | ⟨rfl, _⟩
            · exact .inl hn
            · right
              obtain ⟨h1, _, h3⟩ := ht
              cases hd : s.requests[j]? with
              | none => rw [hd] at h3; cases h3
              | some d =>
                rw [hd] at h3
                simp at h3
                refine ⟨_, d, rfl, rfl, ?_, ?_⟩
                · have := h.tid
                  have htid : a.tid = s.lastTid := by simpa using htid
                  omega
                · omega
      · exact .inl hn
    | xferRefuse r tid =>
      simp only [Sess.receive] at hn
      split at hn
      · next data req hx =>
        rw [hx] at ht
        split at hn
        · exact .inl hn
        · next htid =>
          simp only [Sess.respond, List.mem_append, List.mem_singleton, Prod.mk.injEq] at hn
          rcases hn with hn | ⟨rfl, _⟩
          · exact .inl hn
          · right
            obtain ⟨h1, _, h3, h4⟩ := ht
            refine ⟨_, data, rfl, h3, h4, ?_⟩
            have := h.tid
            have htid : tid = s.lastTid := by simpa using htid
            omega
      · split at hn
        · exact .inl hn
        · left
          simpa [Sess.respond] using hn
      · exact .inl hn
    | xferSeg d =>
      left
      simp only [Sess.receive] at hn
      rcases receiveSeg_rx e s d h.live with hh | ⟨_, _, h3, _⟩
      · rw [hh] at hn; exact hn
      · rw [h3] at hn; exact hn
    | sessTerm reply reason =>
      left
      simp only [Sess.receive] at hn
      cases reply <;> exact hn
    | _ => exact .inl hn

theorem step_terminated {e : Env} {s : Sess} {ev : Sess.Ev} (h : s.isTerminated = true) : s.step e ev = s := by
  unfold Sess.step
  rw [if_pos h]

/-- Induction over the end of a list. -/
theorem ending {α : Type} {P : List α → Prop} (h0 : P []) (h1 : ∀ l x, P l → P (l ++ [x])) (l : List α) : P l := by
  have : ∀ l : List α, P l.reverse := by
    intro l
    induction l with
    | nil => exact h0
    | cons x xs ih => rw [List.reverse_cons]; exact h1 _ _ ih
  rw [← List.reverse_reverse l]
  exact this _

/-- In every history: the session has ended or is tidy, its parameters stay, and successes were confirmed. -/
theorem run_facts (e : Env) (refuse : Bool) (loc remote : SessInit) (hist : List ((Bytes → Bool) × Sess.Ev)) :
    let s := (newSess refuse loc remote).run e hist
    (s.isTerminated = true ∨ Tidy s) ∧ s.refuseExisting = refuse ∧
    ∀ j, (j, TransferResult.successful) ∈ s.results → ∃ data p has, s.requests[j]? = some data ∧ (has, Sess.Ev.recv p) ∈ hist ∧
      Confirms refuse j data p := by
  induction hist using ending with
  | h0 => exact ⟨.inr (newSess_tidy _ _ _), rfl, by simp [Sess.run, newSess]⟩
  | h1 hist x ih =>
    simp only at ih ⊢
    rw [Tcpcl.run_snoc]
    generalize (newSess refuse loc remote).run e hist = s at ih ⊢
    obtain ⟨h1, h2, h3⟩ := ih
    rcases h1 with h1 | h1
    · rw [step_terminated h1]
      refine ⟨.inl h1, h2, fun j hj => ?_⟩
      obtain ⟨d, p, has, a, b, c⟩ := h3 j hj
      exact ⟨d, p, has, a, List.mem_append_left _ b, c⟩
    · have hreq : ∀ (j : Nat) d, s.requests[j]? = some d → (s.step { e with hasItem := x.1 } x.2).requests[j]? = some d := by
        intro j d hd
        by_cases hx : ∃ dd, x.2 = .request dd
        · obtain ⟨dd, hx⟩ := hx
          by_cases hi : s.tx = .idle
          · rw [hx, (goes_request h1 hi dd).requests]
            simp only [mid]
            rw [List.getElem?_append_left (List.getElem?_eq_some_iff.mp hd).1]
            exact hd
          · rw [hx]
            unfold Sess.step
            rw [if_neg (by simp [h1.live])]
            simp only [hi, if_false]
            exact hd
        · rw [(goes_step h1 (fun d hd => hx ⟨d, hd⟩)).requests]
          exact hd
      have hboth : ((s.step { e with hasItem := x.1 } x.2).isTerminated = true ∨ Tidy (s.step { e with hasItem := x.1 } x.2)) ∧
          (s.step { e with hasItem := x.1 } x.2).refuseExisting = s.refuseExisting := by
        by_cases hx : ∃ dd, x.2 = .request dd
        · obtain ⟨dd, hx⟩ := hx
          by_cases hi : s.tx = .idle
          · rw [hx]
            exact ⟨(goes_request h1 hi dd).tidy, (goes_request h1 hi dd).refuse⟩
          · have : s.step { e with hasItem := x.1 } x.2 = s := by
              rw [hx]
              unfold Sess.step
              rw [if_neg (by simp [h1.live])]
              simp only [hi, if_false]
            rw [this]
            exact ⟨.inr h1, rfl⟩
        · exact ⟨(goes_step h1 (fun d hd => hx ⟨d, hd⟩)).tidy, (goes_step h1 (fun d hd => hx ⟨d, hd⟩)).refuse⟩
      refine ⟨hboth.1, hboth.2.trans h2, fun j hj => ?_⟩
      rcases success_step h1 hj with hj | ⟨p, data, hp, hd, hc⟩
      · obtain ⟨d, p, has, a, b, c⟩ := h3 j hj
        exact ⟨d, p, has, hreq j d a, List.mem_append_left _ b, c⟩
      · refine ⟨data, p, x.1, hreq j data hd, ?_, by rw [← h2]; exact hc⟩
        rw [← hp]
        simp

end Dtn.TcpPool
