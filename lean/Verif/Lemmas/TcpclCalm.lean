import Verif.Lemmas.TcpclConn
/-! Two connected sessions that exchange bundles: what is under way in one direction always fits what its two ends expect, so
that no message makes a session end. -/

namespace Dtn.Tcpcl
open Dtn.Spec

/-- The acknowledgements with these lengths. -/
def acksOf (t : Nat) (ms : List Nat) : List Packet := ms.map fun m => .xferAck { tid := t, len := m, flags := {} }

/-- One direction of a connection: the state of the sender with the id of its last transfer, the segments under way, the state of
the receiver, and the responses under way. -/
inductive Dir (e : Env) (refuse : Bool) : TxState → Nat → List XferSeg → RxState → List Packet → Prop
  | idle {t : Nat} : Dir e refuse .idle t [] .idle []
  | asking {data : Bytes} {req t : Nat} : refuse = true → e.parses data = true →
      Dir e refuse (.transferRequest data req) t [Sess.requestSeg e t data] .idle []
  | granted {data : Bytes} {req t : Nat} : refuse = true → e.parses data = true →
      Dir e refuse (.transferRequest data req) t [] (.receiving [] t) (acksOf t [0])
  | refusing {data : Bytes} {req t : Nat} {r : RefuseReason} : refuse = true → e.parses data = true →
      Dir e refuse (.transferRequest data req) t [] .idle [.xferRefuse r t]
  | begun {data : Bytes} {req t mru : Nat} {segs : List XferSeg} : e.parses data = true → Run mru t true segs → bytesOf segs = data →
      Dir e refuse (.sending data.length req) t segs .idle []
  | going {data buf : Bytes} {req t mru : Nat} {segs : List XferSeg} {ms : List Nat} : e.parses data = true → Run mru t false segs →
      buf ++ bytesOf segs = data → (∀ m ∈ ms, m < data.length) →
      Dir e refuse (.sending data.length req) t segs (.receiving buf t) (acksOf t ms)
  | last {n req t : Nat} {ms : List Nat} : (∀ m ∈ ms, m < n) → Dir e refuse (.sending n req) t [] .idle (acksOf t (ms ++ [n]))

theorem Dir.txLive {e : Env} {refuse : Bool} {tx : TxState} {t : Nat} {segs : List XferSeg} {rx : RxState} {rs : List Packet}
    (h : Dir e refuse tx t segs rx rs) : tx ≠ .terminated := by
  cases h <;> simp

theorem Dir.rxLive {e : Env} {refuse : Bool} {tx : TxState} {t : Nat} {segs : List XferSeg} {rx : RxState} {rs : List Packet}
    (h : Dir e refuse tx t segs rx rs) : rx ≠ .terminated := by
  cases h <;> simp

theorem Dir.idleTx {e : Env} {refuse : Bool} {t : Nat} {segs : List XferSeg} {rx : RxState} {rs : List Packet}
    (h : Dir e refuse .idle t segs rx rs) : segs = [] ∧ rx = .idle ∧ rs = [] := by
  cases h; exact ⟨rfl, rfl, rfl⟩

theorem acksOf_snoc (t : Nat) (ms : List Nat) (m : Nat) : acksOf t (ms ++ [m]) = acksOf t ms ++ [.xferAck { tid := t, len := m, flags := {} }] := by
  simp [acksOf]

/-- All transfers but the one under way have been answered with success, in order. -/
def Answered (s : Sess) : Prop :=
  match s.tx with
  | .idle => s.results = (List.range s.requests.length).map fun k => (k, .successful)
  | .sending _ req => req + 1 = s.requests.length ∧ s.results = (List.range req).map fun k => (k, .successful)
  | .transferRequest _ req => req + 1 = s.requests.length ∧ s.results = (List.range req).map fun k => (k, .successful)
  | .terminated => False

theorem Answered.same {s s' : Sess} (h : Answered s) (htx : s'.tx = s.tx) (hr : s'.results = s.results) (hq : s'.requests = s.requests) :
    Answered s' := by
  unfold Answered at *
  rw [htx, hr, hq]; exact h

theorem Answered.success {s s' : Sess} {req : Nat} (hn : req + 1 = s.requests.length) (h : s.results = (List.range req).map fun k => (k, .successful))
    (htx : s'.tx = .idle) (hr : s'.results = s.results ++ [(req, .successful)]) (hq : s'.requests = s.requests) : Answered s' := by
  unfold Answered
  rw [htx]
  simp only
  rw [hr, hq, h, ← hn, List.range_succ, List.map_append]
  rfl

/-- A segment arrives at the receiver. -/
theorem receive_dir {e : Env} {refuse : Bool} {tx : TxState} {t : Nat} {d : XferSeg} {segs : List XferSeg} {rs : List Packet} {s : Sess}
    (has : Bytes → Bool) (h : Dir e refuse tx t (d :: segs) s.rx rs) :
    let s' := s.receive { e with hasItem := has } (.xferSeg d)
    ∃ p, isResp p = true ∧ s'.out = s.out ++ [p] ∧ s'.tx = s.tx ∧ s'.lastTid = s.lastTid ∧ s'.segmentMru = s.segmentMru ∧
      s'.refuseExisting = s.refuseExisting ∧ s'.results = s.results ∧ s'.requests = s.requests ∧ Dir e refuse tx t segs s'.rx (rs ++ [p]) := by
  intro s'
  have hs' : s' = s.receiveSeg { e with hasItem := has } d := rfl
  clear_value s'
  subst hs'
  generalize hrx : s.rx = rx at h
  generalize hl : d :: segs = l at h
  cases h with
  | idle => cases hl
  | granted => cases hl
  | refusing => cases hl
  | last => cases hl
  | @asking data req _ hr hp =>
    obtain ⟨rfl, rfl⟩ := List.cons.inj hl
    unfold Sess.receiveSeg
    rw [hrx]
    simp only
    rw [if_neg (by simp [Sess.requestSeg, SegFlags.isEmpty])]
    split
    · exact ⟨_, rfl, rfl, rfl, rfl, rfl, rfl, rfl, rfl, by simpa [Sess.requestSeg, Sess.send, hrx] using Dir.refusing hr hp⟩
    · rw [if_neg (by simp [Sess.requestSeg])]
      exact ⟨_, rfl, rfl, rfl, rfl, rfl, rfl, rfl, rfl, Dir.granted hr hp⟩
  | @begun data req _ mru segs' hp hrun hb =>
    subst hl
    unfold Sess.receiveSeg
    rw [hrx]
    simp only
    cases segs with
    | nil =>
      obtain ⟨h1, h2, h3, h4, h5, h6⟩ := hrun
      have hbuf : d.buf = data := by simpa [bytesOf] using hb
      rw [if_neg (by simp [h2, SegFlags.isEmpty]), if_neg (by simp [Sess.refuses, h6]), if_pos (by simp [h2])]
      unfold Sess.processBundle
      rw [if_pos (by simpa [hbuf] using hp)]
      refine ⟨_, rfl, rfl, rfl, rfl, rfl, rfl, rfl, rfl, ?_⟩
      have := Dir.last (e := e) (refuse := refuse) (n := data.length) (req := req) (t := d.tid) (ms := []) (by simp)
      rw [h1] at this
      simpa [acksOf, h1, h3, hbuf] using this
    | cons x xs =>
      obtain ⟨h1, h2, h3, h4, h5, h6, h7⟩ := hrun
      rw [if_neg (by simp [h2, SegFlags.isEmpty]), if_neg (by simp [Sess.refuses, h6]), if_neg (by simp [h2])]
      refine ⟨_, rfl, rfl, rfl, rfl, rfl, rfl, rfl, rfl, ?_⟩
      have hb' : d.buf ++ bytesOf (x :: xs) = data := by rw [← hb]; simp [bytesOf]
      have hx : 0 < (bytesOf (x :: xs)).length := by
        have : 0 < x.buf.length := by
          cases xs with
          | nil => exact h7.2.2.2.1
          | cons y ys => exact h7.2.2.2.1
        simp [bytesOf]; omega
      have hlt : d.len < data.length := by rw [h3, ← hb', List.length_append]; omega
      have := Dir.going (refuse := refuse) (req := req) (ms := [d.len]) hp h7 hb' (by simpa using hlt)
      simpa [acksOf, h1] using this
  | @going data buf req _ mru segs' ms hp hrun hb hms =>
    subst hl
    unfold Sess.receiveSeg
    rw [hrx]
    simp only
    cases segs with
    | nil =>
      obtain ⟨h1, h2, h3, h4, h5, h6⟩ := hrun
      have hbuf : buf ++ d.buf = data := by simpa [bytesOf] using hb
      rw [if_neg (by simp [h2]), if_neg (by simp [h1]), if_pos (by simp [h2])]
      unfold Sess.processBundle
      rw [if_pos (by simpa [hbuf] using hp)]
      refine ⟨_, rfl, rfl, rfl, rfl, rfl, rfl, rfl, rfl, ?_⟩
      have := Dir.last (e := e) (refuse := refuse) (req := req) (t := t) hms
      simpa [acksOf, h1, hbuf] using this
    | cons x xs =>
      obtain ⟨h1, h2, h3, h4, h5, h6, h7⟩ := hrun
      rw [if_neg (by simp [h2]), if_neg (by simp [h1]), if_neg (by simp [h2])]
      refine ⟨_, rfl, rfl, rfl, rfl, rfl, rfl, rfl, rfl, ?_⟩
      have hb' : (buf ++ d.buf) ++ bytesOf (x :: xs) = data := by rw [← hb]; simp [bytesOf]
      have hx : 0 < (bytesOf (x :: xs)).length := by
        have : 0 < x.buf.length := by
          cases xs with
          | nil => exact h7.2.2.2.1
          | cons y ys => exact h7.2.2.2.1
        simp [bytesOf]; omega
      have hlt : (buf ++ d.buf).length < data.length := by rw [← hb', List.length_append (as := buf ++ d.buf)]; omega
      have hms' : ∀ m ∈ ms ++ [(buf ++ d.buf).length], m < data.length := by
        intro m hm
        rcases List.mem_append.mp hm with hm | hm
        · exact hms m hm
        · rw [List.mem_singleton.mp hm]; exact hlt
      have := Dir.going (refuse := refuse) (req := req) hp h7 hb' hms'
      rw [acksOf_snoc] at this
      simpa [h1] using this

/-- The segments of a bundle are written. -/
theorem sendBundle_dir {s : Sess} {data : Bytes} {req : Nat} (hm : 0 < s.segmentMru) (hd : data ≠ []) :
    let s' := s.sendBundle data req
    ∃ segs, Run s.segmentMru s.lastTid (!s.refuseExisting) segs ∧ bytesOf segs = data ∧ s'.out = s.out ++ segs.map Packet.xferSeg ∧
      s'.tx = .sending data.length req ∧ s'.rx = s.rx ∧ s'.lastTid = s.lastTid ∧ s'.segmentMru = s.segmentMru ∧
      s'.refuseExisting = s.refuseExisting ∧ s'.results = s.results ∧ s'.requests = s.requests := by
  intro s'
  have hsp := segments_spec (refuse := s.refuseExisting) (tid := s.lastTid) (data := data) hm
  refine ⟨segments s.refuseExisting s.lastTid s.segmentMru data, hsp.2.2 hd, hsp.2.1, ?_⟩
  have : s' = { s with out := s.out ++ (segments s.refuseExisting s.lastTid s.segmentMru data).map Packet.xferSeg, tx := .sending data.length req } := by
    show s.sendBundle data req = _
    unfold Sess.sendBundle
    rw [if_neg (by omega)]
    simp only
    rw [if_neg (fun h => hd (hsp.1.mp h)), foldl_send_fields]
  rw [this]
  exact ⟨rfl, rfl, rfl, rfl, rfl, rfl, rfl, rfl⟩

/-- What a sender that has asked still has to write. -/
def toWrite : TxState → Nat
  | .transferRequest data _ => data.length
  | _ => 0

theorem Run.length_le {mru t : Nat} : ∀ {st : Bool} {segs : List XferSeg}, Run mru t st segs → segs.length ≤ (bytesOf segs).length
  | _, [], _ => Nat.zero_le _
  | _, [d], h => by
    have := h.2.2.2.1
    simp [bytesOf]; omega
  | _, d :: x :: xs, h => by
    have h1 := h.2.2.2.1
    have h2 := Run.length_le h.2.2.2.2.2.2
    have h3 : bytesOf (d :: x :: xs) = d.buf ++ bytesOf (x :: xs) := by simp [bytesOf]
    rw [h3, List.length_append, List.length_cons]
    omega

/-- A response arrives at the sender. -/
theorem response_dir {e : Env} {segs : List XferSeg} {rx : RxState} {p : Packet} {rs : List Packet} {s : Sess}
    (has : Bytes → Bool) (hm : 0 < s.segmentMru) (h : Dir e s.refuseExisting s.tx s.lastTid segs rx (p :: rs)) (he : e.parses [] = false) :
    let s' := s.receive { e with hasItem := has } p
    ∃ new, s'.out = s.out ++ new.map Packet.xferSeg ∧ s'.rx = s.rx ∧ s'.segmentMru = s.segmentMru ∧
      s'.refuseExisting = s.refuseExisting ∧ (Answered s → Answered s') ∧
      new.length + toWrite s'.tx ≤ toWrite s.tx ∧ Dir e s'.refuseExisting s'.tx s'.lastTid (segs ++ new) rx rs := by
  intro s'
  have hs' : s' = s.receive { e with hasItem := has } p := rfl
  clear_value s'
  subst hs'
  generalize htx : s.tx = tx at h
  generalize ht : s.lastTid = t at h
  generalize hl : p :: rs = l at h
  cases h with
  | idle => cases hl
  | asking => cases hl
  | begun => cases hl
  | @granted data req _ hr hp =>
    obtain ⟨rfl, rfl⟩ := List.cons.inj hl
    have hd : data ≠ [] := by rintro rfl; rw [he] at hp; cases hp
    obtain ⟨segs, h1, h2, h3, h4, h5, h6, h7, h8, h9, h10⟩ := sendBundle_dir (req := req) hm hd
    have : s.receive { e with hasItem := has } (.xferAck { tid := t, len := 0, flags := {} }) = s.sendBundle data req := by
      unfold Sess.receive
      simp [htx, ht]
    rw [this]
    refine ⟨segs, h3, h5, h7, h8, ?_, ?_, ?_⟩
    · intro ha
      unfold Answered at *
      rw [htx] at ha
      rw [h4, h9, h10]
      exact ha
    · rw [h4]
      have := Run.length_le h1
      rw [h2] at this
      simpa [toWrite] using this
    rw [h4, h6, h8, hr, ht]
    rw [hr, ht] at h1
    have := Dir.going (refuse := true) (req := req) (buf := []) (ms := []) hp h1 (by simpa using h2) (by simp)
    simpa [acksOf] using this
  | @refusing data req _ r hr hp =>
    obtain ⟨rfl, rfl⟩ := List.cons.inj hl
    refine ⟨[], ?_⟩
    unfold Sess.receive
    simp only [htx, ht]
    rw [if_neg (by simp)]
    refine ⟨by simp [Sess.respond], rfl, rfl, rfl, fun ha => ?_, Nat.zero_le _, Dir.idle⟩
    unfold Answered at ha
    rw [htx] at ha
    exact Answered.success ha.1 ha.2 rfl rfl rfl
  | @going data buf req _ mru segs' ms hp hrun hb hms =>
    cases ms with
    | nil => cases hl
    | cons m ms =>
      obtain ⟨rfl, rfl⟩ := List.cons.inj hl
      refine ⟨[], ?_⟩
      unfold Sess.receive
      simp only [htx, ht]
      rw [if_neg (by simp), if_pos (hms m (by simp))]
      refine ⟨by simp, rfl, rfl, rfl, id, by simp [htx], ?_⟩
      rw [htx, ht, List.append_nil]
      exact Dir.going hp hrun hb fun x hx => hms x (by simp [hx])
  | @last n req _ ms hms =>
    cases ms with
    | nil =>
      obtain ⟨rfl, rfl⟩ := List.cons.inj hl
      refine ⟨[], ?_⟩
      unfold Sess.receive
      simp only [htx, ht]
      rw [if_neg (by simp), if_neg (by simp)]
      refine ⟨by simp [Sess.respond], rfl, rfl, rfl, fun ha => ?_, Nat.zero_le _, Dir.idle⟩
      unfold Answered at ha
      rw [htx] at ha
      exact Answered.success ha.1 ha.2 rfl rfl rfl
    | cons m ms =>
      obtain ⟨rfl, rfl⟩ := List.cons.inj hl
      refine ⟨[], ?_⟩
      unfold Sess.receive
      simp only [htx, ht]
      rw [if_neg (by simp), if_pos (hms m (by simp))]
      refine ⟨by simp, rfl, rfl, rfl, id, by simp [htx], ?_⟩
      rw [htx, ht, List.append_nil]
      exact Dir.last fun x hx => hms x (by simp [hx])

/-- A bundle is taken from the queue. -/
theorem request_dir {e : Env} {segs : List XferSeg} {rx : RxState} {rs : List Packet} {s : Sess} {data : Bytes}
    (hm : 0 < s.segmentMru) (h : Dir e s.refuseExisting s.tx s.lastTid segs rx rs) (hi : s.tx = .idle) (he : e.parses [] = false)
    (hp : e.parses data = true) :
    let s' := s.request e data
    ∃ new, s'.out = s.out ++ new.map Packet.xferSeg ∧ s'.rx = s.rx ∧ s'.segmentMru = s.segmentMru ∧
      s'.refuseExisting = s.refuseExisting ∧ (Answered s → Answered s') ∧ Dir e s'.refuseExisting s'.tx s'.lastTid (segs ++ new) rx rs := by
  intro s'
  have hs' : s' = s.request e data := rfl
  clear_value s'
  subst hs'
  rw [hi] at h
  obtain ⟨rfl, rfl, rfl⟩ := h.idleTx
  have hd : data ≠ [] := by rintro rfl; rw [he] at hp; cases hp
  unfold Sess.request
  simp only
  by_cases hr : s.refuseExisting = true
  · rw [if_pos hr, if_pos hp]
    refine ⟨[Sess.requestSeg e (s.lastTid + 1) data], rfl, rfl, rfl, rfl, fun ha => ?_, Dir.asking hr hp⟩
    unfold Answered at *
    rw [hi] at ha
    exact ⟨by simp [Sess.send], ha⟩
  · rw [if_neg hr]
    obtain ⟨segs, h1, h2, h3, h4, h5, h6, h7, h8, h9, h10⟩ := sendBundle_dir (req := s.requests.length) (data := data)
      (s := { s with lastTid := s.lastTid + 1, requests := s.requests ++ [data], keepaliveSent := false, keepaliveReceived := false }) hm hd
    refine ⟨segs, h3, h5, h7, h8, fun ha => ?_, ?_⟩
    · unfold Answered at *
      rw [hi] at ha
      rw [h4, h9, h10]
      exact ⟨by simp, ha⟩
    rw [h4, h6]
    rw [Bool.not_eq_true] at hr
    rw [show (!({ s with lastTid := s.lastTid + 1, requests := s.requests ++ [data], keepaliveSent := false, keepaliveReceived := false } : Sess).refuseExisting) = true by simp [hr]] at h1
    exact Dir.begun hp h1 h2

/-- The messages of an undisturbed exchange. -/
def Usual (p : Packet) : Prop := isSeg p = true ∨ isResp p = true ∨ p = .keepAlive

/-- Two connected sessions: both run, and in both directions what is under way fits. -/
structure Calm (e : Env) (p : Pair) : Prop where
  mruA : 0 < p.a.segmentMru
  mruB : 0 < p.b.segmentMru
  readA : p.readA ≤ p.b.out.length
  readB : p.readB ≤ p.a.out.length
  usualA : ∀ m ∈ p.a.out.drop p.readB, Usual m
  usualB : ∀ m ∈ p.b.out.drop p.readA, Usual m
  forth : Dir e p.a.refuseExisting p.a.tx p.a.lastTid (segsIn (p.a.out.drop p.readB)) p.b.rx (respIn (p.b.out.drop p.readA))
  ansA : Answered p.a
  ansB : Answered p.b
  back : Dir e p.b.refuseExisting p.b.tx p.b.lastTid (segsIn (p.b.out.drop p.readA)) p.a.rx (respIn (p.a.out.drop p.readB))

theorem Calm.liveA {e : Env} {p : Pair} (h : Calm e p) : p.a.isTerminated = false := by
  have h1 := h.forth.txLive
  have h2 := h.back.rxLive
  simp [Sess.isTerminated, h1, h2]

theorem Calm.liveB {e : Env} {p : Pair} (h : Calm e p) : p.b.isTerminated = false := by
  have h1 := h.back.txLive
  have h2 := h.forth.rxLive
  simp [Sess.isTerminated, h1, h2]

/-- The connection seen from the other end. -/
def Pair.swap (p : Pair) : Pair := ⟨p.b, p.a, p.readB, p.readA⟩

theorem Calm.swap {e : Env} {p : Pair} (h : Calm e p) : Calm e p.swap :=
  ⟨h.mruB, h.mruA, h.readB, h.readA, h.usualB, h.usualA, h.back, h.ansB, h.ansA, h.forth⟩

theorem Calm.unswap {e : Env} {p : Pair} (h : Calm e p.swap) : Calm e p := h.swap

theorem seg_not_resp {p : Packet} (h : isSeg p = true) : isResp p = false := by cases p <;> simp_all [isSeg, isResp]

theorem resp_not_seg {p : Packet} (h : isResp p = true) : isSeg p = false := by cases p <;> simp_all [isSeg, isResp]

/-- An end goes on with the same states and writes nothing but keepalives. -/
theorem Calm.idleA {e : Env} {p : Pair} (h : Calm e p) (a : Sess) (n : Nat) (new : List Packet) (hn : ∀ m ∈ new, m = Packet.keepAlive)
    (hout : a.out = p.a.out ++ new) (hmru : a.segmentMru = p.a.segmentMru) (hr : a.refuseExisting = p.a.refuseExisting) (htx : a.tx = p.a.tx)
    (hrx : a.rx = p.a.rx) (hres : a.results = p.a.results) (hreq : a.requests = p.a.requests) (ht : a.lastTid = p.a.lastTid) (hle : p.readA ≤ n) (hn' : n ≤ p.b.out.length)
    (hk : ∀ m ∈ (p.b.out.drop p.readA).take (n - p.readA), m = Packet.keepAlive) : Calm e ⟨a, p.b, n, p.readB⟩ := by
  have hd : p.b.out.drop p.readA = (p.b.out.drop p.readA).take (n - p.readA) ++ p.b.out.drop n := by
    conv_lhs => rw [← List.take_append_drop (n - p.readA) (p.b.out.drop p.readA), List.drop_drop]
    congr 2; omega
  have e1 : segsIn (p.b.out.drop p.readA) = segsIn (p.b.out.drop n) := by
    conv_lhs => rw [hd, segsIn_append]
    have : segsIn ((p.b.out.drop p.readA).take (n - p.readA)) = [] := by
      rw [segsIn, List.filterMap_eq_nil_iff]
      intro m hm
      rw [hk m hm]
    rw [this, List.nil_append]
  have e2 : respIn (p.b.out.drop p.readA) = respIn (p.b.out.drop n) := by
    conv_lhs => rw [hd, respIn_append]
    have : respIn ((p.b.out.drop p.readA).take (n - p.readA)) = [] := by
      rw [respIn, List.filter_eq_nil_iff]
      intro m hm
      rw [hk m hm]; simp [isResp]
    rw [this, List.nil_append]
  have e3 : a.out.drop p.readB = p.a.out.drop p.readB ++ new := by rw [hout, List.drop_append_of_le_length h.readB]
  have e4 : segsIn (a.out.drop p.readB) = segsIn (p.a.out.drop p.readB) := by
    rw [e3, segsIn_append]
    have : segsIn new = [] := by
      rw [segsIn, List.filterMap_eq_nil_iff]
      intro m hm
      rw [hn m hm]
    rw [this, List.append_nil]
  have e5 : respIn (a.out.drop p.readB) = respIn (p.a.out.drop p.readB) := by
    rw [e3, respIn_append]
    have : respIn new = [] := by
      rw [respIn, List.filter_eq_nil_iff]
      intro m hm
      rw [hn m hm]; simp [isResp]
    rw [this, List.append_nil]
  constructor
  · rw [hmru]; exact h.mruA
  · exact h.mruB
  · exact hn'
  · show p.readB ≤ a.out.length
    rw [hout, List.length_append]; have := h.readB; omega
  · intro m hm
    rw [e3] at hm
    rcases List.mem_append.mp hm with hm | hm
    · exact h.usualA m hm
    · exact Or.inr (Or.inr (hn m hm))
  · intro m hm
    apply h.usualB
    rw [hd]
    exact List.mem_append.mpr (Or.inr hm)
  · show Dir e a.refuseExisting a.tx a.lastTid (segsIn (a.out.drop p.readB)) p.b.rx (respIn (p.b.out.drop n))
    rw [hr, htx, ht, e4, ← e2]; exact h.forth
  · exact h.ansA.same htx hres hreq
  · exact h.ansB
  · show Dir e p.b.refuseExisting p.b.tx p.b.lastTid (segsIn (p.b.out.drop n)) a.rx (respIn (a.out.drop p.readB))
    rw [hrx, e5, ← e1]; exact h.back

theorem Calm.toA {e : Env} {p : Pair} (h : Calm e p) (he : e.parses [] = false) (has : Bytes → Bool) : Calm e (p.step e (.toA has)) := by
  unfold Pair.step
  cases hm : p.b.out[p.readA]? with
  | none => exact h
  | some m =>
    simp only
    have hd : p.b.out.drop p.readA = m :: p.b.out.drop (p.readA + 1) := by
      rw [List.getElem?_eq_some_iff] at hm
      obtain ⟨hlt, rfl⟩ := hm
      exact List.drop_eq_getElem_cons hlt
    have hlt : p.readA + 1 ≤ p.b.out.length := by
      rw [List.getElem?_eq_some_iff] at hm
      exact hm.1
    have hlive := h.liveA
    have hu := h.usualB m (by rw [hd]; simp)
    by_cases hk : m = .keepAlive
    · subst hk
      have hstep : p.a.step { e with hasItem := has } (.recv .keepAlive) =
          { (if p.a.keepaliveSent then { p.a with keepaliveSent := false } else { p.a.send .keepAlive with keepaliveSent := true }) with keepaliveReceived := true } := by
        unfold Sess.step; rw [if_neg (by simp [hlive])]
      have hk' : ∀ m ∈ (p.b.out.drop p.readA).take (p.readA + 1 - p.readA), m = Packet.keepAlive := by
        rw [hd]; simp
      by_cases hs : p.a.keepaliveSent = true
      · rw [if_pos hs] at hstep
        rw [hstep]
        exact h.idleA _ _ [] (by simp) (by simp) rfl rfl rfl rfl rfl rfl rfl (by omega) hlt hk'
      · rw [if_neg hs] at hstep
        rw [hstep]
        exact h.idleA _ _ [.keepAlive] (by simp) rfl rfl rfl rfl rfl rfl rfl rfl (by omega) hlt hk'
    · rw [step_recv hlive hk]
      have hB : ∀ x ∈ p.b.out.drop (p.readA + 1), Usual x := fun x hx => h.usualB x (by rw [hd]; simp [hx])
      rcases hu with hu | hu | hu
      · -- a segment
        cases m with
        | xferSeg d =>
          have h1 : segsIn (p.b.out.drop p.readA) = d :: segsIn (p.b.out.drop (p.readA + 1)) := by rw [hd]; rfl
          have h2 : respIn (p.b.out.drop p.readA) = respIn (p.b.out.drop (p.readA + 1)) := by rw [hd]; rfl
          have hb := h.back
          rw [h1] at hb
          obtain ⟨q, hq, ho, htx, ht, hmru, hr, hres, hreq, hdir⟩ := receive_dir has hb
          generalize p.a.receive { e with hasItem := has } (.xferSeg d) = a' at *
          have e3 : a'.out.drop p.readB = p.a.out.drop p.readB ++ [q] := by rw [ho, List.drop_append_of_le_length h.readB]
          constructor
          · show 0 < a'.segmentMru
            rw [hmru]; exact h.mruA
          · exact h.mruB
          · exact hlt
          · show p.readB ≤ a'.out.length
            rw [ho, List.length_append]; have := h.readB; omega
          · intro x hx
            change x ∈ a'.out.drop p.readB at hx
            rw [e3] at hx
            rcases List.mem_append.mp hx with hx | hx
            · exact h.usualA x hx
            · rw [List.mem_singleton.mp hx]; exact Or.inr (Or.inl hq)
          · exact hB
          · show Dir e a'.refuseExisting a'.tx a'.lastTid (segsIn (a'.out.drop p.readB)) p.b.rx (respIn (p.b.out.drop (p.readA + 1)))
            rw [hr, htx, ht, e3, segsIn_append, segsIn_singleton_of_not (resp_not_seg hq), List.append_nil, ← h2]
            exact h.forth
          · exact h.ansA.same htx hres hreq
          · exact h.ansB
          · show Dir e p.b.refuseExisting p.b.tx p.b.lastTid (segsIn (p.b.out.drop (p.readA + 1))) a'.rx (respIn (a'.out.drop p.readB))
            rw [e3, respIn_append]
            have : respIn [q] = [q] := by simp [respIn, hq]
            rw [this]
            exact hdir
        | _ => simp [isSeg] at hu
      · -- a response
        have hns := resp_not_seg hu
        have h1 : segsIn (p.b.out.drop p.readA) = segsIn (p.b.out.drop (p.readA + 1)) := by
          rw [hd]
          have := segsIn_append [m] (p.b.out.drop (p.readA + 1))
          rw [segsIn_singleton_of_not hns] at this
          exact this
        have h2 : respIn (p.b.out.drop p.readA) = m :: respIn (p.b.out.drop (p.readA + 1)) := by rw [hd]; simp [respIn, hu]
        have hf := h.forth
        rw [h2] at hf
        obtain ⟨new, ho, hrx, hmru, hr, hans, _, hdir⟩ := response_dir has h.mruA hf he
        generalize p.a.receive { e with hasItem := has } m = a' at *
        have e3 : a'.out.drop p.readB = p.a.out.drop p.readB ++ new.map Packet.xferSeg := by rw [ho, List.drop_append_of_le_length h.readB]
        constructor
        · show 0 < a'.segmentMru
          rw [hmru]; exact h.mruA
        · exact h.mruB
        · exact hlt
        · show p.readB ≤ a'.out.length
          rw [ho, List.length_append]; have := h.readB; omega
        · intro x hx
          change x ∈ a'.out.drop p.readB at hx
          rw [e3] at hx
          rcases List.mem_append.mp hx with hx | hx
          · exact h.usualA x hx
          · obtain ⟨d, _, rfl⟩ := List.mem_map.mp hx
            exact Or.inl rfl
        · exact hB
        · show Dir e a'.refuseExisting a'.tx a'.lastTid (segsIn (a'.out.drop p.readB)) p.b.rx (respIn (p.b.out.drop (p.readA + 1)))
          rw [e3, segsIn_append, segsIn_segs]
          exact hdir
        · exact (hans h.ansA).same rfl rfl rfl
        · exact h.ansB
        · show Dir e p.b.refuseExisting p.b.tx p.b.lastTid (segsIn (p.b.out.drop (p.readA + 1))) a'.rx (respIn (a'.out.drop p.readB))
          rw [e3, respIn_append, respIn_segs, List.append_nil, hrx, ← h1]
          exact h.back
      · exact absurd hu hk

theorem Calm.requestA {e : Env} {p : Pair} (h : Calm e p) (he : e.parses [] = false) {data : Bytes} (hp : e.parses data = true) :
    Calm e (p.step e (.atA (.request data))) := by
  unfold Pair.step
  simp only [Pair.LocalEv.toEv]
  unfold Sess.step
  rw [if_neg (by simp [h.liveA])]
  simp only
  by_cases hi : p.a.tx = .idle
  · rw [if_pos hi]
    obtain ⟨new, ho, hrx, hmru, hr, hans, hdir⟩ := request_dir h.mruA h.forth hi he hp
    generalize p.a.request e data = a' at *
    have e3 : a'.out.drop p.readB = p.a.out.drop p.readB ++ new.map Packet.xferSeg := by rw [ho, List.drop_append_of_le_length h.readB]
    constructor
    · show 0 < a'.segmentMru
      rw [hmru]; exact h.mruA
    · exact h.mruB
    · exact h.readA
    · show p.readB ≤ a'.out.length
      rw [ho, List.length_append]; have := h.readB; omega
    · intro x hx
      change x ∈ a'.out.drop p.readB at hx
      rw [e3] at hx
      rcases List.mem_append.mp hx with hx | hx
      · exact h.usualA x hx
      · obtain ⟨d, _, rfl⟩ := List.mem_map.mp hx
        exact Or.inl rfl
    · exact h.usualB
    · show Dir e a'.refuseExisting a'.tx a'.lastTid (segsIn (a'.out.drop p.readB)) p.b.rx (respIn (p.b.out.drop p.readA))
      rw [e3, segsIn_append, segsIn_segs]
      exact hdir
    · exact hans h.ansA
    · exact h.ansB
    · show Dir e p.b.refuseExisting p.b.tx p.b.lastTid (segsIn (p.b.out.drop p.readA)) a'.rx (respIn (a'.out.drop p.readB))
      rw [e3, respIn_append, respIn_segs, List.append_nil, hrx]
      exact h.back
  · rw [if_neg hi]
    exact h

/-- The timer fires at an end that has heard a keepalive since it last heard anything else. -/
theorem Calm.timeoutA {e : Env} {p : Pair} (h : Calm e p) (hk : p.a.keepaliveReceived = true) :
    Calm e (p.step e (.atA .timeout)) := by
  unfold Pair.step
  simp only [Pair.LocalEv.toEv]
  unfold Sess.step
  rw [if_neg (by simp [h.liveA])]
  simp only
  by_cases hs : p.a.keepaliveSent = true
  · rw [if_pos hs, if_neg (by simp [hk])]
    exact h
  · rw [if_neg hs, if_neg (by simp [Sess.send, hk])]
    exact h.idleA _ _ [.keepAlive] (by simp) rfl rfl rfl rfl rfl rfl rfl rfl (Nat.le_refl _) h.readA (by simp)

theorem Calm.swapStep {e : Env} {p : Pair} {ev ev' : Pair.Ev} (h : Calm e p) (hs : (p.step e ev).swap = p.swap.step e ev')
    (f : Calm e p.swap → Calm e (p.swap.step e ev')) : Calm e (p.step e ev) := by
  apply Calm.unswap
  rw [hs]
  exact f h.swap

theorem Calm.toB {e : Env} {p : Pair} (h : Calm e p) (he : e.parses [] = false) (has : Bytes → Bool) : Calm e (p.step e (.toB has)) := by
  apply h.swapStep (ev' := .toA has)
  · simp only [Pair.step, Pair.swap]
    cases p.a.out[p.readB]? <;> rfl
  · exact fun h => h.toA he has

theorem Calm.requestB {e : Env} {p : Pair} (h : Calm e p) (he : e.parses [] = false) {data : Bytes} (hp : e.parses data = true) :
    Calm e (p.step e (.atB (.request data))) :=
  h.swapStep (ev' := .atA (.request data)) rfl fun h => h.requestA he hp

theorem Calm.timeoutB {e : Env} {p : Pair} (h : Calm e p) (hk : p.b.keepaliveReceived = true) :
    Calm e (p.step e (.atB .timeout)) :=
  h.swapStep (ev' := .atA .timeout) rfl fun h => h.timeoutA hk

theorem Calm.fresh (e : Env) (refuseA refuseB : Bool) (locA remA locB remB : SessInit) (ha : 0 < remA.segmentMru) (hb : 0 < remB.segmentMru) :
    Calm e ⟨newSess refuseA locA remA, newSess refuseB locB remB, 0, 0⟩ :=
  ⟨ha, hb, Nat.le_refl _, Nat.le_refl _, by simp [newSess], by simp [newSess], Dir.idle, rfl, rfl, Dir.idle⟩

/-! ### Everything under way arrives -/

/-- The weight of a message under way: a segment causes a response, and responses and keepalives may cause keepalives. -/
def weight (p : Packet) : Nat := if isSeg p = true then 4 else 2

/-- The weight of messages under way. -/
def weights (l : List Packet) : Nat := (l.map weight).sum

theorem weights_append (k l : List Packet) : weights (k ++ l) = weights k + weights l := by simp [weights]

theorem weights_segs (l : List XferSeg) : weights (l.map Packet.xferSeg) = 4 * l.length := by
  induction l with
  | nil => rfl
  | cons d l ih => simp only [weights, List.map_cons, List.sum_cons, List.length_cons] at *; rw [ih]; simp [weight, isSeg]; omega

/-- What an end of the connection still causes. -/
def effort (s : Sess) (read : Nat) : Nat := weights (s.out.drop read) + 4 * toWrite s.tx + if s.keepaliveSent then 0 else 1

/-- What still has to be delivered. -/
def load (p : Pair) : Nat := effort p.a p.readB + effort p.b p.readA

theorem load_swap (p : Pair) : load p.swap = load p := by simp [load, Pair.swap, Nat.add_comm]

theorem Calm.load_toA {e : Env} {p : Pair} (h : Calm e p) (he : e.parses [] = false) (has : Bytes → Bool)
    (hlt : p.readA < p.b.out.length) : load (p.step e (.toA has)) < load p := by
  unfold Pair.step
  rw [List.getElem?_eq_getElem hlt]
  simp only
  have hd : p.b.out.drop p.readA = p.b.out[p.readA] :: p.b.out.drop (p.readA + 1) := List.drop_eq_getElem_cons hlt
  generalize p.b.out[p.readA] = m at *
  have hlive := h.liveA
  have hu := h.usualB m (by rw [hd]; simp)
  have hB : effort p.b p.readA = weight m + effort p.b (p.readA + 1) := by
    unfold effort
    rw [hd]
    simp [weights]
    omega
  show effort _ p.readB + effort p.b (p.readA + 1) < effort p.a p.readB + effort p.b p.readA
  rw [hB]
  by_cases hk : m = .keepAlive
  · subst hk
    have hstep : p.a.step { e with hasItem := has } (.recv .keepAlive) =
        { (if p.a.keepaliveSent then { p.a with keepaliveSent := false } else { p.a.send .keepAlive with keepaliveSent := true }) with keepaliveReceived := true } := by
      unfold Sess.step; rw [if_neg (by simp [hlive])]
    rw [hstep]
    by_cases hs : p.a.keepaliveSent = true
    · rw [if_pos hs]
      simp [effort, hs, weight, isSeg]; omega
    · rw [if_neg hs]
      unfold effort
      simp only [Sess.send]
      rw [List.drop_append_of_le_length h.readB, weights_append]
      simp [hs, weights, weight, isSeg]; omega
  · rw [step_recv hlive hk]
    rcases hu with hu | hu | hu
    · cases m with
      | xferSeg d =>
        have h1 : segsIn (p.b.out.drop p.readA) = d :: segsIn (p.b.out.drop (p.readA + 1)) := by rw [hd]; rfl
        have hb := h.back
        rw [h1] at hb
        obtain ⟨q, hq, ho, htx, ht, hmru, hr, hres, hreq, hdir⟩ := receive_dir has hb
        generalize p.a.receive { e with hasItem := has } (.xferSeg d) = a' at *
        unfold effort
        simp only
        rw [ho, List.drop_append_of_le_length h.readB, weights_append, htx]
        have : weights [q] = 2 := by simp [weights, weight, resp_not_seg hq]
        rw [this]
        have : weight (.xferSeg d) = 4 := rfl
        rw [this]
        simp only [Bool.false_eq_true, if_false]
        omega
      | _ => simp [isSeg] at hu
    · have h2 : respIn (p.b.out.drop p.readA) = m :: respIn (p.b.out.drop (p.readA + 1)) := by rw [hd]; simp [respIn, hu]
      have hf := h.forth
      rw [h2] at hf
      obtain ⟨new, ho, hrx, hmru, hr, hans, hw, hdir⟩ := response_dir has h.mruA hf he
      generalize p.a.receive { e with hasItem := has } m = a' at *
      unfold effort
      simp only
      rw [ho, List.drop_append_of_le_length h.readB, weights_append, weights_segs]
      have : weight m = 2 := by simp [weight, resp_not_seg hu]
      rw [this]
      simp only [Bool.false_eq_true, if_false]
      omega
    · exact absurd hu hk

theorem Calm.load_toB {e : Env} {p : Pair} (h : Calm e p) (he : e.parses [] = false) (has : Bytes → Bool)
    (hlt : p.readB < p.a.out.length) : load (p.step e (.toB has)) < load p := by
  have hs : (p.step e (.toB has)).swap = p.swap.step e (.toA has) := by
    simp only [Pair.step, Pair.swap]
    cases p.a.out[p.readB]? <;> rfl
  rw [← load_swap, hs, ← load_swap p]
  exact h.swap.load_toA he has hlt

/-- When nothing is under way both ends are idle. -/
theorem Calm.quiet {e : Env} {p : Pair} (h : Calm e p) (ha : p.readA = p.b.out.length) (hb : p.readB = p.a.out.length) :
    p.a.tx = .idle ∧ p.b.tx = .idle := by
  have h1 := h.forth
  have h2 := h.back
  rw [ha, hb, List.drop_length, List.drop_length] at h1 h2
  have key : ∀ {r : Bool} {tx : TxState} {t : Nat} {rx : RxState}, Dir e r tx t (segsIn []) rx (respIn []) → tx = .idle := by
    intro r tx t rx h
    change Dir e r tx t [] rx [] at h
    generalize hl : ([] : List Packet) = l at h
    cases h with
    | idle => rfl
    | granted => cases hl
    | refusing => cases hl
    | begun _ h _ => exact h.elim
    | going _ h _ _ => exact h.elim
    | @last _ _ _ ms _ => simp [acksOf] at hl
  exact ⟨key h1, key h2⟩

end Dtn.Tcpcl
