import Verif.Lemmas.TcpclSession
/-! Lemmas about the receiving side of a TCPCL session. -/

namespace Dtn.Tcpcl
open Dtn.Spec

theorem acksIn_append (a b : List Packet) : acksIn (a ++ b) = acksIn a ++ acksIn b := by
  simp [acksIn, List.filterMap_append]

theorem foldl_send_fields (segs : List XferSeg) : ∀ s : Sess,
    segs.foldl (fun s seg => s.send (.xferSeg seg)) s =
      { s with out := s.out ++ segs.map Packet.xferSeg } := by
  induction segs with
  | nil => intro s; simp
  | cons x xs ih =>
    intro s
    rw [List.foldl_cons, ih]
    simp [Sess.send]

theorem acksIn_segs (segs : List XferSeg) : acksIn (segs.map Packet.xferSeg) = [] := by
  induction segs with
  | nil => rfl
  | cons x xs ih => simp [acksIn]

/-- Responses: acknowledgements and refusals. -/
def isResp : Packet → Bool
  | .xferAck _ => true
  | .xferRefuse _ _ => true
  | _ => false

/-- The responses among the messages written by a session. -/
def respIn (out : List Packet) : List Packet := out.filter isResp

theorem respIn_append (a b : List Packet) : respIn (a ++ b) = respIn a ++ respIn b := by
  simp [respIn]

theorem acksIn_respIn (out : List Packet) : acksIn (respIn out) = acksIn out := by
  induction out with
  | nil => rfl
  | cons p out ih =>
    simp only [respIn, acksIn] at ih ⊢
    cases p <;> simp only [List.filter_cons, isResp, if_true, Bool.false_eq_true, if_false,
      List.filterMap_cons, ih]

theorem acksIn_of_resp {a b : List Packet} (h : respIn a = respIn b) : acksIn a = acksIn b := by
  rw [← acksIn_respIn a, h, acksIn_respIn]

theorem refuse_mem_of_resp {a b : List Packet} (h : respIn a = respIn b) (r : RefuseReason) (tid : Nat) :
    .xferRefuse r tid ∈ a ↔ .xferRefuse r tid ∈ b := by
  have : ∀ l : List Packet, .xferRefuse r tid ∈ l ↔ .xferRefuse r tid ∈ respIn l := by
    intro l; simp [respIn, isResp]
  rw [this a, h, ← this b]

theorem respIn_segs (segs : List XferSeg) : respIn (segs.map Packet.xferSeg) = [] := by
  induction segs with
  | nil => rfl
  | cons x xs ih => simp [respIn, isResp]

/-- What `sendBundle` leaves alone. -/
theorem sendBundle_rx (s : Sess) (data : Bytes) (req : Nat) :
    ((s.sendBundle data req).rx = s.rx ∨ (s.sendBundle data req).isTerminated = true) ∧
    (s.sendBundle data req).handled = s.handled ∧
    (s.sendBundle data req).processed = s.processed ∧
    (s.sendBundle data req).broken = s.broken ∧
    (s.sendBundle data req).refused = s.refused ∧
    respIn (s.sendBundle data req).out = respIn s.out ∧
    (s.sendBundle data req).requests = s.requests := by
  unfold Sess.sendBundle
  split
  · simp [Sess.terminated, Sess.isTerminated]
  · simp only
    split
    · simp [Sess.respond]
    · rw [foldl_send_fields]
      simp [respIn_append, respIn_segs]

/-- A transfer in progress: the segments so far. -/
def IsPending (segs : List XferSeg) (tid : Nat) : Prop :=
  segs ≠ [] ∧ (∀ s ∈ segs, s.tid = tid) ∧
  (∀ i s, segs[i]? = some s → (s.flags.start = true ↔ i = 0)) ∧ (∀ s ∈ segs, s.flags.end = false)

/-- State of the running count after a list of segments. -/
def countAfter : Nat → List XferSeg → Nat
  | n, [] => n
  | n, s :: ss => countAfter (if s.flags.start then s.buf.length else n + s.buf.length) ss

theorem ackValues_append (a b : List XferSeg) : ∀ n,
    ackValues n (a ++ b) = ackValues n a ++ ackValues (countAfter n a) b := by
  induction a with
  | nil => intro n; rfl
  | cons x a ih => intro n; simp [ackValues, countAfter, ih]

theorem countAfter_append (a b : List XferSeg) : ∀ n,
    countAfter n (a ++ b) = countAfter (countAfter n a) b := by
  induction a with
  | nil => intro n; rfl
  | cons x a ih => intro n; simp [countAfter, ih]

/-- A group of consecutive segments handled by a receiver: a complete transfer with its data, or one refused segment. -/
abbrev Group := List XferSeg × Option Bytes

/-- The group as it appears in the log. -/
def Group.items (g : Group) : List (XferSeg × Bool) := g.1.map fun d => (d, g.2.isSome)

/-- What a group has to look like; `refused` are the ids of bundles that were found in the store. -/
def Group.Ok (refused : List Bytes) (g : Group) : Prop :=
  match g.2 with
  | some data => IsTransfer g.1 data
  | none => ∃ d, g.1 = [d] ∧ d.flags.start = true ∧ ∃ x ∈ d.extensions, x.data ∈ refused

/-- Receiving-side invariant: `groups` are the finished transfers, `pend` is the one in progress. -/
structure RxShape (e : Env) (s : Sess) (groups : List Group) (pend : List XferSeg) : Prop where
  acks : acksIn s.out = ackValues 0 (accepted s)
  split : s.handled = (groups.map Group.items).flatten ++ pend.map fun d => (d, true)
  ok : ∀ g ∈ groups, g.Ok s.refused
  refs : ∀ r tid, .xferRefuse r tid ∈ s.out →
    (∃ g ∈ groups, g.2 = none ∧ ∃ d ∈ g.1, d.tid = tid) ∨ s.broken ≠ []
  pending : pend = [] ∨ ∃ tid, IsPending pend tid
  processed : s.processed = (groups.filterMap (·.2)).filter e.parses
  broken : s.broken = (groups.filterMap (·.2)).filter fun d => !e.parses d
  rx : s.isTerminated = true ∨ match s.rx with
      | .idle => pend = []
      | .receiving buf tid => IsPending pend tid ∧ bytesOf pend = buf ∧ countAfter 0 (accepted s) = buf.length
      | .terminated => False

/-- The receiving-side fields of two sessions agree (or the second has been terminated). -/
structure SameRx (s s' : Sess) : Prop where
  rx : s'.rx = s.rx ∨ s'.isTerminated = true
  tx : s.isTerminated = true → s'.isTerminated = true
  handled : s'.handled = s.handled
  refused : s'.refused = s.refused
  processed : s'.processed = s.processed
  broken : s'.broken = s.broken
  resp : respIn s'.out = respIn s.out

theorem accepted_congr {s s' : Sess} (h : s'.handled = s.handled) : accepted s' = accepted s := by
  simp [accepted, h]

theorem accepted_snoc {s s' : Sess} {d : XferSeg} (h : s'.handled = s.handled ++ [(d, true)]) :
    accepted s' = accepted s ++ [d] := by
  simp [accepted, h]

theorem RxShape.same {e : Env} {s s' : Sess} {groups pend} (h : RxShape e s groups pend) (hs : SameRx s s') :
    RxShape e s' groups pend where
  acks := by rw [acksIn_of_resp hs.resp, accepted_congr hs.handled, h.acks]
  split := by rw [hs.handled, h.split]
  ok := by rw [hs.refused]; exact h.ok
  refs := fun r tid hr => by
    rw [hs.broken]; exact h.refs r tid ((refuse_mem_of_resp hs.resp r tid).mp hr)
  pending := h.pending
  processed := by rw [hs.processed, h.processed]
  broken := by rw [hs.broken, h.broken]
  rx := by
    rcases h.rx with ht | hr
    · exact Or.inl (hs.tx ht)
    · rcases hs.rx with hx | hx
      · right; rw [hx, accepted_congr hs.handled]; exact hr
      · exact Or.inl hx

theorem SameRx.terminated (s : Sess) : SameRx s s.terminated :=
  ⟨Or.inr (by simp [Sess.terminated, Sess.isTerminated]), fun _ => by simp [Sess.terminated, Sess.isTerminated],
    rfl, rfl, rfl, rfl, rfl⟩

theorem SameRx.refl (s : Sess) : SameRx s s := ⟨Or.inl rfl, id, rfl, rfl, rfl, rfl, rfl⟩

theorem SameRx.trans {a b c : Sess} (h1 : SameRx a b) (h2 : SameRx b c) : SameRx a c where
  rx := by
    rcases h2.rx with h | h
    · rcases h1.rx with h' | h'
      · left; rw [h, h']
      · right; exact h2.tx h'
    · exact Or.inr h
  tx := fun h => h2.tx (h1.tx h)
  handled := h2.handled.trans h1.handled
  refused := h2.refused.trans h1.refused
  processed := h2.processed.trans h1.processed
  broken := h2.broken.trans h1.broken
  resp := h2.resp.trans h1.resp

theorem SameRx.send (s : Sess) (p : Packet) (hp : isResp p = false) : SameRx s (s.send p) := by
  refine ⟨Or.inl rfl, id, rfl, rfl, rfl, rfl, ?_⟩
  simp only [Sess.send, respIn_append]
  simp [respIn, hp]

theorem isTerminated_iff (s : Sess) : s.isTerminated = true ↔ s.rx = .terminated ∨ s.tx = .terminated := by
  simp [Sess.isTerminated]

theorem SameRx.sendBundle (s : Sess) (hs : s.isTerminated = false) (data : Bytes) (req : Nat) :
    SameRx s (s.sendBundle data req) := by
  have h := sendBundle_rx s data req
  exact ⟨h.1, fun h' => by simp [hs] at h', h.2.1, h.2.2.2.2.1, h.2.2.1, h.2.2.2.1, h.2.2.2.2.2.1⟩

theorem SameRx.fields (s s' : Sess) (hs : s.isTerminated = false) (h1 : s'.rx = s.rx)
    (h2 : s'.handled = s.handled) (h2' : s'.refused = s.refused) (h3 : s'.processed = s.processed) (h4 : s'.broken = s.broken)
    (h5 : respIn s'.out = respIn s.out) : SameRx s s' :=
  ⟨Or.inl h1, fun h => by simp [hs] at h, h2, h2', h3, h4, h5⟩

theorem IsPending.snoc_transfer {pend : List XferSeg} {tid : Nat} {d : XferSeg} (h : IsPending pend tid)
    (ht : d.tid = tid) (hst : d.flags.start = false) (hend : d.flags.end = true) :
    IsTransfer (pend ++ [d]) (bytesOf pend ++ d.buf) := by
  obtain ⟨h1, h2, h3, h4⟩ := h
  refine ⟨by simp, by simp [bytesOf], ⟨tid, ?_⟩, ?_, ?_⟩
  · intro s hs
    rcases List.mem_append.mp hs with hs | hs
    · exact h2 s hs
    · simp at hs; subst hs; exact ht
  · intro i s hs
    have hlen : 0 < pend.length := List.length_pos_iff.mpr h1
    by_cases hi : i < pend.length
    · rw [List.getElem?_append_left hi] at hs; exact h3 i s hs
    · rw [List.getElem?_append_right (by omega)] at hs
      have : i - pend.length = 0 := by
        have := (List.getElem?_eq_some_iff.mp hs).1
        simp at this; omega
      rw [this] at hs; simp at hs; subst hs
      simp [hst]; intro h0; omega
  · intro i s hs
    by_cases hi : i < pend.length
    · rw [List.getElem?_append_left hi] at hs
      have := h4 s (List.mem_of_getElem? hs)
      simp [this]; omega
    · rw [List.getElem?_append_right (by omega)] at hs
      have : i - pend.length = 0 := by
        have := (List.getElem?_eq_some_iff.mp hs).1
        simp at this; omega
      rw [this] at hs; simp at hs; subst hs
      simp [hend]; omega

theorem IsPending.snoc {pend : List XferSeg} {tid : Nat} {d : XferSeg} (h : IsPending pend tid)
    (ht : d.tid = tid) (hst : d.flags.start = false) (hend : d.flags.end = false) :
    IsPending (pend ++ [d]) tid := by
  obtain ⟨h1, h2, h3, h4⟩ := h
  refine ⟨by simp, ?_, ?_, ?_⟩
  · intro s hs
    rcases List.mem_append.mp hs with hs | hs
    · exact h2 s hs
    · simp at hs; subst hs; exact ht
  · intro i s hs
    have hlen : 0 < pend.length := List.length_pos_iff.mpr h1
    by_cases hi : i < pend.length
    · rw [List.getElem?_append_left hi] at hs; exact h3 i s hs
    · rw [List.getElem?_append_right (by omega)] at hs
      have : i - pend.length = 0 := by
        have := (List.getElem?_eq_some_iff.mp hs).1
        simp at this; omega
      rw [this] at hs; simp at hs; subst hs
      simp [hst]; intro h0; omega
  · intro s hs
    rcases List.mem_append.mp hs with hs | hs
    · exact h4 s hs
    · simp at hs; subst hs; exact hend

theorem isTransfer_single {d : XferSeg} (hst : d.flags.start = true) (hend : d.flags.end = true) :
    IsTransfer [d] d.buf := by
  refine ⟨by simp, by simp, ⟨d.tid, by simp⟩, ?_, ?_⟩ <;>
  · intro i s hs
    cases i with
    | zero => simp at hs; subst hs; simp [hst, hend]
    | succ i => simp at hs

theorem isPending_single {d : XferSeg} (hst : d.flags.start = true) (hend : d.flags.end = false) :
    IsPending [d] d.tid := by
  refine ⟨by simp, by simp, ?_, by simp [hend]⟩
  intro i s hs
  cases i with
  | zero => simp at hs; subst hs; simp [hst]
  | succ i => simp at hs

/-- Handing over a complete transfer. -/
theorem RxShape.finish {e : Env} {s : Sess} {groups run} {buf : Bytes} {tid : Nat}
    (hacks : acksIn s.out = ackValues 0 (accepted s))
    (hsplit : s.handled = (groups.map Group.items).flatten ++ run.map fun d => (d, true))
    (hc : ∀ g ∈ groups, g.Ok s.refused) (hp : s.processed = (groups.filterMap (·.2)).filter e.parses)
    (hb : s.broken = (groups.filterMap (·.2)).filter fun d => !e.parses d)
    (hr : ∀ r tid, .xferRefuse r tid ∈ s.out →
      (∃ g ∈ groups, g.2 = none ∧ ∃ d ∈ g.1, d.tid = tid) ∨ s.broken ≠ [])
    (hrun : IsTransfer run buf) :
    RxShape e (s.processBundle e buf tid) (groups ++ [(run, some buf)]) [] := by
  have hc' : ∀ g ∈ groups ++ [((run, some buf) : Group)], g.Ok s.refused := by
    intro r hr
    rcases List.mem_append.mp hr with hr | hr
    · exact hc r hr
    · simp at hr; subst hr; exact hrun
  have hr' : ∀ r tid, .xferRefuse r tid ∈ s.out →
      (∃ g ∈ groups ++ [((run, some buf) : Group)], g.2 = none ∧ ∃ d ∈ g.1, d.tid = tid) ∨ s.broken ≠ [] := by
    intro r tid h
    rcases hr r tid h with ⟨g, hg, hg'⟩ | h
    · exact Or.inl ⟨g, List.mem_append_left _ hg, hg'⟩
    · exact Or.inr h
  unfold Sess.processBundle
  split
  · next hparse =>
    exact ⟨hacks, by simp [hsplit, Group.items], hc', hr', Or.inl rfl, by simp [hp, hparse],
      by simp [hb, hparse], Or.inr rfl⟩
  · next hparse =>
    refine ⟨?_, by simp [hsplit, Sess.send, Group.items], hc', fun _ _ _ => Or.inr (by simp), Or.inl rfl, by simp [hp, hparse, Sess.send],
      by simp [hb, hparse], Or.inr rfl⟩
    simp only [Sess.send, acksIn_append, hacks]
    simp [acksIn, accepted]

theorem RxShape.receiveSeg {e : Env} {s : Sess} {groups pend} (h : RxShape e s groups pend) (d : XferSeg)
    (hs : s.isTerminated = false) (hlen : d.len = d.buf.length) :
    ∃ groups' pend', RxShape e (s.receiveSeg e d) groups' pend' := by
  unfold Sess.receiveSeg
  rcases h.rx with ht | hr
  · simp [hs] at ht
  cases hrx : s.rx with
  | terminated => rw [hrx] at hr; exact hr.elim
  | receiving buf tid =>
    rw [hrx] at hr
    obtain ⟨hp, hbuf, hcount⟩ := hr
    simp only
    split
    · exact ⟨groups, pend, h.same (SameRx.terminated s)⟩
    next hstart =>
    split
    · exact ⟨groups, pend, h.same (SameRx.terminated s)⟩
    next htid =>
    have hst : d.flags.start = false := by simpa using hstart
    have htid' : tid = d.tid := by simpa using htid
    have hacks : acksIn (s.out ++ [.xferAck { flags := {}, tid := d.tid, len := (buf ++ d.buf).length }]) =
        ackValues 0 (accepted s ++ [d]) := by
      rw [acksIn_append, h.acks, ackValues_append, hcount]
      simp [acksIn, ackValues, hst]
    have hacc : ∀ s' : Sess, s'.handled = s.handled ++ [(d, true)] → accepted s' = accepted s ++ [d] :=
      fun s' h => accepted_snoc h
    split
    · next hend =>
      refine ⟨groups ++ [(pend ++ [d], some (buf ++ d.buf))], [], ?_⟩
      apply RxShape.finish (s := { s with handled := s.handled ++ [(d, true)], out := _ })
      · rw [hacc _ rfl]; exact hacks
      · simp [h.split]
      · exact h.ok
      · exact h.processed
      · exact h.broken
      · intro r t hr; exact h.refs r t (by simpa [Sess.send] using hr)
      · rw [← hbuf]; exact hp.snoc_transfer htid'.symm hst hend
    · next hend =>
      have hpe : IsPending (pend ++ [d]) tid := hp.snoc htid'.symm hst (by simpa using hend)
      refine ⟨groups, pend ++ [d], ?_⟩
      refine ⟨by rw [hacc _ rfl]; exact hacks, by simp [Sess.send, h.split], h.ok,
        fun r t hr => h.refs r t (by simpa [Sess.send] using hr), Or.inr ⟨tid, hpe⟩,
        h.processed, h.broken, Or.inr ?_⟩
      rw [hacc _ rfl]
      simp only
      refine ⟨?_, by simp [bytesOf] at hbuf ⊢; rw [hbuf], ?_⟩
      · rw [← htid']; exact hpe
      · rw [countAfter_append, hcount]; simp [countAfter, hst]
  | idle =>
    rw [hrx] at hr
    simp only at hr
    simp only
    split
    · exact ⟨groups, pend, h.same (SameRx.terminated s)⟩
    next hguard =>
    have hst : d.flags.start = true := by
      cases hf : d.flags with
      | mk en st =>
        rw [hf] at hguard
        cases en <;> cases st <;> simp_all [SegFlags.isEmpty]
    split
    · next href =>
      obtain ⟨x, hx, hx'⟩ : ∃ x ∈ d.extensions, e.hasItem x.data = true := by
        simp only [Sess.refuses, Bool.and_eq_true, List.any_eq_true] at href
        exact href.2
      refine ⟨groups ++ [([d], none)], [], ?_⟩
      refine ⟨?_, ?_, ?_, ?_, Or.inl rfl, by simp [Sess.send, h.processed], by simp [Sess.send, h.broken], Or.inr ?_⟩
      · simp only [Sess.send, acksIn_append, h.acks]
        simp [acksIn, accepted]
      · simp [h.split, hr, Group.items]
      · intro g hg
        have hmono : ∀ x, x ∈ s.refused → x ∈ s.refused ++ (d.extensions.map (·.data)).filter e.hasItem :=
          fun x hx => List.mem_append_left _ hx
        rcases List.mem_append.mp hg with hg | hg
        · have := h.ok g hg
          unfold Group.Ok at this ⊢
          cases hg2 : g.2 with
          | some data => rw [hg2] at this; exact this
          | none =>
            rw [hg2] at this
            obtain ⟨d', h1, h2, x, h3, h4⟩ := this
            exact ⟨d', h1, h2, x, h3, hmono _ h4⟩
        · simp at hg; subst hg
          exact ⟨d, rfl, hst, x, hx, by simp only [List.mem_append, List.mem_filter, List.mem_map]
                                        exact Or.inr ⟨⟨x, hx, rfl⟩, hx'⟩⟩
      · intro r t hr
        simp only [Sess.send, List.mem_append, List.mem_singleton, Packet.xferRefuse.injEq] at hr
        rcases hr with hr | ⟨_, rfl⟩
        · rcases h.refs r t hr with ⟨g, hg, hg'⟩ | h
          · exact Or.inl ⟨g, List.mem_append_left _ hg, hg'⟩
          · exact Or.inr h
        · exact Or.inl ⟨([d], none), by simp, rfl, d, by simp, rfl⟩
      · simp [Sess.send, hrx]
    · have hacks : acksIn (s.out ++ [.xferAck { flags := {}, tid := d.tid, len := d.len }]) =
          ackValues 0 (accepted s ++ [d]) := by
        rw [acksIn_append, h.acks, ackValues_append]
        simp [acksIn, ackValues, hst, hlen]
      have hacc : ∀ s' : Sess, s'.handled = s.handled ++ [(d, true)] → accepted s' = accepted s ++ [d] :=
        fun s' h => accepted_snoc h
      split
      · next hend =>
        refine ⟨groups ++ [([d], some d.buf)], [], ?_⟩
        apply RxShape.finish (s := { s with handled := s.handled ++ [(d, true)], out := _ })
        · rw [hacc _ rfl]; exact hacks
        · simp [h.split, hr]
        · exact h.ok
        · exact h.processed
        · exact h.broken
        · intro r t hr; exact h.refs r t (by simpa [Sess.send] using hr)
        · exact isTransfer_single hst hend
      · next hend =>
        have hpe := isPending_single hst (show d.flags.end = false by simpa using hend)
        refine ⟨groups, [d], ?_⟩
        refine ⟨by rw [hacc _ rfl]; exact hacks, by simp [Sess.send, h.split, hr], h.ok,
          fun r t hr => h.refs r t (by simpa [Sess.send] using hr), Or.inr ⟨_, hpe⟩,
          h.processed, h.broken, Or.inr ?_⟩
        rw [hacc _ rfl]
        simp only
        refine ⟨hpe, by simp [bytesOf], ?_⟩
        rw [countAfter_append]; simp [countAfter, hst]

/-- Messages other than transfer segments leave the receiving side alone. -/
theorem SameRx.receive (e : Env) (s : Sess) (p : Packet) (hs : s.isTerminated = false)
    (hp : ∀ d, p ≠ .xferSeg d) : SameRx s (s.receive e p) := by
  unfold Sess.receive
  split
  · split
    · exact SameRx.terminated s
    · exact (SameRx.send s _ rfl).trans (SameRx.terminated _)
  · next d => exact absurd rfl (hp d)
  · split
    · split
      · exact SameRx.terminated s
      · exact SameRx.sendBundle s hs _ _
    · split
      · exact SameRx.terminated s
      · split
        · exact SameRx.refl s
        · exact SameRx.fields _ _ hs rfl rfl rfl rfl rfl rfl
    · exact SameRx.terminated s
  · split
    · split
      · exact SameRx.terminated s
      · exact SameRx.fields _ _ hs rfl rfl rfl rfl rfl rfl
    · split
      · exact SameRx.terminated s
      · exact SameRx.fields _ _ hs rfl rfl rfl rfl rfl rfl
    · exact SameRx.terminated s
  · exact SameRx.terminated s

theorem SameRx.request (e : Env) (s : Sess) (data : Bytes) (hs : s.isTerminated = false) :
    SameRx s (s.request e data) := by
  unfold Sess.request
  simp only
  have h0 : ∀ s', s'.isTerminated = false → s'.rx = s.rx → s'.handled = s.handled → s'.refused = s.refused →
    s'.processed = s.processed → s'.broken = s.broken → s'.out = s.out → SameRx s s' :=
    fun s' _ h1 h2 h2' h3 h4 h5 => SameRx.fields _ _ hs h1 h2 h2' h3 h4 (by rw [h5])
  split
  · split
    · refine SameRx.fields _ _ hs rfl rfl rfl rfl rfl ?_
      simp [Sess.send, respIn_append]; simp [respIn, isResp]
    · refine SameRx.trans ?_ (SameRx.terminated _)
      exact h0 _ hs rfl rfl rfl rfl rfl rfl
  · refine SameRx.trans (b := { s with lastTid := s.lastTid + 1, requests := s.requests ++ [data], keepaliveSent := false, keepaliveReceived := false }) ?_ (SameRx.sendBundle _ (by exact hs) _ _)
    exact h0 _ hs rfl rfl rfl rfl rfl rfl

theorem RxShape.step {e : Env} {s : Sess} {runs : List Group} {pend : List XferSeg} (h : RxShape e s runs pend) (ev : Sess.Ev)
    (hw : ∀ d, ev = .recv (.xferSeg d) → d.len = d.buf.length) :
    ∃ runs' pend', RxShape e (s.step e ev) runs' pend' := by
  by_cases hs : s.isTerminated = true
  · exact ⟨runs, pend, by simpa [Sess.step, hs] using h⟩
  have hs : s.isTerminated = false := by simpa using hs
  unfold Sess.step
  cases ev with
  | recv p =>
    simp only [hs, Bool.false_eq_true, if_false]
    by_cases hk : p = .keepAlive
    · subst hk
      refine ⟨_, _, h.same ?_⟩
      simp only
      split
      · exact SameRx.fields _ _ hs rfl rfl rfl rfl rfl rfl
      · refine SameRx.fields _ _ hs rfl rfl rfl rfl rfl ?_
        simp [Sess.send, respIn_append]; simp [respIn, isResp]
    · have keep : ∀ s' : Sess, SameRx s' { s' with keepaliveReceived := false, keepaliveSent := false } :=
        fun s' => ⟨Or.inl rfl, id, rfl, rfl, rfl, rfl, rfl⟩
      by_cases hseg : ∃ d, p = .xferSeg d
      · obtain ⟨d, rfl⟩ := hseg
        obtain ⟨r, q, hh⟩ := h.receiveSeg d hs (hw _ rfl)
        exact ⟨r, q, hh.same (keep _)⟩
      · refine ⟨_, _, (h.same (SameRx.receive e s p hs fun d hd => hseg ⟨d, hd⟩)).same ?_⟩
        cases p <;> first | exact keep _ | exact absurd rfl hk
  | request data =>
    simp only [hs, Bool.false_eq_true, if_false]
    split
    · exact ⟨_, _, h.same (SameRx.request e s data hs)⟩
    · exact ⟨_, _, h⟩
  | closed =>
    simp only [hs, Bool.false_eq_true, if_false]
    split
    · exact ⟨_, _, h.same ((SameRx.send s _ rfl).trans (SameRx.terminated _))⟩
    · exact ⟨_, _, h⟩
  | timeout =>
    refine ⟨_, _, h.same ?_⟩
    simp only [hs, Bool.false_eq_true, if_false]
    have h2 : ∀ s1 : Sess, SameRx s s1 → SameRx s
        (if (!s1.keepaliveReceived && s1.keepaliveSent) = true then s1.terminate .idleTimeout else s1) := by
      intro s1 h1
      split
      · exact h1.trans ((SameRx.send _ (.sessTerm false .idleTimeout) rfl).trans
          (SameRx.terminated _))
      · exact h1
    split
    · exact h2 _ (SameRx.refl s)
    · refine h2 _ (SameRx.fields _ _ hs rfl rfl rfl rfl rfl ?_)
      simp [Sess.send, respIn_append]; simp [respIn, isResp]
  | lost =>
    simp only [hs, Bool.false_eq_true, if_false]
    exact ⟨_, _, h.same (SameRx.terminated s)⟩

theorem RxShape.env {e : Env} {s : Sess} {runs pend} (h : RxShape e s runs pend) (has : Bytes → Bool) :
    RxShape { e with hasItem := has } s runs pend := ⟨h.1, h.2, h.3, h.4, h.5, h.6, h.7, h.8⟩

theorem RxShape.unenv {e : Env} {s : Sess} {runs pend} {has : Bytes → Bool}
    (h : RxShape { e with hasItem := has } s runs pend) : RxShape e s runs pend :=
  ⟨h.1, h.2, h.3, h.4, h.5, h.6, h.7, h.8⟩

/-- A session that has just been started. -/
def Fresh (s : Sess) : Prop :=
  ∃ refuse loc remote, s = newSess refuse loc remote

theorem RxShape.fresh {e : Env} {s : Sess} (h : Fresh s) : RxShape e s [] [] := by
  obtain ⟨r, l, m, rfl⟩ := h
  exact ⟨rfl, rfl, by simp, by intro r t h; simp [newSess] at h, Or.inl rfl, rfl, rfl, Or.inr rfl⟩

theorem RxShape.run {e : Env} (evs : List ((Bytes → Bool) × Sess.Ev)) : ∀ {s : Sess} {runs pend},
    RxShape e s runs pend → (∀ x ∈ evs, ∀ d, x.2 = .recv (.xferSeg d) → d.len = d.buf.length) →
    ∃ runs' pend', RxShape e (s.run e evs) runs' pend' := by
  induction evs with
  | nil => intro s runs pend h _; exact ⟨_, _, h⟩
  | cons x evs ih =>
    intro s runs pend h hw
    obtain ⟨r, q, h'⟩ := (h.env x.1).step x.2 (hw x (by simp))
    exact ih h'.unenv (fun y hy => hw y (by simp [hy]))

end Dtn.Tcpcl
